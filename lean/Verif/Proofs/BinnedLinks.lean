import Verif.Proofs.BuilderMain
import Verif.Spec.Links
/- Children come after their parents in every binned build, whatever the schedule. -/
namespace Rtbvh
variable {F : Type} [FloatOps F]

/-- Invariant of the concurrent build about links; `n` is the number of primitives. -/
structure LinkInv (n : Nat) (s : BinnedState F) : Prop where
  len : s.nodes.length = 2 * n - 1
  nodes : ∀ (i : Nat) (nd : BvhNode F), s.nodes[i]? = some nd → nd.LinksOk s.counter n i
  tasks : ∀ t ∈ s.pending, t.1.node < s.counter ∧ t.1.begin ≤ t.1.stop ∧ t.1.stop ≤ n ∧
    ∀ left, t.2 = .allocated left → t.1.node < left ∧ left + 1 < s.counter

theorem asI32_small {x : Nat} (h : x < 2 ^ 31) : asI32 x = (x : Int) := by
  unfold asI32
  have : x % 4294967296 = x := Nat.mod_eq_of_lt (by omega)
  rw [this, if_pos (by omega)]

omit [FloatOps F] in
theorem BvhNode.LinksOk.mono {n c c' i : Nat} {nd : BvhNode F} (h : nd.LinksOk c n i) (hc : c ≤ c') : nd.LinksOk c' n i :=
  ⟨h.1, fun hh => by have := h.2 hh; omega⟩

theorem binnedDecide_mid {ctx : BinnedCtx F} {bounds : Aabb F} {sl sl' : List Nat} {depth mid : Nat} {lb rb : Aabb F}
    (e : binnedDecide ctx bounds sl depth = some (.split sl' mid lb rb)) : mid ≤ sl.length := by
  unfold binnedDecide at e
  split at e
  · cases e
  split at e
  · cases e
  split at e
  · cases e
  split at e
  · cases e
  split at e
  · rename_i h
    simp only [Option.some.injEq, BinnedOutcome.split.injEq] at e
    obtain ⟨_, rfl, _⟩ := e
    omega
  · cases e

theorem LinkInv.step {ctx : BinnedCtx F} {n : Nat} (hn : n ≤ 2 ^ 30) {s s' : BinnedState F} (h : LinkInv n s) {k : Nat}
    (e : binnedStep ctx s k = some s') : LinkInv n s' := by
  unfold binnedStep at e
  split at e
  · cases e; exact h
  rename_i t phase ht
  have htm : (t, phase) ∈ s.pending := List.mem_of_getElem? ht
  obtain ⟨t1, t2, t3, t4⟩ := h.tasks _ htm
  simp only at t1 t2 t3 t4
  have herase : ∀ x ∈ s.pending.eraseIdx k, x ∈ s.pending := fun x hx => List.mem_of_mem_eraseIdx hx
  split at e
  · cases e
  rename_i nodes counter sl new hstep
  cases e
  unfold taskStep at hstep
  split at hstep
  · cases hstep
  rename_i nd hnd
  split at hstep
  · cases hstep
  · rename_i sl' hdec
    cases hstep
    refine ⟨by simpa using h.len, ?_, ?_⟩
    · intro i nd' hi
      simp only at hi ⊢
      by_cases hin : i = t.node
      · subst hin
        rw [List.getElem?_set_self (List.getElem?_eq_some_iff.1 hnd).1] at hi
        cases hi
        simp only [BvhNode.LinksOk, leafNode, BvhNode.setCount, BvhNode.setLeftFirst]
        rw [asI32_small (by omega), asI32_small (by omega)]
        omega
      · rw [List.getElem?_set_ne (by omega)] at hi
        exact h.nodes i nd' hi
    · intro x hx
      simp only [List.append_nil] at hx
      exact h.tasks x (herase x hx)
  · rename_i sl' mid lb rb hdec
    have hmid := binnedDecide_mid hdec
    have hslen : (sliceOf s.prims t.begin t.stop).length ≤ t.stop - t.begin := by
      simp [sliceOf]; omega
    split at hstep
    · split at hstep
      · rename_i left c hall
        cases hstep
        unfold allocate at hall
        simp only [Prod.mk.injEq] at hall
        obtain ⟨ha, hc⟩ := hall
        split at ha
        · cases ha
        split at ha
        · rename_i h1 h2
          simp only [Alloc.pair.injEq] at ha
          subst ha; subst hc
          refine ⟨h.len, ?_, ?_⟩
          · intro i nd' hi
            exact BvhNode.LinksOk.mono (h.nodes i nd' hi) (by simp)
          · intro x hx
            rcases List.mem_append.1 hx with hx | hx
            · obtain ⟨a1, a2, a3, a4⟩ := h.tasks x (herase x hx)
              exact ⟨by simp only; omega, a2, a3, fun l hl => by have := a4 l hl; simp only; omega⟩
            · simp only [List.mem_singleton] at hx
              subst hx
              refine ⟨by simp only; omega, t2, t3, ?_⟩
              intro l hl
              simp only [TaskPhase.allocated.injEq] at hl
              subst hl
              simp only; omega
        · cases ha
      · cases hstep
    · rename_i left
      obtain ⟨g1, g2⟩ := t4 left rfl
      split at hstep
      · rename_i ln rn hln hrn
        cases hstep
        have hleft := (List.getElem?_eq_some_iff.1 hrn).1
        have hlen := h.len
        refine ⟨by simpa using h.len, ?_, ?_⟩
        · intro i nd' hi
          have base : ∀ (j : Nat) (nd0 : BvhNode F) (bx : Aabb F), s.nodes[j]? = some nd0 → bx.extra1 = 0 → bx.extra2 = 0 →
              (⟨bx⟩ : BvhNode F).LinksOk s.counter n j := by
            intro j nd0 bx _ b1 b2
            unfold BvhNode.LinksOk
            simp only [b1, b2]; omega
          have bx0 : ∀ l : List (SahBin F), (binsBox l).extra1 = 0 ∧ (binsBox l).extra2 = 0 := by
            intro l
            unfold binsBox
            have : ∀ (l : List (SahBin F)) (a : Aabb F), (l.foldl (fun acc b => acc.growBB b.aabb) a).extra1 = a.extra1 ∧
                (l.foldl (fun acc b => acc.growBB b.aabb) a).extra2 = a.extra2 := by
              intro l
              induction l with
              | nil => intro a; exact ⟨rfl, rfl⟩
              | cons b bs ih => intro a; exact ih _
            exact this l _
          have hlb : lb.extra1 = 0 ∧ lb.extra2 = 0 ∧ rb.extra1 = 0 ∧ rb.extra2 = 0 := by
            unfold binnedDecide at hdec
            split at hdec
            · cases hdec
            split at hdec
            · cases hdec
            split at hdec
            · cases hdec
            split at hdec
            · cases hdec
            split at hdec
            · simp only [Option.some.injEq, BinnedOutcome.split.injEq] at hdec
              obtain ⟨_, _, rfl, rfl⟩ := hdec
              exact ⟨(bx0 _).1, (bx0 _).2, (bx0 _).1, (bx0 _).2⟩
            · cases hdec
          by_cases i1 : i = left + 1
          · subst i1
            rw [List.getElem?_set_self (by simpa using hleft)] at hi
            cases hi
            exact base _ rn _ hrn hlb.2.2.1 hlb.2.2.2
          · rw [List.getElem?_set_ne (by omega)] at hi
            by_cases i2 : i = left
            · subst i2
              rw [List.getElem?_set_self (by simp; omega)] at hi
              cases hi
              exact base _ ln _ hln hlb.1 hlb.2.1
            · rw [List.getElem?_set_ne (by omega)] at hi
              by_cases i3 : i = t.node
              · subst i3
                rw [List.getElem?_set_self (List.getElem?_eq_some_iff.1 hnd).1] at hi
                cases hi
                simp only [BvhNode.LinksOk, BvhNode.setCount, BvhNode.setLeftFirst]
                rw [asI32_small (by omega)]
                omega
              · rw [List.getElem?_set_ne (by omega)] at hi
                exact h.nodes i nd' hi
        · intro x hx
          rcases List.mem_append.1 hx with hx | hx
          · exact h.tasks x (herase x hx)
          · simp only [List.mem_cons, List.not_mem_nil, or_false] at hx
            rcases hx with rfl | rfl
            · exact ⟨by simp only; omega, by simp, by simp only; omega, by simp⟩
            · exact ⟨by simp only; omega, by simp only; omega, by simp only; omega, by simp⟩
      · cases hstep

theorem LinkInv.exec {ctx : BinnedCtx F} {n : Nat} (hn : n ≤ 2 ^ 30) (ks : List Nat) :
    ∀ {s s' : BinnedState F}, LinkInv n s → binnedExec ctx ks s = some s' → LinkInv n s' := by
  induction ks with
  | nil => intro s s' h e; cases e; exact h
  | cons k ks ih =>
    intro s s' h e
    rw [binnedExec, Option.bind_eq_some_iff] at e
    obtain ⟨s1, e1, e2⟩ := e
    exact ih (h.step hn e1) e2

theorem LinkInv.init (ctx : BinnedCtx F) (hpos : 0 < ctx.aabbs.length) :
    LinkInv ctx.aabbs.length (binnedInit ctx) := by
  have hu : ∀ bs : List (Aabb F), (Aabb.unionOfList bs).extra1 = 0 ∧ (Aabb.unionOfList bs).extra2 = 0 := by
    intro bs
    have : ∀ (l : List (Aabb F)) (a : Aabb F), (l.foldl Aabb.growBB a).extra1 = a.extra1 ∧
        (l.foldl Aabb.growBB a).extra2 = a.extra2 := by
      intro l
      induction l with
      | nil => intro a; exact ⟨rfl, rfl⟩
      | cons b bs ih => intro a; exact ih _
    exact this bs _
  refine ⟨by simp [binnedInit]; omega, ?_, ?_⟩
  · intro i nd hi
    have : nd.bounds.extra1 = 0 ∧ nd.bounds.extra2 = 0 := by
      simp only [binnedInit] at hi
      by_cases h0 : i = 0
      · subst h0
        rw [List.getElem?_set_self (by simp; omega)] at hi
        cases hi
        exact hu _
      · rw [List.getElem?_set_ne (by omega), List.getElem?_replicate] at hi
        split at hi
        · cases hi; exact ⟨rfl, rfl⟩
        · cases hi
    unfold BvhNode.LinksOk
    rw [this.1, this.2]; omega
  · intro t ht
    simp only [binnedInit, List.mem_singleton] at ht
    subst ht
    simp [binnedInit]

/-- Every finished binned build has its children behind their parents and all links in range. -/
theorem binned_linksOk {b : Builder F} {order ks : List Nat} (h : b.Legal order) {bvh : Bvh F}
    (e : b.constructBinnedSah order ks = .ok (some (some bvh))) : bvh.LinksOk := by
  obtain ⟨T, P, hb, hT, H⟩ := builder_main h
  obtain ⟨s, hex, _, h3, h4⟩ := H ks
  have hp : s.pending = [] := by
    by_cases hp : s.pending = []
    · exact hp
    · rw [h4 hp] at e; cases e
  obtain ⟨e', hP, hU, hn⟩ := h3 hp
  rw [e'] at e; cases e
  have hlen : (b.ctx order).aabbs.length = b.primitives.length := by
    simp [Builder.ctx, BinnedCtx.new, Builder.boxes_length h]
  have hpos := List.length_pos_iff.2 h.nonempty
  have hinv := LinkInv.exec (by rw [hlen]; exact h.small) ks (LinkInv.init (b.ctx order) (by omega)) hex
  have hil : (binnedFinish s).primIndices.length = b.primitives.length := by
    rw [hP, hT.perm.length_eq]; simp
  have hnl : (binnedFinish s).nodes.length = s.counter := by simp [binnedFinish]; omega
  intro i nd hi
  rw [hil, hnl]
  simp only [binnedFinish] at hi
  by_cases hi' : i < (s.nodes.take s.counter).length
  · rw [List.getElem?_append_left hi', List.getElem?_take_of_lt (by simp at hi'; omega)] at hi
    have := hinv.nodes i nd hi
    rwa [hlen] at this
  · rw [List.getElem?_append_right (by omega), List.getElem?_replicate] at hi
    split at hi
    · cases hi
      unfold BvhNode.LinksOk
      simp [BvhNode.new, Aabb.new]
    · cases hi

end Rtbvh
