import Mathlib.Data.List.Perm.Subperm
import Verif.Proofs.SpatialMain
import Verif.Proofs.BinnedLinks
import Verif.Spec.Links
/- Children come after their parents in every spatial build, whatever the schedule. -/
namespace Rtbvh
variable {F : Type} [FloatOps F]

/-- Proof device: node `i`, not owned by a pending task, has its children behind itself; every id written so far is an id
of a primitive. -/
structure UpInv (N : Nat) (s : SpatialState F) : Prop where
  tasks : ∀ x ∈ s.pending, x.1.node < s.counter ∧ ∀ left, x.2 = .allocated left → x.1.node < left ∧ left + 1 < s.counter
  nodes : ∀ (i : Nat) (nd : BvhNode F), s.nodes[i]? = some nd → (∀ x ∈ s.pending, x.1.node ≠ i) → nd.bounds.extra1 < 0 →
    (i : Int) < nd.bounds.extra2
  refs : s.refs.All fun r => r.primId < N
  prims : ∀ p ∈ s.prims, p < N

omit [FloatOps F] in
theorem SDen.task_count [FloatOps F] {ctx : SpatialCtx F} {thr : F} {N : Nat} {nodes : List (BvhNode F)} {prims : List Nat}
    {idx b d len : Nat} {v : RefView F} {T : Except Fault (IdTree F)} {fp : List Nat} {rg : List (Nat × Nat)}
    {ts : List (SpatialTask × SpatialPhase)} {w r : Nat} (h : SDen ctx thr N nodes prims idx b d len v T fp rg ts w r) :
    ∀ x ∈ ts, x.1.stop ≤ x.1.splitEnd := by
  induction h with
  | ready _ _ _ _ hn => simp only [List.mem_singleton]; rintro x rfl; simp only; omega
  | leafAt _ _ _ _ hn => simp only [List.mem_singleton]; rintro x rfl; simp only; omega
  | alloc _ _ _ _ hn => simp only [List.mem_singleton]; rintro x rfl; simp only; omega
  | leaf => simp
  | node _ _ _ _ _ ihL ihR =>
    intro x hx
    rcases List.mem_append.1 hx with h | h
    · exact ihL x h
    · exact ihR x h

theorem mem_writeAt {α : Type} {l xs : List α} {b : Nat} {a : α} (h : a ∈ writeAt l b xs) : a ∈ l ∨ a ∈ xs := by
  unfold writeAt at h
  simp only [List.mem_append] at h
  rcases h with (h | h) | h
  · exact .inl (List.mem_of_mem_take h)
  · exact .inr h
  · exact .inl (List.mem_of_mem_drop h)

omit [FloatOps F] in
theorem RefView.All.write {v w : RefView F} {P : Ref F → Prop} (h : v.All P) (hw : w.All P) (b : Nat) : (v.write b w).All P := by
  refine ⟨?_, ?_, ?_⟩
  · intro r hr; exact (mem_writeAt hr).elim (h.1 r) (hw.1 r)
  · intro r hr; exact (mem_writeAt hr).elim (h.2.1 r) (hw.2.1 r)
  · intro r hr; exact (mem_writeAt hr).elim (h.2.2 r) (hw.2.2 r)

theorem UpInv.step {ctx : SpatialCtx F} (hsort : ctx.Sorts) {thr : F} {N M : Nat} (hM : M < 2 ^ 30)
    (hN : ctx.prims.length = N) {s s' : SpatialState F} {T : Except Fault (IdTree F)} {r k : Nat}
    (hI : SInv ctx thr N M s T r) (h : UpInv N s) (e : spatialStep ctx thr s k = .ok s') : UpInv N s' := by
  obtain ⟨⟨fp, rg, ts, w, hD, -, -, -, -, -, -, hts⟩, hlen, hcnt, hpl⟩ := hI
  unfold spatialStep at e
  split at e
  · cases e; exact h
  rename_i t phase ht
  have htm : (t, phase) ∈ s.pending := List.mem_of_getElem? ht
  obtain ⟨hk, hkk⟩ := List.getElem?_eq_some_iff.1 ht
  have hperm := List.getElem_cons_eraseIdx_perm hk
  rw [hkk] at hperm
  have herase : ∀ x ∈ s.pending.eraseIdx k, x ∈ s.pending := fun x hx => List.mem_of_mem_eraseIdx hx
  have hback : ∀ x ∈ s.pending, x = (t, phase) ∨ x ∈ s.pending.eraseIdx k := fun x hx => by
    simpa using hperm.mem_iff.2 hx
  obtain ⟨t1, t2⟩ := h.tasks _ htm
  simp only at t1 t2
  have hb := hD.task_bounds (hts.mem_iff.2 htm)
  have hst := hD.task_count _ (hts.mem_iff.2 htm)
  simp only at hst
  have hvl := hD.viewLen
  have hsl : (s.refs.slice t.begin t.splitEnd).Len (t.splitEnd - t.begin) := by
    refine ⟨?_, ?_, ?_⟩ <;> simp [RefView.slice, sliceOf, hvl.1, hvl.2.1, hvl.2.2] <;> omega
  have hsa := h.refs.slice t.begin t.splitEnd
  split at e
  · cases e
  rename_i f hstep
  cases e
  unfold spatialTaskStep at hstep
  split at hstep
  · cases hstep
  rename_i nd hnd
  split at hstep
  · cases hstep
  · rename_i v' hdec
    rcases spatialDecide_ok hsort hN hsl hsa (by omega) hdec with ⟨_, e, hl', ha'⟩ | ⟨_, e, _⟩
    swap
    · simp at e
    cases e
    simp only at hstep
    split at hstep
    · split at hstep
      · cases hstep
      cases hstep
      refine ⟨?_, ?_, h.refs.write ha' _, ?_⟩
      · intro x hx
        simp only [List.append_nil] at hx
        exact h.tasks x (herase x hx)
      · intro i nd' hi hno hneg
        simp only [List.append_nil] at hi hno
        by_cases hin : i = t.node
        · subst hin
          rw [List.getElem?_set_self (List.getElem?_eq_some_iff.1 hnd).1] at hi
          cases hi
          simp only [BvhNode.setCount] at hneg
          rw [asI32_small (by omega)] at hneg
          omega
        · rw [List.getElem?_set_ne (by omega)] at hi
          refine h.nodes i nd' hi (fun x hx => ?_) hneg
          rcases hback x hx with rfl | hx
          · simp only; omega
          · exact hno x hx
      · intro p hp
        rcases mem_writeAt hp with hp | hp
        · exact h.prims p hp
        · obtain ⟨q, hq, rfl⟩ := List.mem_map.1 hp
          exact ha'.1 q (List.mem_of_mem_take hq)
    · cases hstep
      refine ⟨?_, ?_, h.refs.write hsa _, h.prims⟩
      · intro x hx
        rcases List.mem_append.1 hx with hx | hx
        · exact h.tasks x (herase x hx)
        · simp only [List.mem_singleton] at hx; subst hx
          exact ⟨t1, by simp⟩
      · intro i nd' hi hno hneg
        refine h.nodes i nd' hi (fun x hx => ?_) hneg
        rcases hback x hx with rfl | hx
        · exact hno (t, .leafAt s.refCount) (List.mem_append_right _ (List.mem_singleton_self _))
        · exact hno x (List.mem_append_left _ hx)
  · rename_i rr hdec
    rcases spatialDecide_ok hsort hN hsl hsa (by omega) hdec with ⟨_, e, _⟩ | ⟨_, e, hr, _⟩
    · simp at e
    cases e
    split at hstep
    · rename_i left
      obtain ⟨g1, g2⟩ := t2 left rfl
      split at hstep
      · rename_i ln rn hln hrn
        cases hstep
        have hleft := (List.getElem?_eq_some_iff.1 hrn).1
        refine ⟨?_, ?_, h.refs.write hr.all _, h.prims⟩
        · intro x hx
          rcases List.mem_append.1 hx with hx | hx
          · exact h.tasks x (herase x hx)
          · simp only [List.mem_cons, List.not_mem_nil, or_false] at hx
            rcases hx with rfl | rfl
            · refine ⟨?_, by simp⟩
              simp only; omega
            · refine ⟨?_, by simp⟩
              simp only; omega
        · intro i nd' hi hno hneg
          have n1 := hno _ (List.mem_append_right _ (List.mem_cons_self ..))
          have n2 := hno _ (List.mem_append_right _ (List.mem_cons_of_mem _ (List.mem_cons_self ..)))
          simp only at n1 n2 hi
          rw [List.getElem?_set_ne (by omega), List.getElem?_set_ne (by omega)] at hi
          by_cases i3 : i = t.node
          · subst i3
            rw [List.getElem?_set_self (List.getElem?_eq_some_iff.1 hnd).1] at hi
            cases hi
            simp only [Aabb.offsetBy, BvhNode.setCount, BvhNode.setLeftFirst]
            rw [asI32_small (by omega)]
            omega
          · rw [List.getElem?_set_ne (by omega)] at hi
            refine h.nodes i nd' hi (fun x hx => ?_) hneg
            rcases hback x hx with rfl | hx
            · simp only; omega
            · exact hno x (List.mem_append_left _ hx)
      · cases hstep
    · split at hstep
      · rename_i left c hall
        cases hstep
        unfold allocate at hall
        simp only [Prod.mk.injEq] at hall
        obtain ⟨ha, hc⟩ := hall
        split at ha
        · cases ha
        split at ha
        · simp only [Alloc.pair.injEq] at ha
          subst ha; subst hc
          refine ⟨?_, ?_, h.refs.write hsa _, h.prims⟩
          · intro x hx
            rcases List.mem_append.1 hx with hx | hx
            · have := h.tasks x (herase x hx)
              exact ⟨by simp only; omega, fun l hl => by have := this.2 l hl; simp only; omega⟩
            · simp only [List.mem_singleton] at hx
              subst hx
              refine ⟨by simp only; omega, ?_⟩
              intro l hl
              simp only [SpatialPhase.allocated.injEq] at hl
              simp only
              omega
          · intro i nd' hi hno hneg
            refine h.nodes i nd' hi (fun x hx => ?_) hneg
            rcases hback x hx with rfl | hx
            · exact hno (t, .allocated s.counter) (List.mem_append_right _ (List.mem_singleton_self _))
            · exact hno x (List.mem_append_left _ hx)
        · cases ha
      · cases hstep
      · cases hstep

theorem UpInv.exec {ctx : SpatialCtx F} (hsort : ctx.Sorts) {thr : F} {N M : Nat} (hM : M < 2 ^ 30)
    (hN : ctx.prims.length = N) {T : Except Fault (IdTree F)} (ks : List Nat) : ∀ {s s' : SpatialState F} {r : Nat},
    SInv ctx thr N M s T r → UpInv N s → spatialExec ctx thr ks s = .ok s' → UpInv N s' := by
  induction ks with
  | nil => intro s s' r _ h e; cases e; exact h
  | cons k ks ih =>
    intro s s' r hI h e
    by_cases hk : k < s.pending.length
    · rcases hI.step hsort hN hk with ⟨f, e1, _⟩ | ⟨s₁, r₁, e1, h1, _⟩
      · simp [spatialExec, e1] at e
      · simp only [spatialExec, e1] at e
        exact ih h1 (h.step hsort hM hN hI e1) e
    · simp only [spatialExec, spatialStep_illegal (ctx := ctx) (thr := thr) hk] at e
      exact ih hI h e

theorem UpInv.init {ctx : SpatialCtx F} {N : Nat} (hs : SpatialSetting ctx N) : UpInv N (spatialInit ctx) := by
  have hi := initialRefs_ids hs
  refine ⟨?_, ?_, ⟨hi, hi, hi⟩, ?_⟩
  · intro x hx
    simp only [spatialInit, List.mem_singleton] at hx
    subst hx
    simp [spatialInit]
  · intro i nd hi' hno hneg
    have h0 : (0 : Nat) ≠ i := by
      have := hno (⟨0, 0, ctx.aabbs.length, maxReferenceCount ctx, 0, false⟩, .ready) (by simp [spatialInit])
      exact this
    simp only [spatialInit] at hi'
    rw [List.getElem?_set_ne h0, List.getElem?_replicate] at hi'
    split at hi'
    · cases hi'; simp [BvhNode.new, Aabb.new] at hneg
    · cases hi'
  · intro p hp
    simp only [spatialInit, List.mem_replicate] at hp
    have := hs.pos
    omega

/-- The links of a finished subtree. -/
theorem SDen.links {ctx : SpatialCtx F} {thr : F} {N : Nat} {nodes : List (BvhNode F)} {prims : List Nat}
    {idx b d len : Nat} {v : RefView F} {T : Except Fault (IdTree F)} {fp : List Nat} {rg : List (Nat × Nat)}
    {ts : List (SpatialTask × SpatialPhase)} {w r : Nat} (h : SDen ctx thr N nodes prims idx b d len v T fp rg ts w r)
    (hts : ts = []) : ∀ i ∈ fp, ∃ nd, nodes[i]? = some nd ∧
      ((∃ f c, nd.bounds.extra1 = asI32 c ∧ nd.bounds.extra2 = asI32 f ∧ f + c ≤ prims.length) ∨
       (nd.bounds.extra1 = -1 ∧ ∃ left, nd.bounds.extra2 = asI32 left ∧ left ∈ fp ∧ left + 1 ∈ fp)) := by
  induction h with
  | ready => simp at hts
  | leafAt => simp at hts
  | alloc => simp at hts
  | leaf h hl hn hids h1 h2 hp hr =>
    intro i hi
    simp only [List.mem_singleton] at hi; subst hi
    exact ⟨_, h, .inl ⟨_, _, h1, h2, hr⟩⟩
  | node h h1 h2 hL hR ihL ihR =>
    obtain ⟨tL, tR⟩ := List.append_eq_nil_iff.1 hts
    intro i hi
    rcases List.mem_cons.1 hi with rfl | hi
    · exact ⟨_, h, .inr ⟨h1, _, h2, List.mem_cons_of_mem _ (List.mem_append_left _ hL.idx_mem),
        List.mem_cons_of_mem _ (List.mem_append_right _ hR.idx_mem)⟩⟩
    · rcases List.mem_append.1 hi with hi | hi
      · obtain ⟨nd, e, h | ⟨a, left, b1, b2, b3⟩⟩ := ihL tL i hi
        · exact ⟨nd, e, .inl h⟩
        · exact ⟨nd, e, .inr ⟨a, left, b1, List.mem_cons_of_mem _ (List.mem_append_left _ b2),
            List.mem_cons_of_mem _ (List.mem_append_left _ b3)⟩⟩
      · obtain ⟨nd, e, h | ⟨a, left, b1, b2, b3⟩⟩ := ihR tR i hi
        · exact ⟨nd, e, .inl h⟩
        · exact ⟨nd, e, .inr ⟨a, left, b1, List.mem_cons_of_mem _ (List.mem_append_right _ b2),
            List.mem_cons_of_mem _ (List.mem_append_right _ b3)⟩⟩

/-- Every finished spatial build has its children behind their parents and all links in range, and its index array, unused
tail included, holds ids of primitives only. -/
theorem spatial_links {ctx : SpatialCtx F} {N : Nat} (hs : SpatialSetting ctx N) {ks : List Nat} {bvh : Bvh F}
    (e : spatialBuild ctx ks = .ok (some bvh)) : bvh.LinksOk ∧ ∀ p ∈ bvh.primIndices, p < N := by
  have hguard : ¬ (ctx.prims.length ≠ ctx.aabbs.length ∨ ctx.prims = [] ∨ ctx.aabbs = []) := by
    have := hs.pos
    rw [hs.aabbs, hs.prims]
    rintro (h | h | h)
    · exact h rfl
    · have h2 := hs.prims; rw [h] at h2; simp at h2; omega
    · have h2 := hs.aabbs; rw [h] at h2; simp at h2; omega
  have hsm := hs.small
  unfold spatialBuild at e
  rw [if_neg hguard] at e
  split at e
  · cases e
  rename_i s hex
  split at e
  swap
  · cases e
  rename_i hp
  cases e
  have hU := UpInv.exec hs.sorts hsm hs.prims ks (spatialInit_inv hs) (UpInv.init hs) hex
  refine ⟨?_, hU.prims⟩
  rcases (spatialInit_inv hs).exec hs.sorts hs.prims ks with ⟨f, e, _⟩ | ⟨s', r, e, hI, _⟩
  · rw [hex] at e; cases e
  rw [hex] at e; cases e
  obtain ⟨⟨fp, rg, ts, w, hD, hnd, hfl, hfc, -, -, -, hts⟩, hlen, hcnt, hpl⟩ := hI
  have hts0 : ts = [] := by rw [hp] at hts; exact hts.eq_nil
  have hfin : (spatialFinish s).nodes = s.nodes.take s.counter := by
    simp [spatialFinish, Nat.sub_eq_zero_of_le hcnt]
  have hall : fp.Perm (List.range s.counter) :=
    (hnd.subperm (fun i hi => by simpa using hfc i hi)).perm_of_length_le (by simp [hfl])
  intro i nd hi
  have hlenf : (spatialFinish s).nodes.length = s.counter := by rw [hfin, List.length_take]; omega
  have hic : i < s.counter := by have := (List.getElem?_eq_some_iff.1 hi).1; omega
  rw [hfin, List.getElem?_take_of_lt hic] at hi
  obtain ⟨nd', e', hk⟩ := hD.links hts0 i (hall.mem_iff.2 (by simpa using hic))
  rw [hi] at e'; cases e'
  have hup := hU.nodes i nd hi (by simp [hp])
  rw [hlenf]
  change nd.LinksOk s.counter s.prims.length i
  rcases hk with ⟨f, c, h1, h2, h3⟩ | ⟨h1, left, h2, h3, h4⟩
  · rw [asI32_small (by omega)] at h1 h2
    unfold BvhNode.LinksOk
    rw [h1, h2]
    omega
  · have := hfc _ h3
    have := hfc _ h4
    rw [asI32_small (by omega)] at h2
    rw [h1] at hup
    unfold BvhNode.LinksOk
    rw [h1]
    refine ⟨fun h => by omega, fun _ => ⟨hup (by omega), by rw [h2]; omega⟩⟩

end Rtbvh
