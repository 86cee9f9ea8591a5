import Verif.Spec.Race
import Verif.Props.Spatial
/- Property C73: the tasks of the concurrent builders never touch the same memory. -/
namespace Rtbvh
variable {F : Type} [FloatOps F]

/-! ### Binned build -/

theorem Den.uses {ctx : BinnedCtx F} {nodes : List (BvhNode F)} {idx b d : Nat} {sl P fp : List Nat} {T : BTree F}
    {ts : List (BinnedTask × TaskPhase)} {r : Nat} (h : Den ctx nodes idx b d sl T P fp ts r) :
    ∀ x ∈ ts, x.1.node ∈ fp ∧ (∀ left, x.2 = .allocated left → left ∈ fp ∧ left + 1 ∈ fp) ∧ b ≤ x.1.begin ∧
      x.1.begin ≤ x.1.stop ∧ x.1.stop ≤ b + sl.length := by
  induction h with
  | ready => intro x hx; simp only [List.mem_singleton] at hx; subst hx; simp
  | alloc => intro x hx; simp only [List.mem_singleton] at hx; subst hx; simp
  | leaf => intro x hx; simp at hx
  | node h h1 h2 hL hR ihL ihR =>
    intro x hx
    rcases List.mem_append.1 hx with hx | hx
    · obtain ⟨q1, q2, q3, q4, q5⟩ := ihL x hx
      exact ⟨by simp [q1], fun l hl => by simp [q2 l hl], q3, q4, by simp; omega⟩
    · obtain ⟨q1, q2, q3, q4, q5⟩ := ihR x hx
      exact ⟨by simp [q1], fun l hl => by simp [q2 l hl], by omega, q4, by simp; omega⟩

theorem Den.apart {ctx : BinnedCtx F} {nodes : List (BvhNode F)} {idx b d : Nat} {sl P fp : List Nat} {T : BTree F}
    {ts : List (BinnedTask × TaskPhase)} {r : Nat} (h : Den ctx nodes idx b d sl T P fp ts r) (hnd : fp.Nodup) :
    ts.Pairwise fun x y => ∀ c, ¬ (BinnedTask.Uses x c ∧ BinnedTask.Uses y c) := by
  induction h with
  | ready => exact List.pairwise_singleton _ _
  | alloc => exact List.pairwise_singleton _ _
  | leaf => exact List.Pairwise.nil
  | @node idx b d slL slR nd left L R PL PR fpL fpR tsL tsR rL rR h h1 h2 hL hR ihL ihR =>
    rw [List.nodup_cons, List.nodup_append] at hnd
    obtain ⟨_, nL, nR, dis⟩ := hnd
    rw [List.pairwise_append]
    refine ⟨ihL nL, ihR nR, fun x hx y hy c hc => ?_⟩
    obtain ⟨x1, x2, x3, x4, x5⟩ := hL.uses x hx
    obtain ⟨y1, y2, y3, y4, y5⟩ := hR.uses y hy
    obtain ⟨cx, cy⟩ := hc
    cases c with
    | node i =>
      have hx : i ∈ fpL := by
        rcases cx with rfl | ⟨l, hl, rfl | rfl⟩
        · exact x1
        · exact (x2 _ hl).1
        · exact (x2 _ hl).2
      have hy : i ∈ fpR := by
        rcases cy with rfl | ⟨l, hl, rfl | rfl⟩
        · exact y1
        · exact (y2 _ hl).1
        · exact (y2 _ hl).2
      exact dis _ hx _ hy rfl
    | index i => simp only [BinnedTask.Uses] at cx cy; omega
    | ref i => exact cx

theorem pairwise_idx {α : Type} {R : α → α → Prop} {l : List α} (h : l.Pairwise R) (sym : ∀ x y, R x y → R y x)
    {i j : Nat} (hij : i ≠ j) {x y : α} (hx : l[i]? = some x) (hy : l[j]? = some y) : R x y := by
  obtain ⟨a1, rfl⟩ := List.getElem?_eq_some_iff.1 hx
  obtain ⟨a2, rfl⟩ := List.getElem?_eq_some_iff.1 hy
  rw [List.pairwise_iff_getElem] at h
  rcases Nat.lt_or_gt_of_ne hij with hlt | hlt
  · exact h i j a1 a2 hlt
  · exact sym _ _ (h j i a2 a1 hlt)

theorem sliceOf_get {α : Type} (l : List α) (b e i : Nat) :
    (sliceOf l b e)[i]? = if i < e - b then l[b + i]? else none := by
  unfold sliceOf
  rw [List.getElem?_take, List.getElem?_drop]

theorem sliceOf_congr {α : Type} {l l' : List α} {b e : Nat} (h : ∀ i, b ≤ i → i < e → l[i]? = l'[i]?) :
    sliceOf l b e = sliceOf l' b e := by
  apply List.ext_getElem?
  intro i
  rw [sliceOf_get, sliceOf_get]
  split
  · exact h _ (by omega) (by omega)
  · rfl

theorem writeAt_get {α : Type} {l xs : List α} {b : Nat} (h : b ≤ l.length) (i : Nat) :
    (writeAt l b xs)[i]? = if i < b then l[i]? else if i < b + xs.length then xs[i - b]? else l[i]? := by
  unfold writeAt
  have hl : (l.take b).length = b := by rw [List.length_take]; omega
  by_cases h1 : i < b
  · rw [if_pos h1, List.append_assoc, List.getElem?_append_left (by omega), List.getElem?_take, if_pos h1]
  · rw [if_neg h1]
    by_cases h2 : i < b + xs.length
    · rw [if_pos h2, List.getElem?_append_left (by rw [List.length_append]; omega),
        List.getElem?_append_right (by omega), hl]
    · rw [if_neg h2, List.getElem?_append_right (by rw [List.length_append]; omega), List.getElem?_drop,
        List.length_append, hl]
      congr 1; omega

/-- The nodes a task writes are among those it may use. -/
theorem taskStep_nodes {ctx : BinnedCtx F} {nodes nodes' : List (BvhNode F)} {counter c' : Nat} {slice sl : List Nat}
    {x : BinnedTask × TaskPhase} {new : List (BinnedTask × TaskPhase)}
    (h : taskStep ctx nodes counter slice x.1 x.2 = some (nodes', c', sl, new)) {i : Nat}
    (hi : ¬ BinnedTask.Uses x (.node i)) : nodes[i]? = nodes'[i]? := by
  obtain ⟨t, ph⟩ := x
  simp only [BinnedTask.Uses, not_or, not_exists, not_and] at hi
  unfold taskStep at h
  simp only at h
  split at h
  · cases h
  · split at h
    · cases h
    · cases h
      rw [List.getElem?_set_ne (by omega)]
    · split at h
      · split at h
        · cases h; rfl
        · cases h
      · rename_i left
        split at h
        · cases h
          have := hi.2 left rfl
          rw [List.getElem?_set_ne (by omega), List.getElem?_set_ne (by omega), List.getElem?_set_ne (by omega)]
        · cases h

/-- A task reads only what it may use, besides the atomic counter. -/
theorem taskStep_reads {ctx : BinnedCtx F} {nodes nodes2 nodes' : List (BvhNode F)} {counter c' : Nat}
    {slice sl : List Nat} {x : BinnedTask × TaskPhase} {new : List (BinnedTask × TaskPhase)}
    (h : taskStep ctx nodes counter slice x.1 x.2 = some (nodes', c', sl, new))
    (hl : nodes2.length = nodes.length) (hs : ∀ i, BinnedTask.Uses x (.node i) → nodes[i]? = nodes2[i]?) :
    ∃ nodes2', taskStep ctx nodes2 counter slice x.1 x.2 = some (nodes2', c', sl, new) ∧
      ∀ i, BinnedTask.Uses x (.node i) → nodes'[i]? = nodes2'[i]? := by
  obtain ⟨t, ph⟩ := x
  have h0 := hs t.node (.inl rfl)
  unfold taskStep at h ⊢
  simp only at h ⊢
  rw [← h0]
  split at h
  · cases h
  · rename_i nd e0
    split at h
    · cases h
    · rename_i sl' e1
      cases h
      refine ⟨_, rfl, fun i hi => ?_⟩
      rw [List.getElem?_set, List.getElem?_set, hl, hs i hi]
    · rename_i sl' mid lb rb e1
      split at h
      · rw [hl]
        split at h
        · rename_i left c ea
          cases h
          exact ⟨_, rfl, hs⟩
        · cases h
      · rename_i left
        have h1 := hs left (.inr ⟨left, rfl, .inl rfl⟩)
        have h2 := hs (left + 1) (.inr ⟨left, rfl, .inr rfl⟩)
        simp only [← h1, ← h2]
        split at h
        · rename_i ln rn e2 e3
          cases h
          refine ⟨_, rfl, fun i hi => ?_⟩
          simp only [List.getElem?_set, List.length_set, hl, hs i hi]
        · cases h

/-- C73, binned build. Every schedule keeps the tasks apart: in every state it leads to, the locations different
unfinished tasks may use are different; they all exist, and nobody may use nodes not allocated yet.  When a task makes a
step, locations it may not use keep their contents, and what it does depends only on the locations it may use and on the
atomic allocation counter. -/
theorem C73_binned_apart (b : Builder F) (order ks : List Nat) (h : b.Legal order) :
    ∃ s : BinnedState F, binnedExec (b.ctx order) ks (binnedInit (b.ctx order)) = some s ∧
      (∀ (i j : Nat) x y, i ≠ j → s.pending[i]? = some x → s.pending[j]? = some y →
        ∀ c, ¬ (BinnedTask.Uses x c ∧ BinnedTask.Uses y c)) ∧
      (∀ x ∈ s.pending, ∀ c, BinnedTask.Uses x c → s.Has c ∧ ∀ i, c = .node i → i < s.counter) ∧
      ∀ (k : Nat) x, s.pending[k]? = some x → ∃ s' new, binnedStep (b.ctx order) s k = some s' ∧
        s'.pending = s.pending.eraseIdx k ++ new ∧ (∀ c, ¬ BinnedTask.Uses x c → s.SameAt s' c) ∧
        ∀ (s2 : BinnedState F) (k2 : Nat), s2.pending[k2]? = some x → s2.counter = s.counter →
          s2.nodes.length = s.nodes.length → (∀ c, BinnedTask.Uses x c → s.SameAt s2 c) →
          ∃ s2', binnedStep (b.ctx order) s2 k2 = some s2' ∧ s2'.pending = s2.pending.eraseIdx k2 ++ new ∧
            s2'.counter = s'.counter ∧ ∀ c, BinnedTask.Uses x c → s'.SameAt s2' c := by
  have hsm := h.small
  obtain ⟨T, P, _, _, hI⟩ := binnedInit_inv (Builder.setting h) (by omega)
  obtain ⟨s, r, e, hI', _, _⟩ := hI.exec ks
  obtain ⟨⟨fp, ts, hD, hnd, hfl, hfc, hts⟩, hlen, hpl⟩ := hI'
  have hfp := hD.fp_le
  have uses : ∀ x ∈ s.pending, ∀ c, BinnedTask.Uses x c → s.Has c ∧ ∀ i, c = .node i → i < s.counter := by
    intro x hx c hc
    obtain ⟨q1, q2, q3, q4, q5⟩ := hD.uses x (hts.mem_iff.2 hx)
    cases c with
    | node i =>
      have hi : i ∈ fp := by
        rcases hc with rfl | ⟨l, hl, rfl | rfl⟩
        · exact q1
        · exact (q2 _ hl).1
        · exact (q2 _ hl).2
      have := hfc i hi
      refine ⟨?_, fun j hj => by cases hj; exact this⟩
      show i < s.nodes.length
      omega
    | index i =>
      simp only [BinnedTask.Uses] at hc
      exact ⟨by show i < s.prims.length; omega, fun j hj => by cases hj⟩
    | ref i => exact hc.elim
  refine ⟨s, e, ?_, uses, ?_⟩
  · have hp := hts.pairwise_iff (R := fun x y => ∀ c, ¬ (BinnedTask.Uses x c ∧ BinnedTask.Uses y c))
      (fun h c hc => h c ⟨hc.2, hc.1⟩)
    intro i j x y hij hx hy
    exact pairwise_idx (hp.1 (hD.apart hnd)) (fun x y h c hc => h c ⟨hc.2, hc.1⟩) hij hx hy
  · intro k x hk
    have hm := List.mem_of_getElem? hk
    obtain ⟨t, ph⟩ := x
    obtain ⟨nodes', c', sl₁, new, fp', ts', r', e', hD', hts', hr, hlen', hout, hc, hb1, hb2, hb3⟩ :=
      hD.step hnd (fun i hi => by have := hfc i hi; omega) (counter := s.counter) (by intro hh; omega)
        (hts.mem_iff.2 hm)
    simp only [Nat.sub_zero, Nat.zero_add] at e' hb3
    refine ⟨⟨nodes', c', writeAt s.prims t.begin sl₁, s.pending.eraseIdx k ++ new⟩, new, ?_, rfl, ?_, ?_⟩
    · unfold binnedStep
      simp only [hk, e']
    · intro c hc
      cases c with
      | node i => exact taskStep_nodes (x := (t, ph)) e' hc
      | index i =>
        simp only [BinnedTask.Uses] at hc
        show s.prims[i]? = (writeAt s.prims t.begin sl₁)[i]?
        rw [writeAt_get (by omega)]
        by_cases h1 : i < t.begin
        · rw [if_pos h1]
        · rw [if_neg h1, if_neg (by omega)]
      | ref i => trivial
    · intro s2 k2 hk2 hcnt hnl hsame
      obtain ⟨n2, e2, hn2⟩ := taskStep_reads (x := (t, ph)) e' hnl fun i hi => hsame (.node i) hi
      have hsl : sliceOf s2.prims t.begin t.stop = sliceOf s.prims t.begin t.stop :=
        sliceOf_congr fun i h1 h2 => (hsame (.index i) ⟨h1, h2⟩).symm
      refine ⟨⟨n2, c', writeAt s2.prims t.begin sl₁, s2.pending.eraseIdx k2 ++ new⟩, ?_, rfl, rfl, ?_⟩
      · unfold binnedStep
        simp only [hk2, hsl, hcnt, e2]
      · intro c hc
        cases c with
        | node i => exact hn2 i hc
        | index i =>
          have hc' := hc
          simp only [BinnedTask.Uses] at hc
          have hlt : t.begin ≤ s2.prims.length := by
            have h1 := hsame (.index i) hc'
            simp only [BinnedState.SameAt] at h1
            rw [List.getElem?_eq_getElem (by omega)] at h1
            have := (List.getElem?_eq_some_iff.1 h1.symm).1
            omega
          show (writeAt s.prims t.begin sl₁)[i]? = (writeAt s2.prims t.begin sl₁)[i]?
          rw [writeAt_get (by omega), writeAt_get hlt, if_neg (by omega), if_pos (by omega), if_neg (by omega),
            if_pos (by omega)]
        | ref i => exact hc.elim

/-! ### Spatial build -/

theorem SDen.uses {ctx : SpatialCtx F} {thr : F} {N : Nat} {nodes : List (BvhNode F)} {prims : List Nat}
    {idx b d len : Nat} {v : RefView F} {T : Except Fault (IdTree F)} {fp : List Nat} {rg : List (Nat × Nat)}
    {ts : List (SpatialTask × SpatialPhase)} {w r : Nat}
    (h : SDen ctx thr N nodes prims idx b d len v T fp rg ts w r) :
    ∀ x ∈ ts, x.1.node ∈ fp ∧ (∀ left, x.2 = .allocated left → left ∈ fp ∧ left + 1 ∈ fp) ∧
      (∀ first, x.2 = .leafAt first → (first, x.1.stop - x.1.begin) ∈ rg) ∧ b ≤ x.1.begin ∧
      x.1.begin ≤ x.1.stop ∧ x.1.stop ≤ x.1.splitEnd ∧ x.1.splitEnd ≤ b + len := by
  induction h with
  | ready _ _ _ _ hn => intro x hx; simp only [List.mem_singleton] at hx; subst hx; simp [hn]
  | leafAt _ _ _ _ hn => intro x hx; simp only [List.mem_singleton] at hx; subst hx; simp [hn]
  | alloc _ _ _ _ hn => intro x hx; simp only [List.mem_singleton] at hx; subst hx; simp [hn]
  | leaf => intro x hx; simp at hx
  | node h h1 h2 hL hR ihL ihR =>
    intro x hx
    rcases List.mem_append.1 hx with hx | hx
    · obtain ⟨q1, q2, q2', q3, q4, q5, q6⟩ := ihL x hx
      exact ⟨by simp [q1], fun l hl => by simp [q2 l hl], fun l hl => by simp [q2' l hl], q3, q4, q5, by omega⟩
    · obtain ⟨q1, q2, q2', q3, q4, q5, q6⟩ := ihR x hx
      exact ⟨by simp [q1], fun l hl => by simp [q2 l hl], fun l hl => by simp [q2' l hl], by omega, q4, q5, by omega⟩

theorem SDen.apart {ctx : SpatialCtx F} {thr : F} {N : Nat} {nodes : List (BvhNode F)} {prims : List Nat}
    {idx b d len : Nat} {v : RefView F} {T : Except Fault (IdTree F)} {fp : List Nat} {rg : List (Nat × Nat)}
    {ts : List (SpatialTask × SpatialPhase)} {w r : Nat}
    (h : SDen ctx thr N nodes prims idx b d len v T fp rg ts w r) (hnd : fp.Nodup) (hdis : rg.Pairwise Disjoint2) :
    ts.Pairwise fun x y => ∀ c, ¬ (SpatialTask.Uses x c ∧ SpatialTask.Uses y c) := by
  induction h with
  | ready => exact List.pairwise_singleton _ _
  | leafAt => exact List.pairwise_singleton _ _
  | alloc => exact List.pairwise_singleton _ _
  | leaf => exact List.Pairwise.nil
  | @node idx b d lenL lenR vL vR nd left L R fpL fpR rgL rgR tsL tsR wL wR rL rR h h1 h2 hL hR ihL ihR =>
    rw [List.nodup_cons, List.nodup_append] at hnd
    obtain ⟨_, nL, nR, dis⟩ := hnd
    rw [List.pairwise_append] at hdis ⊢
    obtain ⟨dL, dR, dLR⟩ := hdis
    refine ⟨ihL nL dL, ihR nR dR, fun x hx y hy c hc => ?_⟩
    obtain ⟨x1, x2, x2', x3, x4, x5, x6⟩ := hL.uses x hx
    obtain ⟨y1, y2, y2', y3, y4, y5, y6⟩ := hR.uses y hy
    obtain ⟨cx, cy⟩ := hc
    cases c with
    | node i =>
      have hx : i ∈ fpL := by
        rcases cx with rfl | ⟨l, hl, rfl | rfl⟩
        · exact x1
        · exact (x2 _ hl).1
        · exact (x2 _ hl).2
      have hy : i ∈ fpR := by
        rcases cy with rfl | ⟨l, hl, rfl | rfl⟩
        · exact y1
        · exact (y2 _ hl).1
        · exact (y2 _ hl).2
      exact dis _ hx _ hy rfl
    | index i =>
      obtain ⟨f, hf, q1, q2⟩ := cx
      obtain ⟨g, hg, q3, q4⟩ := cy
      have := dLR _ (x2' f hf) _ (y2' g hg)
      unfold Disjoint2 at this
      simp only at this
      omega
    | ref i => simp only [SpatialTask.Uses] at cx cy; omega

/-- The nodes and indices a task writes are among those it may use. -/
theorem spatialTaskStep_writes {ctx : SpatialCtx F} {thr : F} {nodes : List (BvhNode F)} {counter refCount : Nat}
    {prims : List Nat} {view : RefView F} {x : SpatialTask × SpatialPhase} {e : SpatialEffect F}
    (h : spatialTaskStep ctx thr nodes counter refCount prims view x.1 x.2 = .ok e) :
    (∀ i, ¬ SpatialTask.Uses x (.node i) → nodes[i]? = e.nodes[i]?) ∧
      ∀ i, ¬ SpatialTask.Uses x (.index i) → prims[i]? = e.prims[i]? := by
  obtain ⟨t, ph⟩ := x
  unfold spatialTaskStep at h
  simp only at h
  split at h
  · cases h
  · split at h
    · cases h
    · rename_i nd e0 v' e1
      split at h
      · rename_i first
        split at h
        · cases h
        · rename_i hfit
          cases h
          refine ⟨fun i hi => ?_, fun i hi => ?_⟩
          · simp only [SpatialTask.Uses, not_or] at hi
            simp only
            rw [List.getElem?_set_ne (by omega)]
          · simp only [SpatialTask.Uses] at hi
            simp only
            rw [writeAt_get (by omega)]
            by_cases h1 : i < first
            · rw [if_pos h1]
            · rw [if_neg h1, if_neg ?_]
              intro h2
              apply hi
              refine ⟨first, rfl, by omega, ?_⟩
              have : ((v'.x.take (t.stop - t.begin)).map Ref.primId).length ≤ t.stop - t.begin := by simp
              omega
      · cases h
        exact ⟨fun _ _ => rfl, fun _ _ => rfl⟩
    · split at h
      · rename_i left
        split at h
        · cases h
          refine ⟨fun i hi => ?_, fun _ _ => rfl⟩
          simp only [SpatialTask.Uses, not_or, not_exists, not_and] at hi
          have := hi.2 left rfl
          simp only
          rw [List.getElem?_set_ne (by omega), List.getElem?_set_ne (by omega), List.getElem?_set_ne (by omega)]
        · cases h
      · split at h
        · cases h
          exact ⟨fun _ _ => rfl, fun _ _ => rfl⟩
        · cases h
        · cases h

/-- A task reads only what it may use, besides the atomic counters. -/
theorem spatialTaskStep_reads {ctx : SpatialCtx F} {thr : F} {nodes nodes2 : List (BvhNode F)} {counter refCount : Nat}
    {prims prims2 : List Nat} {view : RefView F} {x : SpatialTask × SpatialPhase} {e : SpatialEffect F}
    (h : spatialTaskStep ctx thr nodes counter refCount prims view x.1 x.2 = .ok e)
    (hl : nodes2.length = nodes.length) (hp : prims2.length = prims.length)
    (hs : ∀ i, SpatialTask.Uses x (.node i) → nodes[i]? = nodes2[i]?)
    (hsp : ∀ i, SpatialTask.Uses x (.index i) → prims[i]? = prims2[i]?) :
    ∃ e2, spatialTaskStep ctx thr nodes2 counter refCount prims2 view x.1 x.2 = .ok e2 ∧ e2.new = e.new ∧
      e2.counter = e.counter ∧ e2.refCount = e.refCount ∧ e2.view = e.view ∧
      (∀ i, SpatialTask.Uses x (.node i) → e.nodes[i]? = e2.nodes[i]?) ∧
      ∀ i, SpatialTask.Uses x (.index i) → e.prims[i]? = e2.prims[i]? := by
  obtain ⟨t, ph⟩ := x
  have h0 := hs t.node (.inl rfl)
  unfold spatialTaskStep at h ⊢
  simp only at h ⊢
  rw [← h0, hp]
  split at h
  · cases h
  · rename_i nd e0
    split at h
    · cases h
    · rename_i v' e1
      split at h
      · rename_i first
        split at h
        · cases h
        · rename_i hfit
          rw [if_neg hfit]
          cases h
          refine ⟨_, rfl, rfl, rfl, rfl, rfl, fun i hi => ?_, fun i hi => ?_⟩
          · simp only [List.getElem?_set, hl, hs i hi]
          · simp only
            rw [writeAt_get (by omega), writeAt_get (by omega), hsp i hi]
      · cases h
        exact ⟨_, rfl, rfl, rfl, rfl, rfl, hs, hsp⟩
    · rename_i r e1
      split at h
      · rename_i left
        have h1 := hs left (.inr ⟨left, rfl, .inl rfl⟩)
        have h2 := hs (left + 1) (.inr ⟨left, rfl, .inr rfl⟩)
        simp only [← h1, ← h2]
        split at h
        · cases h
          refine ⟨_, rfl, rfl, rfl, rfl, rfl, fun i hi => ?_, hsp⟩
          simp only [List.getElem?_set, List.length_set, hl, hs i hi]
        · cases h
      · rw [hl]
        split at h
        · cases h
          exact ⟨_, rfl, rfl, rfl, rfl, rfl, hs, hsp⟩
        · cases h
        · cases h

omit [FloatOps F] in
theorem writeAt_same {α : Type} {l xs : List α} {b e i : Nat} (hb : b ≤ l.length) (hx : xs.length = e - b) (hbe : b ≤ e)
    (hi : ¬ (b ≤ i ∧ i < e)) : l[i]? = (writeAt l b xs)[i]? := by
  rw [writeAt_get hb]
  by_cases h1 : i < b
  · rw [if_pos h1]
  · rw [if_neg h1, if_neg (by omega)]

theorem writeAt_agree {α : Type} {l l2 xs : List α} {b e i : Nat} (hb : b ≤ l.length) (hb2 : b ≤ l2.length)
    (hx : xs.length = e - b) (h1 : b ≤ i) (h2 : i < e) : (writeAt l b xs)[i]? = (writeAt l2 b xs)[i]? := by
  rw [writeAt_get hb, writeAt_get hb2, if_neg (by omega), if_pos (by omega), if_neg (by omega), if_pos (by omega)]

/-- C73, spatial build. In every state a schedule leads to without a fault, the locations different unfinished tasks may
use are different; they all exist, and nobody may use nodes or index entries not handed out yet.  When a task makes a step,
locations it may not use keep their contents, and what it does depends only on the locations it may use, the sizes of the
arrays and the two atomic counters. -/
theorem C73_spatial_apart (b : Builder F) (split : Nat → Fin 3 → F → Aabb F × Aabb F)
    (sort : Fin 3 → List (Ref F) → Option (List (Ref F))) (order ks : List Nat) (h : b.LegalSpatial order sort)
    (s : SpatialState F)
    (hs : spatialExec (b.spatialCtx split sort order) (spatialThreshold (b.spatialCtx split sort order)) ks
      (spatialInit (b.spatialCtx split sort order)) = .ok s) :
    (∀ (i j : Nat) x y, i ≠ j → s.pending[i]? = some x → s.pending[j]? = some y →
        ∀ c, ¬ (SpatialTask.Uses x c ∧ SpatialTask.Uses y c)) ∧
      (∀ x ∈ s.pending, ∀ c, SpatialTask.Uses x c → s.Has c ∧ (∀ i, c = .node i → i < s.counter) ∧
        ∀ i, c = .index i → i < s.refCount) ∧
      ∀ (k : Nat) x s', s.pending[k]? = some x →
        spatialStep (b.spatialCtx split sort order) (spatialThreshold (b.spatialCtx split sort order)) s k = .ok s' →
        ∃ new, s'.pending = s.pending.eraseIdx k ++ new ∧ (∀ c, ¬ SpatialTask.Uses x c → s.SameAt s' c) ∧
          ∀ (s2 : SpatialState F) (k2 : Nat), s2.pending[k2]? = some x → s2.counter = s.counter →
            s2.refCount = s.refCount → s2.nodes.length = s.nodes.length → s2.prims.length = s.prims.length →
            s2.refs.Len s.refs.x.length → (∀ c, SpatialTask.Uses x c → s.SameAt s2 c) →
            ∃ s2', spatialStep (b.spatialCtx split sort order) (spatialThreshold (b.spatialCtx split sort order)) s2 k2 =
                .ok s2' ∧ s2'.pending = s2.pending.eraseIdx k2 ++ new ∧ s2'.counter = s'.counter ∧
              s2'.refCount = s'.refCount ∧ ∀ c, SpatialTask.Uses x c → s'.SameAt s2' c := by
  obtain ⟨hset, hmax, _⟩ := h.setting (split := split)
  generalize b.spatialCtx split sort order = ctx at *
  rcases (spatialInit_inv hset).exec hset.sorts hset.prims ks with ⟨f, e, _⟩ | ⟨s0, r, e, hI, _⟩
  · rw [hs] at e; cases e
  rw [hs] at e
  cases e
  obtain ⟨⟨fp, rg, ts, w, hD, hnd, hfl, hfc, hdis, hrg, hsum, hts⟩, hlen, hcnt, hpl⟩ := hI
  have hbud := hD.budget
  have hvl := hD.viewLen
  refine ⟨?_, ?_, ?_⟩
  · have hp := hts.pairwise_iff (R := fun x y => ∀ c, ¬ (SpatialTask.Uses x c ∧ SpatialTask.Uses y c))
      (fun h c hc => h c ⟨hc.2, hc.1⟩)
    intro i j x y hij hx hy
    exact pairwise_idx (hp.1 (hD.apart hnd hdis)) (fun x y h c hc => h c ⟨hc.2, hc.1⟩) hij hx hy
  · intro x hx c hc
    obtain ⟨q1, q2, q2', q3, q4, q5, q6⟩ := hD.uses x (hts.mem_iff.2 hx)
    cases c with
    | node i =>
      have hi : i ∈ fp := by
        rcases hc with rfl | ⟨l, hl, rfl | rfl⟩
        · exact q1
        · exact (q2 _ hl).1
        · exact (q2 _ hl).2
      have := hfc i hi
      refine ⟨?_, fun j hj => by cases hj; exact this, fun j hj => by cases hj⟩
      show i < s.nodes.length
      omega
    | index i =>
      obtain ⟨f, hf, p1, p2⟩ := hc
      have := hrg _ (q2' f hf)
      simp only at this
      refine ⟨?_, fun j hj => (by cases hj), fun j hj => by cases hj; omega⟩
      show i < s.prims.length
      omega
    | ref i =>
      simp only [SpatialTask.Uses] at hc
      refine ⟨?_, fun j hj => (by cases hj), fun j hj => by cases hj⟩
      show i < s.refs.x.length ∧ i < s.refs.y.length ∧ i < s.refs.z.length
      rw [hvl.1, hvl.2.1, hvl.2.2]
      omega
  · intro k x s' hk hstep
    have hm := List.mem_of_getElem? hk
    obtain ⟨t, ph⟩ := x
    have hst := hD.step hset.sorts hset.prims hnd (fun i hi => by have := hfc i hi; omega) hdis
      (fun q hq => by have := hrg q hq; omega) (counter := s.counter) (refCount := s.refCount) (hts.mem_iff.2 hm)
    simp only [Nat.sub_zero, Nat.zero_add] at hst
    unfold spatialStep at hstep
    simp only [hk] at hstep
    rcases hst with ⟨f, e, _⟩ | ⟨e, fp', rg', ts', w', r', he, -, -, -, -, -, -, -, -, -, hvw, hb1, hb2, hb3⟩
    · simp only [e] at hstep; cases hstep
    simp only [he] at hstep
    cases hstep
    obtain ⟨w1, w2⟩ := spatialTaskStep_writes (x := (t, ph)) he
    refine ⟨e.new, rfl, fun c hc => ?_, ?_⟩
    · cases c with
      | node i => exact w1 i hc
      | index i => exact w2 i hc
      | ref i =>
        simp only [SpatialTask.Uses] at hc
        exact ⟨writeAt_same (by rw [hvl.1]; omega) hvw.1 hb2 hc, writeAt_same (by rw [hvl.2.1]; omega) hvw.2.1 hb2 hc,
          writeAt_same (by rw [hvl.2.2]; omega) hvw.2.2 hb2 hc⟩
    · intro s2 k2 hk2 hc1 hc2 hn2 hp2 hl2 hsame
      have hsl : s2.refs.slice t.begin t.splitEnd = s.refs.slice t.begin t.splitEnd := by
        unfold RefView.slice
        rw [sliceOf_congr fun i h1 h2 => (hsame (.ref i) ⟨h1, h2⟩).1.symm,
          sliceOf_congr fun i h1 h2 => (hsame (.ref i) ⟨h1, h2⟩).2.1.symm,
          sliceOf_congr fun i h1 h2 => (hsame (.ref i) ⟨h1, h2⟩).2.2.symm]
      obtain ⟨e2, he2, a1, a2, a3, a4, a5, a6⟩ := spatialTaskStep_reads (x := (t, ph)) he hn2 hp2
        (fun i hi => hsame (.node i) hi) (fun i hi => hsame (.index i) hi)
      simp only at he2
      refine ⟨⟨e2.nodes, e2.counter, s2.refs.write t.begin e2.view, e2.refCount, e2.prims,
        s2.pending.eraseIdx k2 ++ e2.new⟩, ?_, by rw [a1], a2, a3, fun c hc => ?_⟩
      · unfold spatialStep
        simp only [hk2, hsl, hc1, hc2, he2]
      · cases c with
        | node i => exact a5 i hc
        | index i => exact a6 i hc
        | ref i =>
          simp only [SpatialTask.Uses] at hc
          rw [hvl.1] at hl2
          show (writeAt _ _ _)[i]? = (writeAt _ _ _)[i]? ∧ (writeAt _ _ _)[i]? = (writeAt _ _ _)[i]? ∧
            (writeAt _ _ _)[i]? = (writeAt _ _ _)[i]?
          rw [a4]
          exact ⟨writeAt_agree (by rw [hvl.1]; omega) (by rw [hl2.1]; omega) hvw.1 hc.1 hc.2,
            writeAt_agree (by rw [hvl.2.1]; omega) (by rw [hl2.2.1]; omega) hvw.2.1 hc.1 hc.2,
            writeAt_agree (by rw [hvl.2.2]; omega) (by rw [hl2.2.2]; omega) hvw.2.2 hc.1 hc.2⟩

/-! ### The hypotheses are met: states with several unfinished tasks -/

example : demoBuilder.Legal [0, 1, 2, 3] ∧
    (binnedExec (demoBuilder.ctx [0, 1, 2, 3]) [0, 0, 0] (binnedInit (demoBuilder.ctx [0, 1, 2, 3]))).map
      (fun s => s.pending.map fun x => (x.1.node, x.1.begin, x.1.stop)) = some [(2, 2, 4), (1, 0, 2)] :=
  ⟨demo_legal, by decide +kernel⟩

example : (triScene lostScene).LegalSpatial [0, 1, 2] refSort ∧
    (spatialExec ((triScene lostScene).spatialCtx (triSplit lostScene) refSort [0, 1, 2])
      (spatialThreshold ((triScene lostScene).spatialCtx (triSplit lostScene) refSort [0, 1, 2])) [0, 0]
      (spatialInit ((triScene lostScene).spatialCtx (triSplit lostScene) refSort [0, 1, 2]))).toOption.map
      (fun s => s.pending.map fun x => (x.1.node, x.1.begin, x.1.stop)) = some [(1, 0, 1), (2, 1, 3)] :=
  ⟨triScene_legal _ _ (by decide) (by decide) (by decide) (by decide +kernel), by decide +kernel⟩

end Rtbvh
