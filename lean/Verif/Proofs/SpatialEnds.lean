import Verif.Proofs.SpatialMain
/- Every execution of the spatial build ends, whether it returns or faults. -/
namespace Rtbvh
variable {F : Type} [FloatOps F]

/-- Proof device: the steps a task has still to make on nodes that have been handed out to it. -/
def SpatialPhase.weight : SpatialPhase → Nat
  | .ready => 2
  | .leafAt _ => 1
  | .allocated _ => 5

def taskWeights (ts : List (SpatialTask × SpatialPhase)) : Nat := (ts.map fun x => x.2.weight).sum

omit [FloatOps F] in
theorem taskWeights_append (a b : List (SpatialTask × SpatialPhase)) : taskWeights (a ++ b) = taskWeights a + taskWeights b := by
  simp [taskWeights]

omit [FloatOps F] in
theorem taskWeights_perm {a b : List (SpatialTask × SpatialPhase)} (h : a.Perm b) : taskWeights a = taskWeights b := by
  unfold taskWeights
  induction h with
  | nil => rfl
  | cons x _ ih => simp [ih]
  | swap x y l => simp; omega
  | trans _ _ ih1 ih2 => omega

/-- Two steps per node, no more and no less. -/
theorem SDen.weigh {ctx : SpatialCtx F} {thr : F} {N : Nat} {nodes : List (BvhNode F)} {prims : List Nat}
    {idx b d len : Nat} {v : RefView F} {T : Except Fault (IdTree F)} {fp : List Nat} {rg : List (Nat × Nat)}
    {ts : List (SpatialTask × SpatialPhase)} {w r : Nat} {t : SpatialTask} {ph : SpatialPhase}
    (h : SDen ctx thr N nodes prims idx b d len v T fp rg ts w r) {counter refCount : Nat} (hmem : (t, ph) ∈ ts)
    {e : SpatialEffect F}
    (he : spatialTaskStep ctx thr nodes counter refCount prims (v.slice (t.begin - b) (t.splitEnd - b)) t ph = .ok e) :
    taskWeights e.new + 1 + 2 * counter = ph.weight + 2 * e.counter := by
  induction h with
  | @ready idx b d len n v nd srt hd h hl ha hn =>
    simp only [List.mem_singleton, Prod.mk.injEq] at hmem
    obtain ⟨rfl, rfl⟩ := hmem
    unfold spatialTaskStep at he
    simp only [h] at he
    split at he
    · cases he
    · cases he; simp [taskWeights, SpatialPhase.weight]
    · simp only [allocate] at he
      repeat' split at he
      all_goals first | (cases he; done) | skip
      all_goals
        rename_i hh
        simp only [Prod.mk.injEq] at hh
        cases he
        simp [taskWeights, SpatialPhase.weight]
        omega
  | @leafAt idx b d len n v nd srt v' first hd h hl ha hn hdec =>
    simp only [List.mem_singleton, Prod.mk.injEq] at hmem
    obtain ⟨rfl, rfl⟩ := hmem
    simp only [Nat.sub_self, Nat.add_sub_cancel_left, RefView.slice_full hl] at he
    unfold spatialTaskStep at he
    simp only [h, Nat.add_sub_cancel_left, hdec] at he
    split at he
    · cases he
    · cases he; simp [taskWeights, SpatialPhase.weight]
  | @alloc idx b d len n v nd srt r left hd h hl ha hn hdec =>
    simp only [List.mem_singleton, Prod.mk.injEq] at hmem
    obtain ⟨rfl, rfl⟩ := hmem
    simp only [Nat.sub_self, Nat.add_sub_cancel_left, RefView.slice_full hl] at he
    unfold spatialTaskStep at he
    simp only [h, Nat.add_sub_cancel_left, hdec] at he
    split at he
    · cases he; simp [taskWeights, SpatialPhase.weight]
    · cases he
  | leaf => simp at hmem
  | @node idx b d lenL lenR vL vR nd left L R fpL fpR rgL rgR tsL tsR wL wR rL rR h h1 h2 hL hR ihL ihR =>
    by_cases hin : (t, ph) ∈ tsL
    · have hbb : t.splitEnd - b ≤ lenL := by have := hL.task_bounds hin; omega
      rw [RefView.slice_append_left hL.viewLen hbb] at he
      exact ihL hin he
    · have hinR : (t, ph) ∈ tsR := by simpa [hin] using hmem
      have hbb := hR.task_bounds hinR
      have e1 : t.begin - b - lenL = t.begin - (b + lenL) := by omega
      have e2 : t.splitEnd - b - lenL = t.splitEnd - (b + lenL) := by omega
      rw [RefView.slice_append_right hL.viewLen (by omega), e1, e2] at he
      exact ihR hinR he

theorem SInv.weigh {ctx : SpatialCtx F} {thr : F} {N M : Nat} {s s' : SpatialState F} {T : Except Fault (IdTree F)} {r : Nat}
    (h : SInv ctx thr N M s T r) {k : Nat} (hk : k < s.pending.length) (e : spatialStep ctx thr s k = .ok s') :
    taskWeights s'.pending + 1 + 2 * s.counter = taskWeights s.pending + 2 * s'.counter := by
  obtain ⟨⟨fp, rg, ts, w, hD, -, -, -, -, -, -, hts⟩, -, -, -⟩ := h
  obtain ⟨⟨t, ph⟩, hkk⟩ : ∃ x, s.pending[k] = x := ⟨_, rfl⟩
  have hmem : (t, ph) ∈ ts := hts.mem_iff.2 (hkk ▸ List.getElem_mem hk)
  unfold spatialStep at e
  rw [List.getElem?_eq_getElem hk, hkk] at e
  simp only at e
  split at e
  · cases e
  rename_i eff he
  cases e
  have := hD.weigh hmem (counter := s.counter) (refCount := s.refCount) (e := eff) (by simpa using he)
  have hp : taskWeights s.pending = ph.weight + taskWeights (s.pending.eraseIdx k) := by
    have := List.getElem_cons_eraseIdx_perm hk
    rw [hkk] at this
    rw [← taskWeights_perm this]
    simp [taskWeights]
  simp only [taskWeights_append]
  omega

/-- Every legal schedule that has not faulted has made two steps per node handed out, save those still to be made. -/
theorem SInv.steps {ctx : SpatialCtx F} (hsort : ctx.Sorts) {thr : F} {N M : Nat} (hN : ctx.prims.length = N)
    {T : Except Fault (IdTree F)} : ∀ (ks : List Nat) {s : SpatialState F} {r : Nat}, SInv ctx thr N M s T r →
    SpatialLegal ctx thr ks s → ∀ {s'}, spatialExec ctx thr ks s = .ok s' →
    ks.length + taskWeights s'.pending + 2 * s.counter = taskWeights s.pending + 2 * s'.counter ∧ s'.counter ≤ 2 * M + 1
  | [], s, r, h, _, s', e => by
    cases e
    have := h.cnt; have := h.len
    exact ⟨by simp, by omega⟩
  | k :: ks, s, r, h, hl, s', e => by
    obtain ⟨hk, hl⟩ := hl
    unfold spatialExec at e
    split at e
    · cases e
    rename_i s₁ e1
    rcases h.step hsort hN hk with ⟨f, hf, _⟩ | ⟨s₂, r₂, e2, h2, _⟩
    · rw [e1] at hf; cases hf
    rw [e1] at e2
    cases e2
    have hw := h.weigh hk e1
    obtain ⟨h3, h4⟩ := SInv.steps hsort hN ks h2 (hl _ e1) e
    refine ⟨?_, h4⟩
    simp only [List.length_cons]
    omega

end Rtbvh
