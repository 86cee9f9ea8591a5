import Verif.Spec.Batch
import Verif.Proofs.Next
import Mathlib.Data.List.Count
import Mathlib.Algebra.BigOperators.Group.Finset.Basic
import Mathlib.Algebra.Order.BigOperators.Group.Finset
import Mathlib.Algebra.BigOperators.Intervals
import Mathlib.Algebra.BigOperators.Ring.Finset
/- Parallel tracing of a buffer: the tasks do not disturb each other. -/
namespace Rtbvh
variable {F σ τ ι P : Type}

/-- With ray `r` in the buffer the inner loop, going on with iterator `t`, is through after `n` steps and leaves ray `r'`. -/
inductive FinishesIn (c : Tracer σ τ ι) : Nat → τ → σ → σ → Prop
  | done {t r} : c.round (c.set r t) = .done → FinishesIn c 1 t r r
  | cont {n t t' r r'} : c.round (c.set r t) = .cont t' → FinishesIn c n t' r r' → FinishesIn c (n + 1) t r r'
  | yield {n t t' r r' x} : c.round (c.set r t) = .yield x t' → FinishesIn c n t' (c.body r x) r' →
      FinishesIn c (n + 3) t r r'

/-- The same for a task in any phase. -/
def PhaseFin (c : Tracer σ τ ι) (n : Nat) (r r' : σ) : RayPhase σ τ ι → Prop
  | .fresh => ∃ m, n = m + 1 ∧ FinishesIn c m (c.start r) r r'
  | .looping t => FinishesIn c n t r r'
  | .body x t => ∃ m, n = m + 2 ∧ FinishesIn c m t (c.body r x) r'
  | .write r1 t => ∃ m, n = m + 1 ∧ FinishesIn c m t r1 r'
  | .panicked => False

/-- What holds of task `k` after it has made `u` steps: positions before `next` are traced, those behind it untouched, the one
at `next` on its way. -/
structure TaskOk (c : Tracer σ τ ι) (W B : Nat) (orig : List σ) (f : σ → σ) (mem : List σ) (u k : Nat)
    (w : ChunkTask σ τ ι) : Prop where
  low : k * W ≤ w.next
  high : w.next ≤ w.stop
  stop : w.stop = Min.min ((k + 1) * W) orig.length
  traced : ∀ i, k * W ≤ i → i < w.next → mem[i]? = orig[i]?.map f
  untouched : ∀ i, w.next < i → i < w.stop → mem[i]? = orig[i]?
  going : w.next < w.stop → ∃ n r r0, mem[w.next]? = some r ∧ orig[w.next]? = some r0 ∧ PhaseFin c n r (f r0) w.phase ∧
    u + n ≤ (w.next - k * W + 1) * B
  ended : w.next = w.stop → w.phase = .fresh ∧ u ≤ (w.next - k * W) * B

/-- The invariant. -/
structure BatchOk (c : Tracer σ τ ι) (W B : Nat) (orig : List σ) (f : σ → σ) (s : BatchState σ τ ι) (ks : List Nat) :
    Prop where
  size : s.rays.length = orig.length
  count : s.tasks.length = (orig.length + W - 1) / W
  named : ∀ k ∈ ks, k < s.tasks.length
  task : ∀ k w, s.tasks[k]? = some w → TaskOk c W B orig f s.rays (ks.count k) k w

/-- Every ray of the buffer is, by itself, through in fewer than `B` steps. -/
def AloneFin (c : Tracer σ τ ι) (B : Nat) (f : σ → σ) (rays : List σ) : Prop :=
  ∀ r ∈ rays, ∃ n, n + 1 ≤ B ∧ FinishesIn c n (c.start r) r (f r)

section
variable {c : Tracer σ τ ι} {W B : Nat} {orig : List σ} {f : σ → σ}

theorem chunk_lt {k n : Nat} (hW : 0 < W) : k < (n + W - 1) / W ↔ k * W < n := by
  rw [Nat.lt_iff_add_one_le, Nat.le_div_iff_mul_le hW, Nat.succ_mul]; omega

theorem TaskOk.frame {mem mem' : List σ} {u k : Nat} {w : ChunkTask σ τ ι} (h : TaskOk c W B orig f mem u k w)
    (e : ∀ i, k * W ≤ i → i < w.stop → mem'[i]? = mem[i]?) : TaskOk c W B orig f mem' u k w where
  low := h.low
  high := h.high
  stop := h.stop
  traced i a b := by rw [e i a (by have := h.high; omega)]; exact h.traced i a b
  untouched i a b := by rw [e i (by have := h.low; omega) b]; exact h.untouched i a b
  going a := by
    obtain ⟨n, r, r0, e1, e2⟩ := h.going a
    exact ⟨n, r, r0, by rw [e _ h.low a]; exact e1, e2⟩
  ended := h.ended

theorem BatchOk.init (hW : 0 < W) (ha : AloneFin c B f orig) :
    BatchOk c W B orig f ⟨orig, chunkTasks W orig.length⟩ [] where
  size := rfl
  count := by simp [chunkTasks]
  named := by simp
  task k w e := by
    simp only [chunkTasks, List.getElem?_map, Option.map_eq_some_iff] at e
    obtain ⟨j, e1, rfl⟩ := e
    have hk : k < (orig.length + W - 1) / W := by
      by_contra h; rw [List.getElem?_eq_none (by simpa using h)] at e1; cases e1
    rw [List.getElem?_range hk] at e1
    obtain rfl := Option.some.inj e1
    have hkn := (chunk_lt hW).1 hk
    refine ⟨le_refl _, le_min (Nat.mul_le_mul_right _ (by omega)) hkn.le, rfl, fun i a b => by dsimp at b; omega,
      fun i _ _ => rfl, fun _ => ?_, fun a => ?_⟩
    · obtain ⟨n, hn, hf⟩ := ha _ (List.getElem_mem hkn)
      refine ⟨n + 1, orig[k * W], orig[k * W], List.getElem?_eq_getElem hkn, List.getElem?_eq_getElem hkn,
        ⟨n, rfl, hf⟩, ?_⟩
      simp; omega
    · exfalso; dsimp at a; rw [Nat.succ_mul] at a; omega

/-- A task's own step. -/
theorem TaskOk.step {mem : List σ} {ks : List Nat} {k : Nat} {w : ChunkTask σ τ ι} (ha : AloneFin c B f orig)
    (hl : mem.length = orig.length)
    (h : TaskOk c W B orig f mem (ks.count k) k w) {s' : BatchState σ τ ι} {tasks : List (ChunkTask σ τ ι)}
    (hw : tasks[k]? = some w) (e : batchStep c ⟨mem, tasks⟩ k = some s') :
    w.next < w.stop ∧ s'.rays.length = mem.length ∧ (∀ i, i ≠ w.next → s'.rays[i]? = mem[i]?) ∧
    ∃ w', s'.tasks = tasks.set k w' ∧ TaskOk c W B orig f s'.rays ((ks ++ [k]).count k) k w' := by
  have hc : (ks ++ [k]).count k = ks.count k + 1 := by simp
  rw [hc]
  simp only [batchStep, hw] at e
  by_cases hlt : w.next < w.stop
  case neg => simp [hlt] at e
  obtain ⟨n, r, r0, e1, e2, e3, e4⟩ := h.going hlt
  obtain ⟨next, stop, phase⟩ := w
  dsimp only at hlt e1 e2 e3 e4
  simp only [hlt, if_true, e1] at e
  have low := h.low
  have hst := h.stop
  dsimp only at low hst
  refine ⟨hlt, ?_⟩
  -- going on at the same position
  have same : ∀ {mem' : List σ} {ph : RayPhase σ τ ι} {m : Nat} {r1 : σ}, (∀ i, i ≠ next → mem'[i]? = mem[i]?) →
      mem'[next]? = some r1 → PhaseFin c m r1 (f r0) ph → m + 1 ≤ n →
      TaskOk c W B orig f mem' (ks.count k + 1) k ⟨next, stop, ph⟩ := by
    intro mem' ph m r1 hm h1 hp hn
    refine ⟨low, hlt.le, hst, fun i a b => ?_, fun i a b => ?_, fun _ => ⟨m, r1, r0, h1, e2, hp, ?_⟩,
      fun a => absurd a (by dsimp only; omega)⟩
    · dsimp only at b; rw [hm i (by omega)]; exact h.traced i a b
    · dsimp only at a; rw [hm i (by omega)]; exact h.untouched i a b
    · dsimp only; omega
  match phase, e3, e with
  | .fresh, e3, e =>
    obtain ⟨m, rfl, hf⟩ := e3
    obtain rfl := Option.some.inj e
    exact ⟨rfl, fun _ _ => rfl, _, rfl, same (fun _ _ => rfl) e1 hf (by omega)⟩
  | .body x t, e3, e =>
    obtain ⟨m, rfl, hf⟩ := e3
    obtain rfl := Option.some.inj e
    exact ⟨rfl, fun _ _ => rfl, _, rfl, same (fun _ _ => rfl) e1 ⟨m, rfl, hf⟩ (by omega)⟩
  | .write r1 t, e3, e =>
    obtain ⟨m, rfl, hf⟩ := e3
    obtain rfl := Option.some.inj e
    have hn : next < mem.length := by
      by_contra hh; rw [List.getElem?_eq_none (by omega)] at e1; cases e1
    have hm : ∀ i, i ≠ next → (mem.set next r1)[i]? = mem[i]? := fun i hi => List.getElem?_set_ne (by omega)
    exact ⟨by simp, hm, _, rfl, same hm (by simp [hn]) hf (by omega)⟩
  | .looping t, e3, e =>
    cases e3 with
    | done hr =>
      simp only [hr] at e
      obtain rfl := Option.some.inj e
      refine ⟨rfl, fun _ _ => rfl, _, rfl, ?_⟩
      dsimp only
      refine ⟨by dsimp only; omega, by dsimp only; omega, hst, fun i a b => ?_, fun i a b => ?_, fun a => ?_, fun a => ?_⟩
      · dsimp only at b
        rcases Nat.lt_succ_iff_lt_or_eq.1 b with b | b
        · exact h.traced i a b
        · subst b; rw [e1, e2]; simp
      · exact h.untouched i (by dsimp only at a ⊢; omega) b
      · dsimp only at a ⊢
        have hn1 : next + 1 < orig.length := by have := hst; omega
        have hu := h.untouched (next + 1) (by dsimp only; omega) a
        obtain ⟨n, hn, hf⟩ := ha _ (List.getElem_mem hn1)
        refine ⟨n + 1, orig[next + 1], orig[next + 1], by rw [hu]; exact List.getElem?_eq_getElem hn1,
          List.getElem?_eq_getElem hn1, ⟨n, rfl, hf⟩, ?_⟩
        have : (next + 1 - k * W + 1) * B = (next - k * W + 1) * B + B := by
          rw [show next + 1 - k * W + 1 = (next - k * W + 1) + 1 from by omega, Nat.succ_mul]
        omega
      · dsimp only
        rw [show next + 1 - k * W = next - k * W + 1 from by omega]
        exact ⟨rfl, by omega⟩
    | cont hr hf =>
      simp only [hr] at e
      obtain rfl := Option.some.inj e
      exact ⟨rfl, fun _ _ => rfl, _, rfl, same (fun _ _ => rfl) e1 hf (by omega)⟩
    | yield hr hf =>
      simp only [hr] at e
      obtain rfl := Option.some.inj e
      exact ⟨rfl, fun _ _ => rfl, _, rfl, same (fun _ _ => rfl) e1 ⟨_, rfl, hf⟩ (by omega)⟩

theorem chunk_of {i k : Nat} (a : k * W ≤ i) (b : i < (k + 1) * W) : i / W = k :=
  Nat.div_eq_of_lt_le a b

theorem BatchOk.step (ha : AloneFin c B f orig) {s s' : BatchState σ τ ι} {ks : List Nat} {k : Nat}
    (h : BatchOk c W B orig f s ks) (e : batchStep c s k = some s') : BatchOk c W B orig f s' (ks ++ [k]) := by
  cases hw : s.tasks[k]? with
  | none => simp [batchStep, hw] at e
  | some w =>
    obtain ⟨hlt, h1, h2, w', h3, h4⟩ := (h.task k w hw).step ha h.size (tasks := s.tasks) hw e
    have hk : k < s.tasks.length := by
      by_contra hh; rw [List.getElem?_eq_none (by omega)] at hw; cases hw
    have hin : k * W ≤ w.next ∧ w.next < (k + 1) * W :=
      ⟨(h.task k w hw).low, by have := (h.task k w hw).stop; have := Nat.min_le_left ((k+1)*W) orig.length; omega⟩
    refine ⟨h1.trans h.size, by rw [h3, List.length_set]; exact h.count, fun j hj => ?_, fun j v hv => ?_⟩
    · rw [h3, List.length_set]
      rcases List.mem_append.1 hj with hj | hj
      · exact h.named j hj
      · simp at hj; omega
    · rw [h3] at hv
      by_cases hjk : j = k
      · subst hjk
        rw [List.getElem?_set_self hk] at hv
        obtain rfl := Option.some.inj hv
        exact h4
      · rw [List.getElem?_set_ne (by omega)] at hv
        have hj := h.task j v hv
        rw [show (ks ++ [k]).count j = ks.count j from by
          rw [List.count_append, List.count_singleton]; simp; omega]
        refine hj.frame fun i a b => h2 i fun hi => hjk ?_
        have hb : i < (j + 1) * W := by
          have := hj.stop; have := Nat.min_le_left ((j+1)*W) orig.length; omega
        rw [← chunk_of a hb, hi, chunk_of hin.1 hin.2]

theorem BatchOk.run (ha : AloneFin c B f orig) : ∀ (ks : List Nat) {s s' : BatchState σ τ ι} {pre : List Nat},
    BatchOk c W B orig f s pre → ks.foldlM (batchStep c) s = some s' → BatchOk c W B orig f s' (pre ++ ks)
  | [], s, s', pre, h, e => by
    simp only [List.foldlM_nil] at e
    obtain rfl := Option.some.inj e
    simpa using h
  | k :: ks, s, s', pre, h, e => by
    simp only [List.foldlM_cons, Option.bind_eq_bind, Option.bind_eq_some_iff] at e
    obtain ⟨s1, e1, e2⟩ := e
    have := BatchOk.run ha ks (h.step ha e1) e2
    simpa using this

theorem chunks_sum (n m : Nat) :
    ∑ k ∈ Finset.range m, (Min.min ((k + 1) * W) n - k * W) ≤ Min.min (m * W) n := by
  induction m with
  | zero => simp
  | succ m ih =>
    rw [Finset.sum_range_succ]
    have : m * W ≤ (m + 1) * W := Nat.mul_le_mul_right _ (by omega)
    omega

theorem length_counts (m : Nat) : ∀ ks : List Nat, (∀ k ∈ ks, k < m) → ks.length = ∑ k ∈ Finset.range m, ks.count k
  | [], _ => by simp
  | k :: ks, h => by
    have ih := length_counts m ks fun j hj => h j (List.mem_cons_of_mem _ hj)
    have hk := h k (List.mem_cons_self ..)
    simp only [List.count_cons, Finset.sum_add_distrib, List.length_cons, ← ih]
    congr 1
    rw [Finset.sum_eq_single k (fun b _ hb => by simp [hb.symm]) (fun h => absurd (Finset.mem_range.2 hk) h)]
    simp

/-- The main lemma. -/
theorem parallel_main (hW : 0 < W) (ha : AloneFin c B f orig) :
    ParallelGives c W orig (orig.map f) (orig.length * B) := by
  intro ks s e
  have h := BatchOk.run ha ks (BatchOk.init hW ha) e
  rw [List.nil_append] at h
  refine ⟨?_, ?_, ?_, ?_⟩
  · rintro ⟨w, hw, hp⟩
    obtain ⟨k, hk⟩ := List.mem_iff_getElem?.1 hw
    have t := h.task k w hk
    rcases Nat.lt_or_eq_of_le t.high with hlt | heq
    · obtain ⟨n, r, r0, _, _, hf, _⟩ := t.going hlt
      rw [hp] at hf; exact hf
    · rw [(t.ended heq).1] at hp; cases hp
  · rw [length_counts s.tasks.length ks h.named]
    have : ∀ k ∈ Finset.range s.tasks.length, ks.count k ≤ (Min.min ((k + 1) * W) orig.length - k * W) * B := by
      intro k hk
      have hk := Finset.mem_range.1 hk
      have t := h.task k _ (List.getElem?_eq_getElem hk)
      rw [← t.stop]
      rcases Nat.lt_or_eq_of_le t.high with hlt | heq
      · obtain ⟨n, r, r0, _, _, _, hb⟩ := t.going hlt
        refine le_trans (by omega) (le_trans hb (Nat.mul_le_mul_right _ ?_))
        have := t.low; omega
      · rw [← heq]; exact (t.ended heq).2
    refine le_trans (Finset.sum_le_sum this) ?_
    rw [← Finset.sum_mul]
    exact Nat.mul_le_mul_right _ (le_trans (chunks_sum _ _) (Nat.min_le_right _ _))
  · intro hfin
    refine List.ext_getElem? fun i => ?_
    rw [List.getElem?_map]
    by_cases hi : i < orig.length
    · have hk : i / W < s.tasks.length := by
        rw [h.count, chunk_lt hW]
        exact lt_of_le_of_lt (Nat.div_mul_le_self i W) hi
      have t := h.task _ _ (List.getElem?_eq_getElem hk)
      have heq := hfin _ (List.getElem_mem hk)
      refine t.traced i (Nat.div_mul_le_self i W) ?_
      rw [heq, t.stop]
      exact lt_min (by rw [Nat.succ_mul]; exact Nat.lt_div_mul_add hW) hi
    · rw [List.getElem?_eq_none (by rw [h.size]; omega), List.getElem?_eq_none (by omega)]; rfl
  · intro hnf
    simp only [BatchState.Finished, not_forall] at hnf
    obtain ⟨w, hw, hne⟩ := hnf
    obtain ⟨k, hk⟩ := List.mem_iff_getElem?.1 hw
    have t := h.task k w hk
    have hlt : w.next < w.stop := by have := t.high; omega
    obtain ⟨n, r, r0, e1, _, hf, _⟩ := t.going hlt
    have : ∃ s', batchStep c s k = some s' := by
      simp only [batchStep, hk, hlt, if_true, e1]
      match w.phase, hf with
      | .fresh, _ => exact ⟨_, rfl⟩
      | .body _ _, _ => exact ⟨_, rfl⟩
      | .write _ _, _ => exact ⟨_, rfl⟩
      | .looping t, _ => cases e : c.round (c.set r t) <;> exact ⟨_, by simp only [e]; rfl⟩
    exact ⟨k, this⟩
end

/-- A loop that ends, seen as steps on the buffer. -/
theorem finishesIn_gdrive {c : Tracer σ τ ι} {get : τ → σ} (gs : ∀ r t, get (c.set r t) = r)
    (sg : ∀ t, c.set (get t) t = t)
    (hc : ∀ t t', c.round t = .cont t' → get t' = get t) (hy : ∀ t t' x, c.round t = .yield x t' → get t' = get t) :
    ∀ (fuel : Nat) (t : τ) (r : σ), (gdrive c.round get c.set (noBreak c.body) fuel (c.set r t)).ending = .finished →
      ∃ n, n ≤ 3 * fuel ∧ FinishesIn c n t r (gdrive c.round get c.set (noBreak c.body) fuel (c.set r t)).ray
  | 0, t, r, h => by simp [gdrive] at h
  | fuel + 1, t, r, h => by
    simp only [gdrive] at h ⊢
    cases e : c.round (c.set r t) with
    | done => simp only [gs]; exact ⟨1, by omega, .done e⟩
    | panic => simp [e] at h
    | cont t' =>
      simp only [e] at h ⊢
      have ht : c.set r t' = t' := by
        have := hc _ _ e; rw [gs] at this
        conv_rhs => rw [← sg t', this]
      rw [← ht] at h ⊢
      obtain ⟨n, hn, hf⟩ := finishesIn_gdrive gs sg hc hy fuel t' r h
      exact ⟨n + 1, by omega, .cont e hf⟩
    | yield x t' =>
      have ht := hy _ _ _ e; rw [gs] at ht
      simp only [e, noBreak, ht, Run.cons] at h ⊢
      obtain ⟨n, hn, hf⟩ := finishesIn_gdrive gs sg hc hy fuel t' (c.body r x) h
      exact ⟨n + 3, by omega, .yield e hf⟩

theorem traceAll_eq {alone : σ → Run σ ι} : ∀ {rays : List σ}, (∀ r ∈ rays, (alone r).ending = .finished) →
    traceAll alone rays = some (rays.map fun r => (alone r).ray)
  | [], _ => rfl
  | r :: rs, h => by
    simp only [traceAll, h r (List.mem_cons_self ..), traceAll_eq fun r hr => h r (List.mem_cons_of_mem _ hr)]
    rfl

theorem bvhPrimStep_holds {σ : Type} {nodes : List (BvhNode F)} {indices : List Nat} {prims : List P} {κ : Type}
    {hit : Aabb F → σ → Option κ} {closer : κ → κ → Bool} {t t' : Trav σ} :
    (bvhPrimStep nodes indices prims hit closer t = .cont t' → t'.ray = t.ray) ∧
    (∀ x, bvhPrimStep nodes indices prims hit closer t = .yield x t' → t'.ray = t.ray) := by
  unfold bvhPrimStep
  constructor
  · intro h
    dsimp only at h
    repeat' split at h
    all_goals first | (cases h; done) | (injection h with h; subst h; rfl)
  · intro x h
    dsimp only at h
    repeat' split at h
    all_goals first | (cases h; done) | (injection h with h1 h; subst h; rfl)

theorem quadStep_holds {σ : Type} {nodes : List (MbvhNode F)} {indices : List Nat} {item : Nat → Option ι}
    {hit : Vec4 (Aabb F) → σ → MbvhHit} {t t' : QTrav σ} :
    (quadStep nodes indices item hit t = .cont t' → t'.ray = t.ray) ∧
    (∀ x, quadStep nodes indices item hit t = .yield x t' → t'.ray = t.ray) := by
  unfold quadStep
  constructor
  · intro h
    dsimp only at h
    repeat' split at h
    all_goals first | (cases h; done) | (injection h with h; subst h; rfl)
  · intro x h
    dsimp only at h
    repeat' split at h
    all_goals first | (cases h; done) | (injection h with h1 h; subst h; rfl)

theorem Step.toRound_cont {s : Step σ ι} {t} : s.toRound = .cont t → s = .cont t := by
  cases s <;> simp [Step.toRound]
theorem Step.toRound_yield {s : Step σ ι} {t x} : s.toRound = .yield x t → s = .yield x t := by
  cases s <;> simp [Step.toRound]
theorem QStep.toRound_cont {s : QStep σ ι} {t} : s.toRound = .cont t → s = .cont t := by
  cases s <;> simp [QStep.toRound]
theorem QStep.toRound_yield {s : QStep σ ι} {t x} : s.toRound = .yield x t → s = .yield x t := by
  cases s <;> simp [QStep.toRound]

end Rtbvh
