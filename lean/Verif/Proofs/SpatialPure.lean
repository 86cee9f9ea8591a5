import Verif.Spec.Spatial
import Verif.Proofs.BinnedMain
/- One task of the spatial build: what its decision does to its range of the reference arrays. -/
namespace Rtbvh
variable {F : Type}

namespace RefView
/-- All three arrays have length `n`. -/
def Len (v : RefView F) (n : Nat) : Prop := v.x.length = n ∧ v.y.length = n ∧ v.z.length = n
/-- All references satisfy `P`. -/
def All (v : RefView F) (P : Ref F → Prop) : Prop := (∀ r ∈ v.x, P r) ∧ (∀ r ∈ v.y, P r) ∧ (∀ r ∈ v.z, P r)

theorem Len.get {v : RefView F} {n : Nat} (h : v.Len n) (a : Fin 3) : (v.get a).length = n := by
  unfold RefView.get; split
  · exact h.1
  · split
    · exact h.2.1
    · exact h.2.2

theorem All.get {v : RefView F} {P : Ref F → Prop} (h : v.All P) (a : Fin 3) : ∀ r ∈ v.get a, P r := by
  unfold RefView.get; split
  · exact h.1
  · split
    · exact h.2.1
    · exact h.2.2

theorem ofFn_len {f : Fin 3 → List (Ref F)} {n : Nat} (h : ∀ a, (f a).length = n) : (RefView.ofFn f).Len n :=
  ⟨h 0, h 1, h 2⟩
theorem ofFn_all {f : Fin 3 → List (Ref F)} {P : Ref F → Prop} (h : ∀ a, ∀ r ∈ f a, P r) : (RefView.ofFn f).All P :=
  ⟨h 0, h 1, h 2⟩
theorem get_ofFn (f : Fin 3 → List (Ref F)) (a : Fin 3) : (RefView.ofFn f).get a = f a := by
  unfold RefView.get RefView.ofFn
  match a with
  | 0 => rfl
  | 1 => rfl
  | 2 => rfl
end RefView

theorem swapAt_length {α : Type} {l l' : List α} {i j : Nat} (h : swapAt l i j = some l') : l'.length = l.length := by
  unfold swapAt at h; split at h
  · simp only [Option.some.injEq] at h; subst h; simp
  · simp at h

theorem swapAt_mem {α : Type} {l l' : List α} {i j : Nat} (h : swapAt l i j = some l') : ∀ x ∈ l', x ∈ l := by
  unfold swapAt at h; split at h
  · rename_i a b ha hb
    simp only [Option.some.injEq] at h; subst h
    intro x hx
    rcases List.mem_or_eq_of_mem_set hx with hx | rfl
    · rcases List.mem_or_eq_of_mem_set hx with hx | rfl
      · exact hx
      · exact List.mem_of_getElem? hb
    · exact List.mem_of_getElem? ha
  · simp at h

theorem moveBackward_length {α : Type} : ∀ (k : Nat) {l l' : List α} {first d : Nat}, moveBackward l first k d = some l' →
    l'.length = l.length
  | 0, l, l', first, d, h => by simp [moveBackward] at h; rw [h]
  | k + 1, l, l', first, d, h => by
    unfold moveBackward at h
    split at h
    · simp at h
    · split at h
      · rw [moveBackward_length k h]; simp
      · simp at h

theorem moveBackward_mem {α : Type} : ∀ (k : Nat) {l l' : List α} {first d : Nat}, moveBackward l first k d = some l' →
    ∀ x ∈ l', x ∈ l
  | 0, l, l', first, d, h => by simp [moveBackward] at h; rw [h]; exact fun _ h => h
  | k + 1, l, l', first, d, h => by
    unfold moveBackward at h
    split at h
    · simp at h
    · rename_i a ha
      split at h
      · intro x hx
        rcases List.mem_or_eq_of_mem_set (moveBackward_mem k h x hx) with h | rfl
        · exact h
        · exact List.mem_of_getElem? ha
      · simp at h

variable [FloatOps F]

/-- What a split may have done to the task's range. -/
structure SplitOk (P : Ref F → Prop) (n m : Nat) (r : SplitResult F) : Prop where
  len : r.view.Len m
  all : r.view.All P
  mid : r.mid ≤ r.stop
  stop : r.stop ≤ m
  grow : n ≤ r.stop

theorem shiftRight_ok {P : Ref F → Prop} {n len : Nat} {r : SplitResult F} (h : SplitOk P n len r) {v : RefView F}
    (hs : shiftRight r = some v) : SplitOk P n len { r with view := v } := by
  unfold shiftRight at hs
  simp only at hs
  split at hs
  · simp only [Option.some.injEq] at hs; subst hs; exact h
  · split at hs
    · rename_i a b c ha hb hc
      simp only [Option.some.injEq] at hs; subst hs
      exact ⟨⟨(moveBackward_length _ ha).trans h.len.1, (moveBackward_length _ hb).trans h.len.2.1,
          (moveBackward_length _ hc).trans h.len.2.2⟩,
        ⟨fun x hx => h.all.1 x (moveBackward_mem _ ha x hx), fun x hx => h.all.2.1 x (moveBackward_mem _ hb x hx),
          fun x hx => h.all.2.2 x (moveBackward_mem _ hc x hx)⟩, h.mid, h.stop, h.grow⟩
    · simp at hs

theorem sortView_ok {P : Ref F → Prop} {ctx : SpatialCtx F} (hsort : ctx.Sorts) {v v' : RefView F} {n len : Nat} {b : Bool}
    (hl : v.Len len) (ha : v.All P) (h : sortView ctx v n b = some v') : v'.Len len ∧ v'.All P := by
  unfold sortView at h
  split at h
  · simp only [Option.some.injEq] at h; subst h; exact ⟨hl, ha⟩
  · split at h
    · rename_i x y z hx hy hz
      simp only [Option.some.injEq] at h; subst h
      have hx := hsort _ _ _ hx
      have hy := hsort _ _ _ hy
      have hz := hsort _ _ _ hz
      have key : ∀ {l s : List (Ref F)}, s.Perm (l.take n) → (s ++ l.drop n).length = l.length ∧
          ∀ r ∈ s ++ l.drop n, r ∈ l := by
        intro l s hp
        refine ⟨by rw [List.length_append, hp.length_eq, ← List.length_append, List.take_append_drop], ?_⟩
        intro r hr
        rcases List.mem_append.1 hr with h | h
        · exact List.mem_of_mem_take (hp.mem_iff.1 h)
        · exact List.mem_of_mem_drop h
      exact ⟨⟨(key hx).1.trans hl.1, (key hy).1.trans hl.2.1, (key hz).1.trans hl.2.2⟩,
        ⟨fun r hr => ha.1 r ((key hx).2 r hr), fun r hr => ha.2.1 r ((key hy).2 r hr),
          fun r hr => ha.2.2 r ((key hz).2 r hr)⟩⟩
    · simp at h

theorem length_filter_add_not {α : Type} (p : α → Bool) (l : List α) :
    (l.filter p).length + (l.filter fun x => !p x).length = l.length := by
  induction l with
  | nil => rfl
  | cons a l ih =>
    by_cases h : p a = true
    · simp [h]; omega
    · simp [h]; omega

theorem applyObjectSplit_ok {P : Ref F → Prop} {M : Nat} {v : RefView F} {n s len : Nat} {axis : Fin 3} {lb rb : Aabb F}
    {r : SplitResult F} (hl : v.Len len) (ha : v.All P) (hn : n ≤ len)
    (h : applyObjectSplit M v n s axis lb rb = some r) : SplitOk P n len r ∧ r.mid = s ∧ r.stop = n ∧ s < n := by
  unfold applyObjectSplit at h
  split at h
  · simp at h
  · rename_i hs
    split at h
    · simp at h
    · simp only [Option.some.injEq] at h; subst h
      simp only [not_not] at hs
      refine ⟨⟨RefView.ofFn_len ?_, RefView.ofFn_all ?_, by simp; omega, by simpa using hn, Nat.le_refl _⟩, rfl, rfl, hs⟩
      · intro a
        split
        · exact hl.get a
        · rw [List.length_append, List.length_append, length_filter_add_not, ← List.length_append, List.take_append_drop]
          exact hl.get a
      · intro a r hr
        split at hr
        · exact ha.get a r hr
        · simp only [List.mem_append, List.mem_filter] at hr
          rcases hr with (⟨h, _⟩ | ⟨h, _⟩) | h
          · exact ha.get a r (List.mem_of_mem_take h)
          · exact ha.get a r (List.mem_of_mem_take h)
          · exact ha.get a r (List.mem_of_mem_drop h)

theorem sidesLoop_ok {axis : Fin 3} {pos : F} : ∀ (k : Nat) {i le : Nat} {refs : List (Ref F)} {lb rb : Aabb F}
    {le' rb' : Nat} {refs' : List (Ref F)} {lb2 rb2 : Aabb F}, le ≤ i →
    sidesLoop axis pos k i le refs lb rb = some (le', rb', refs', lb2, rb2) →
    refs'.length = refs.length ∧ (∀ r ∈ refs', r ∈ refs) ∧ le' ≤ rb' ∧ rb' ≤ i + k ∧ i ≤ rb'
  | 0, i, le, refs, lb, rb, le', rb', refs', lb2, rb2, hle, h => by
    simp only [sidesLoop, Option.some.injEq, Prod.mk.injEq] at h
    obtain ⟨rfl, rfl, rfl, _, _⟩ := h
    exact ⟨rfl, fun _ h => h, hle, by omega, by omega⟩
  | k + 1, i, le, refs, lb, rb, le', rb', refs', lb2, rb2, hle, h => by
    unfold sidesLoop at h
    split at h
    · simp at h
    · split at h
      · split at h
        · simp at h
        · rename_i hsw
          obtain ⟨a, b, c, d, e⟩ := sidesLoop_ok k (by omega) h
          exact ⟨a.trans (swapAt_length hsw), fun r hr => swapAt_mem hsw r (b r hr), c, by omega, by omega⟩
      · split at h
        · split at h
          · simp at h
          · rename_i hsw
            obtain ⟨a, b, c, d, e⟩ := sidesLoop_ok k hle h
            exact ⟨a.trans (swapAt_length hsw), fun r hr => swapAt_mem hsw r (b r hr), c, by omega, by omega⟩
        · obtain ⟨a, b, c, d, e⟩ := sidesLoop_ok k (by omega) h
          exact ⟨a, b, c, by omega, by omega⟩

theorem straddleLoop_ok {N : Nat} {prims : List (SpatialPrim F)} {axis : Fin 3} {pos : F} (hN : prims.length = N) :
    ∀ (k : Nat) {s s' : Straddle F}, straddleLoop prims axis pos k s = some s' →
    (∀ r ∈ s.refs, r.primId < N) → s.rightEnd ≤ s.refs.length →
    s'.refs.length = s.refs.length ∧ (∀ r ∈ s'.refs, r.primId < N) ∧ s'.leftEnd ≤ s.leftEnd + k ∧ s.rightEnd ≤ s'.rightEnd ∧
    s'.rightEnd ≤ s.refs.length
  | 0, s, s', h, hp, hr => by
    simp only [straddleLoop, Option.some.injEq] at h; subst h
    exact ⟨rfl, hp, by omega, by omega, hr⟩
  | k + 1, s, s', h, hp, hr => by
    unfold straddleLoop at h
    split at h
    · simp at h
    · rename_i r hg
      split at h
      · simp at h
      · rename_i p hpr
        simp only at h
        split at h
        · rename_i hlt
          obtain ⟨a, b, c, d, e⟩ := straddleLoop_ok hN k h (by
            intro x hx
            have hid : r.primId < N := hp r (List.mem_of_getElem? hg)
            rcases List.mem_or_eq_of_mem_set hx with hx | rfl
            · rcases List.mem_or_eq_of_mem_set hx with hx | rfl
              · exact hp x hx
              · exact hid
            · exact hid) (by simp; omega)
          simp only [List.length_set] at a b c d e
          exact ⟨a, b, by omega, by omega, e⟩
        · split at h
          · obtain ⟨a, b, c, d, e⟩ := straddleLoop_ok hN k h hp hr
            simp only at a b c d e
            exact ⟨a, b, by omega, by omega, e⟩
          · split at h
            · simp at h
            · rename_i hsw
              obtain ⟨a, b, c, d, e⟩ := straddleLoop_ok hN k h (fun x hx => hp x (swapAt_mem hsw x hx))
                (by rw [swapAt_length hsw]; exact hr)
              simp only [swapAt_length hsw] at a b c d e
              exact ⟨a, b, by omega, by omega, e⟩

theorem applySpatialSplit_ok {N : Nat} {ctx : SpatialCtx F} (hN : ctx.prims.length = N) {v : RefView F} {begin n len : Nat}
    {sp : SpatialSplit F} {r : SplitResult F} (hl : v.Len len) (ha : v.All fun r => r.primId < N) (hn : n ≤ len)
    (h : applySpatialSplit ctx v begin n sp = some r) : SplitOk (fun r => r.primId < N) n len r := by
  unfold applySpatialSplit at h
  split at h
  · simp at h
  · rename_i le rbg refs lb rb hsides
    obtain ⟨h1, h2, h3, h4, _⟩ := sidesLoop_ok n (Nat.le_refl 0) hsides
    have hlen : refs.length = len := h1.trans (hl.get _)
    simp only at h
    split at h
    · simp at h
    · rename_i st k hst
      split at h
      · simp at h
      · rename_i st' hloop
        simp only [Option.some.injEq] at h; subst h
        have hstart : st.refs = refs ∧ st.rightEnd = n ∧ st.leftEnd + k ≤ n := by
          split at hst
          · split at hst
            · simp at hst
            · simp only [Option.some.injEq, Prod.mk.injEq] at hst
              obtain ⟨rfl, rfl⟩ := hst
              refine ⟨rfl, rfl, ?_⟩
              simp only
              split <;> omega
          · simp only [Option.some.injEq, Prod.mk.injEq] at hst
            obtain ⟨rfl, rfl⟩ := hst
            exact ⟨rfl, rfl, by simp only; omega⟩
        obtain ⟨e1, e2, e3⟩ := hstart
        obtain ⟨a, b, c, d, e⟩ := straddleLoop_ok hN k hloop (by rw [e1]; exact fun r hr => ha.get _ r (h2 r hr))
          (by rw [e1, e2]; omega)
        rw [e1] at a e
        refine ⟨RefView.ofFn_len ?_, RefView.ofFn_all ?_, by simp; omega, by simp; omega, by simp; omega⟩
        · intro x
          split
          · omega
          · have := hl.get x
            simp; omega
        · intro x r hr
          split at hr
          · exact b r hr
          · rcases List.mem_append.1 hr with h | h
            · exact b r (List.mem_of_mem_take h)
            · exact ha.get x r (List.mem_of_mem_drop h)

/-- The possible decisions of a task. -/
theorem spatialDecide_ok {N M : Nat} {ctx : SpatialCtx F} (hsort : ctx.Sorts) (hN : ctx.prims.length = N) {thr : F}
    {bounds : Aabb F} {v : RefView F} {begin n len depth : Nat} {srt : Bool} {out : SpatialOutcome F} (hl : v.Len len)
    (ha : v.All fun r => r.primId < N) (hn : n ≤ len)
    (h : spatialDecide ctx thr M bounds v begin n depth srt = .ok out) :
    (∃ v', out = .leaf v' ∧ v'.Len len ∧ v'.All fun r => r.primId < N) ∨
    (∃ r, out = .split r ∧ SplitOk (fun r => r.primId < N) n len r ∧ depth < ctx.maxDepth ∧ 1 < n) := by
  unfold spatialDecide at h
  split at h
  · simp only [Except.ok.injEq] at h
    exact .inl ⟨v, h.symm, hl, ha⟩
  · rename_i hnd
    have hdep : depth < ctx.maxDepth ∧ 1 < n := by omega
    split at h
    · simp at h
    · rename_i v' hv
      obtain ⟨hl', ha'⟩ := sortView_ok hsort hl ha hv
      simp only at h
      split at h
      · simp at h
      · have fin : ∀ {r : Option (SplitResult F)} {out : SpatialOutcome F},
            (∀ x, r = some x → SplitOk (fun r => r.primId < N) n len x) →
            (match r with
              | none => Except.error Fault.panic
              | some r => match shiftRight r with
                | none => .error .wildWrite
                | some view => .ok (.split { r with view := view }) : Except Fault (SpatialOutcome F)) = .ok out →
            ∃ r, out = .split r ∧ SplitOk (fun r => r.primId < N) n len r ∧ depth < ctx.maxDepth ∧ 1 < n := by
          intro r out hr he
          split at he
          · simp at he
          · split at he
            · simp at he
            · rename_i hsh
              simp only [Except.ok.injEq] at he
              exact ⟨_, he.symm, shiftRight_ok (hr _ rfl) hsh, hdep⟩
        split at h
        · split at h
          · exact .inr (fin (fun x hx => (applyObjectSplit_ok hl' ha' hn hx).1) h)
          · simp only [Except.ok.injEq] at h
            exact .inl ⟨v', h.symm, hl', ha'⟩
        · split at h
          · exact .inr (fin (fun x hx => applySpatialSplit_ok hN hl' ha' hn hx) h)
          · split at h
            · exact .inr (fin (fun x hx => (applyObjectSplit_ok hl' ha' hn hx).1) h)
            · simp only [Except.ok.injEq] at h
              exact .inl ⟨v', h.symm, hl', ha'⟩

end Rtbvh
