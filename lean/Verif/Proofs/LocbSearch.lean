import Verif.Model.Locb
/- The nearest neighbour search of the clustering builder computes, whatever the number of threads, the same
neighbour for each cluster. -/
namespace Rtbvh
variable {F : Type}

theorem forRange_inv {σ : Type} {f : Nat → σ → Option σ} (P : Nat → σ → Prop) {k a : Nat} {s : σ} (h0 : P a s)
    (step : ∀ i s, a ≤ i → i < a + k → P i s → ∃ s', f i s = some s' ∧ P (i + 1) s') :
    ∃ s', forRange f k a s = some s' ∧ P (a + k) s' := by
  induction k generalizing a s with
  | zero => exact ⟨s, rfl, h0⟩
  | succ k ih =>
    obtain ⟨s1, e1, p1⟩ := step a s (Nat.le_refl _) (by omega) h0
    obtain ⟨s2, e2, p2⟩ := ih p1 (fun i s h1 h2 hp => step i s (by omega) (by omega) hp)
    refine ⟨s2, ?_, by rw [show a + (k + 1) = a + 1 + k by omega]; exact p2⟩
    simp only [forRange, e1, Option.bind_some, e2]

/-- A loop whose state is a known function of the index. -/
theorem forRange_eq {σ : Type} {f : Nat → σ → Option σ} (g : Nat → σ) {k a : Nat}
    (step : ∀ i, a ≤ i → i < a + k → f i (g i) = some (g (i + 1))) :
    forRange f k a (g a) = some (g (a + k)) := by
  obtain ⟨s, e, rfl⟩ := forRange_inv (f := f) (fun i s => s = g i) (k := k) (a := a) rfl
    (fun i s h1 h2 hs => ⟨g (i + 1), hs ▸ step i h1 h2, rfl⟩)
  exact e

theorem setAt_eq {α : Type} {l : List α} {i : Nat} (a : α) (h : i < l.length) : setAt l i a = some (l.set i a) := by
  simp [setAt, h]

section
variable [FloatOps F]
open FloatOps

/-- The distance of two clusters, total version. -/
def pd (input : List (BvhNode F)) (i j : Nat) : F := (pairDist input i j).getD zero

theorem pairDist_eq {input : List (BvhNode F)} {i j : Nat} (hi : i < input.length) (hj : j < input.length) :
    pairDist input i j = some (pd input i j) := by
  unfold pd pairDist
  rw [List.getElem?_eq_getElem hi, List.getElem?_eq_getElem hj]; rfl

/-- The clusters compared with `i`, in the order of the search, and their distances. -/
def candidates (r : Nat) (input : List (BvhNode F)) (b e i : Nat) : List (Nat × F) :=
  (List.range' (searchRange r i b e).1 (i - (searchRange r i b e).1)).map (fun j => (j, pd input j i)) ++
  (List.range' (i + 1) ((searchRange r i b e).2 - (i + 1))).map (fun j => (j, pd input i j))

/-- The outcome of the search for `i`. -/
def bestOf (r : Nat) (input : List (BvhNode F)) (b e i : Nat) : Best F :=
  (candidates r input b e i).foldl (fun best p => best.offer p.2 p.1) ⟨maxFinite, -1⟩

/-- The neighbour stored for `i`. -/
def nbOf (r : Nat) (input : List (BvhNode F)) (b e i : Nat) : Nat := asU32 (bestOf r input b e i).neighbour

/-- The shape and contents of the distance matrix when cluster `i` is about to be searched. -/
structure MatInv (r : Nat) (input : List (BvhNode F)) (b e i : Nat) (m : DistMat F) : Prop where
  rows : m.length = r + 1
  cols : ∀ (x : Nat) (l : List F), m[x]? = some l → l.length = r
  vals : ∀ j k, b ≤ j → j < i → i - j ≤ r → j < k → k ≤ j + r → k < e → m.read (i - j) (k - j - 1) = some (pd input j k)

theorem write_spec {m : DistMat F} {r row col : Nat} (hr : m.length = r + 1)
    (hc : ∀ (x : Nat) (l : List F), m[x]? = some l → l.length = r) (h1 : row ≤ r) (h2 : col < r) (v : F) :
    ∃ m', m.write row col v = some m' ∧ m'.length = r + 1 ∧ (∀ (x : Nat) (l : List F), m'[x]? = some l → l.length = r) ∧
      ∀ x y, m'.read x y = if x = row ∧ y = col then some v else m.read x y := by
  have hrow : row < m.length := by omega
  have hl := hc row m[row] (List.getElem?_eq_getElem hrow)
  refine ⟨m.set row (m[row].set col v), ?_, by simpa using hr, ?_, ?_⟩
  · unfold DistMat.write
    rw [List.getElem?_eq_getElem hrow]
    simp only [Option.bind_some]
    rw [setAt_eq _ (by omega)]
    simp only [Option.bind_some]
    rw [setAt_eq _ hrow]
  · intro x l hx
    rw [List.getElem?_set] at hx
    split at hx
    · cases hx; simpa using hl
    · exact hc x l hx
  · intro x y
    unfold DistMat.read
    rw [List.getElem?_set]
    by_cases hx : row = x
    · subst hx
      simp only [hrow, if_true, true_and, Option.bind_some, List.getElem?_eq_getElem hrow]
      rw [List.getElem?_set]
      by_cases hy : col = y
      · subst hy; simp [hl, h2]
      · rw [if_neg hy, if_neg (fun h => hy h.symm)]
    · rw [if_neg hx, if_neg (fun h => hx h.1.symm)]

theorem moveBackward_rows {α : Type} (l : List α) (k : Nat) (hk : k < l.length) :
    ∃ l', moveBackward l 0 k (k + 1) = some l' ∧ l'.length = l.length ∧
      ∀ x, l'[x]? = if 1 ≤ x ∧ x ≤ k then l[x - 1]? else l[x]? := by
  induction k generalizing l with
  | zero =>
    refine ⟨l, rfl, rfl, fun x => ?_⟩
    rw [if_neg (by omega)]
  | succ k ih =>
    have h1 : k < l.length := by omega
    obtain ⟨l', e, hl, hx⟩ := ih (l.set (k + 1) l[k]) (by simpa using h1)
    refine ⟨l', ?_, by simpa using hl, fun x => ?_⟩
    · unfold moveBackward
      rw [Nat.zero_add, List.getElem?_eq_getElem h1]
      simp only [Nat.add_sub_cancel]
      rw [if_pos ⟨by omega, by omega⟩]
      exact e
    · rw [hx]
      by_cases h : 1 ≤ x ∧ x ≤ k
      · rw [if_pos h, if_pos (by omega), List.getElem?_set, if_neg (by omega)]
      · rw [if_neg h]
        by_cases h' : x = k + 1
        · subst h'
          rw [if_pos (by omega), List.getElem?_set, if_pos rfl, if_pos hk, Nat.add_sub_cancel,
            List.getElem?_eq_getElem h1]
        · rw [if_neg (by omega), List.getElem?_set, if_neg (by omega)]

theorem rotate_spec {m : DistMat F} {r : Nat} (hr : m.length = r + 1) (hc : ∀ (x : Nat) (l : List F), m[x]? = some l → l.length = r) :
    ∃ m', m.rotate r = some m' ∧ m'.length = r + 1 ∧ (∀ (x : Nat) (l : List F), m'[x]? = some l → l.length = r) ∧
      ∀ x y, x < r → m'.read (x + 1) y = m.read x y := by
  obtain ⟨m1, e1, l1, h1⟩ := moveBackward_rows m r (by omega)
  have hlast : r < m.length := by omega
  refine ⟨m1.set 0 m[r], ?_, by simpa [l1] using hr, ?_, ?_⟩
  · unfold DistMat.rotate
    rw [List.getElem?_eq_getElem hlast]
    simp only [Option.bind_some, e1]
    exact setAt_eq _ (by omega)
  · intro x l hx
    rw [List.getElem?_set] at hx
    split at hx
    · rw [if_pos (by omega)] at hx
      cases hx
      exact hc r _ (List.getElem?_eq_getElem hlast)
    · rw [h1] at hx
      split at hx
      · exact hc _ _ hx
      · exact hc _ _ hx
  · intro x y hx
    unfold DistMat.read
    rw [List.getElem?_set, if_neg (by omega), h1, if_pos (by omega)]
    simp

theorem fillMatrix_spec (r : Nat) (input : List (BvhNode F)) (b e cb : Nat) (hb : b ≤ cb) (he : cb ≤ e)
    (hin : e ≤ input.length) :
    ∃ m, fillMatrix r input b e cb (List.replicate (r + 1) (List.replicate r zero)) = some m ∧
      MatInv r input b e cb m := by
  have sb : b ≤ (searchRange r cb b e).1 ∧ (searchRange r cb b e).1 ≤ cb ∧ cb - (searchRange r cb b e).1 ≤ r := by
    unfold searchRange; simp only; split <;> omega
  have sb' : ∀ j, b ≤ j → cb - j ≤ r → (searchRange r cb b e).1 ≤ j := by
    intro j; unfold searchRange; simp only; split <;> omega
  obtain ⟨m, e1, ⟨h1, h2⟩, h3⟩ := forRange_inv (σ := DistMat F)
    (f := fun i m => forRange (fun j m => (pairDist input i j).bind fun d => m.write (cb - i) (j - i - 1) d)
      ((searchRange r i b e).2 - (i + 1)) (i + 1) m)
    (fun i m => (m.length = r + 1 ∧ ∀ (x : Nat) (l : List F), m[x]? = some l → l.length = r) ∧
      ∀ j k, b ≤ j → j < i → cb - j ≤ r → j < k → k ≤ j + r → k < e → m.read (cb - j) (k - j - 1) = some (pd input j k))
    (k := cb - (searchRange r cb b e).1) (a := (searchRange r cb b e).1)
    (s := List.replicate (r + 1) (List.replicate r zero))
    (by
      refine ⟨⟨by simp, ?_⟩, ?_⟩
      · intro x l hx
        rw [List.getElem?_replicate] at hx
        split at hx
        · cases hx; simp
        · cases hx
      · intro j k h1 h2 h3
        have := sb' j h1 h3
        omega)
    (by
      intro i m hi hi' ⟨hm, hv⟩
      have hicb : i < cb := by omega
      obtain ⟨m', e2, ⟨hm1, hm2⟩, hm3⟩ := forRange_inv (σ := DistMat F)
        (f := fun j m => (pairDist input i j).bind fun d => m.write (cb - i) (j - i - 1) d)
        (fun j m' => (m'.length = r + 1 ∧ ∀ (x : Nat) (l : List F), m'[x]? = some l → l.length = r) ∧
          ∀ x y, m'.read x y = if x = cb - i ∧ y + i + 1 < j then some (pd input i (y + i + 1)) else m.read x y)
        (k := (searchRange r i b e).2 - (i + 1)) (a := i + 1) (s := m)
        ⟨hm, by intro x y; rw [if_neg (by omega)]⟩
        (by
          intro j m1 hj hj' ⟨hm1, hv1⟩
          have hjj : j < e ∧ j ≤ i + r := by
            have : (searchRange r i b e).2 = Min.min (i + r + 1) e := rfl
            omega
          obtain ⟨m2, e3, q1, q2, q3⟩ := write_spec hm1.1 hm1.2 (row := cb - i) (col := j - i - 1) (by omega)
            (by omega) (pd input i j)
          refine ⟨m2, ?_, ⟨q1, q2⟩, ?_⟩
          · simp only [pairDist_eq (show i < input.length by omega) (show j < input.length by omega), Option.bind_some]
            exact e3
          · intro x y
            rw [q3, hv1]
            by_cases hx : x = cb - i
            · by_cases hy : y = j - i - 1
              · rw [if_pos ⟨hx, hy⟩, if_pos ⟨hx, by omega⟩, show y + i + 1 = j by omega]
              · rw [if_neg (fun h => hy h.2)]
                by_cases hy' : y + i + 1 < j
                · rw [if_pos ⟨hx, hy'⟩, if_pos ⟨hx, by omega⟩]
                · rw [if_neg (by omega), if_neg (by omega)]
            · rw [if_neg (fun h => hx h.1), if_neg (fun h => hx h.1), if_neg (fun h => hx h.1)])
      refine ⟨m', e2, ⟨hm1, hm2⟩, ?_⟩
      intro j k g1 g2 g3 g4 g5 g6
      rw [hm3]
      by_cases hji : j = i
      · subst hji
        have : (searchRange r j b e).2 = Min.min (j + r + 1) e := rfl
        rw [if_pos ⟨rfl, by omega⟩, show k - j - 1 + j + 1 = k by omega]
      · rw [if_neg (by omega)]
        exact hv j k g1 (by omega) g3 g4 g5 g6)
  refine ⟨m, e1, h1, h2, ?_⟩
  intro j k g1 g2 g3 g4 g5 g6
  exact h3 j k g1 (by omega) g3 g4 g5 g6

theorem forRange_fold {σ : Type} {f : Nat → σ → Option σ} {g : σ → Nat → σ} {k a : Nat} (s : σ)
    (step : ∀ i s, a ≤ i → i < a + k → f i s = some (g s i)) :
    forRange f k a s = some ((List.range' a k).foldl g s) := by
  induction k generalizing a s with
  | zero => rfl
  | succ k ih =>
    simp only [forRange, step a s (Nat.le_refl _) (by omega), Option.bind_some]
    rw [ih _ (fun i s h1 h2 => step i s (by omega) (by omega))]
    simp [List.range'_succ]

theorem searchOne_spec (r : Nat) (input : List (BvhNode F)) (b e i : Nat) (hb : b ≤ i) (he : i < e)
    (hin : e ≤ input.length) (m : DistMat F) (hm : MatInv r input b e i m) :
    ∃ m', searchOne r input b e i m = some (m', bestOf r input b e i) ∧
      m'.length = r + 1 ∧ (∀ (x : Nat) (l : List F), m'[x]? = some l → l.length = r) ∧
      (∀ x y, 0 < x → m'.read x y = m.read x y) ∧
      (∀ k, i < k → k ≤ i + r → k < e → m'.read 0 (k - i - 1) = some (pd input i k)) := by
  have sb : b ≤ (searchRange r i b e).1 ∧ (searchRange r i b e).1 ≤ i ∧ i - (searchRange r i b e).1 ≤ r := by
    unfold searchRange; simp only; split <;> omega
  have se : (searchRange r i b e).2 = Min.min (i + r + 1) e := rfl
  unfold searchOne
  rw [forRange_fold (g := fun best j => best.offer (pd input j i) j) (⟨maxFinite, -1⟩ : Best F) (by
    intro j best h1 h2
    rw [hm.vals j i (by omega) (by omega) (by omega) (by omega) (by omega) he]; rfl)]
  simp only [Option.bind_some]
  generalize hbest : (List.range' (searchRange r i b e).1 (i - (searchRange r i b e).1)).foldl
    (fun best j => best.offer (pd input j i) j) (⟨maxFinite, -1⟩ : Best F) = best
  obtain ⟨s, e1, ⟨h1, h2⟩, h3, h4, h5⟩ := forRange_inv (σ := DistMat F × Best F)
    (f := fun j (s : DistMat F × Best F) =>
      (pairDist input i j).bind fun d => (s.1.write 0 (j - i - 1) d).map fun m => (m, s.2.offer d j))
    (fun j s => (s.1.length = r + 1 ∧ ∀ (x : Nat) (l : List F), s.1[x]? = some l → l.length = r) ∧
      (∀ x y, 0 < x → s.1.read x y = m.read x y) ∧
      (∀ k, i < k → k ≤ i + r → k < j → s.1.read 0 (k - i - 1) = some (pd input i k)) ∧
      s.2 = (List.range' (i + 1) (j - (i + 1))).foldl (fun best j => best.offer (pd input i j) j) best)
    (k := (searchRange r i b e).2 - (i + 1)) (a := i + 1) (s := (m, best))
    ⟨⟨hm.rows, hm.cols⟩, fun _ _ _ => rfl, fun k h1 _ h3 => by omega, by simp⟩
    (by
      rintro j ⟨m1, best1⟩ hj hj' ⟨⟨q1, q2⟩, q3, q4, q5⟩
      obtain ⟨m2, e2, w1, w2, w3⟩ := write_spec q1 q2 (row := 0) (col := j - i - 1) (by omega) (by omega) (pd input i j)
      refine ⟨(m2, best1.offer (pd input i j) j), ?_, ⟨w1, w2⟩, ?_, ?_, ?_⟩
      · simp only [pairDist_eq (show i < input.length by omega) (show j < input.length by omega), Option.bind_some, e2,
          Option.map_some]
      · intro x y hx
        simp only at q3 ⊢
        rw [w3, if_neg (by omega), q3 x y hx]
      · intro k g1 g2 g3
        simp only at q4 ⊢
        rw [w3]
        by_cases hk : k = j
        · subst hk; rw [if_pos ⟨rfl, rfl⟩]
        · rw [if_neg (by omega), q4 k g1 g2 (by omega)]
      · simp only at q5 ⊢
        rw [show j + 1 - (i + 1) = (j - (i + 1)) + 1 by omega, List.range'_concat, List.foldl_append, ← q5]
        simp only [List.foldl_cons, List.foldl_nil, Nat.one_mul]
        rw [show i + 1 + (j - (i + 1)) = j by omega])
  refine ⟨s.1, ?_, h1, h2, h3, ?_⟩
  · rw [e1]
    congr 1
    apply Prod.ext
    · rfl
    · simp only
      rw [h5]
      unfold bestOf candidates
      rw [List.foldl_append, List.foldl_map, List.foldl_map, hbest]
      congr 2
      omega
  · intro k g1 g2 g3
    exact h4 k g1 g2 (by omega)

/-- The auxiliary data once the clusters `b .. i` have their neighbours. -/
def auxAt (r : Nat) (input : List (BvhNode F)) (b e : Nat) (aux : List Nat) (i : Nat) : List Nat :=
  aux.mapIdx fun x v => if b ≤ x ∧ x < i then nbOf r input b e x else v

theorem auxAt_base (r : Nat) (input : List (BvhNode F)) (b e : Nat) (aux : List Nat) :
    auxAt r input b e aux b = aux := by
  apply List.ext_getElem?
  intro x
  simp only [auxAt, List.getElem?_mapIdx]
  cases aux[x]? with
  | none => rfl
  | some v => simp only [Option.map_some]; rw [if_neg (by omega)]

theorem auxAt_step (r : Nat) (input : List (BvhNode F)) (b e : Nat) (aux : List Nat) (i : Nat) (hb : b ≤ i)
    (hi : i < aux.length) :
    setAt (auxAt r input b e aux i) i (nbOf r input b e i) = some (auxAt r input b e aux (i + 1)) := by
  rw [setAt_eq _ (by simpa [auxAt] using hi)]
  congr 1
  apply List.ext_getElem?
  intro x
  simp only [auxAt, List.getElem?_set, List.getElem?_mapIdx, List.length_mapIdx]
  by_cases hx : i = x
  · subst hx
    rw [if_pos rfl, if_pos hi, List.getElem?_eq_getElem hi, Option.map_some, if_pos ⟨hb, by omega⟩]
  · rw [if_neg hx]
    cases aux[x]? with
    | none => rfl
    | some v =>
      simp only [Option.map_some]
      by_cases h : b ≤ x ∧ x < i
      · rw [if_pos h, if_pos (by omega)]
      · rw [if_neg h, if_neg (by omega)]

theorem searchChunk_spec (r : Nat) (input : List (BvhNode F)) (b e cb ce : Nat) (hb : b ≤ cb) (hc : cb ≤ ce)
    (he : ce ≤ e) (hin : e ≤ input.length) (aux : List Nat) (ha : e ≤ aux.length) :
    searchChunk r input b e cb ce (auxAt r input b e aux cb) = some (auxAt r input b e aux ce) := by
  obtain ⟨m, e1, hm⟩ := fillMatrix_spec r input b e cb hb (by omega) hin
  unfold searchChunk
  rw [e1]
  simp only [Option.bind_some]
  obtain ⟨s, e2, _, h2⟩ := forRange_inv (σ := DistMat F × List Nat)
    (f := fun i (s : DistMat F × List Nat) =>
      (searchOne r input b e i s.1).bind fun mb =>
      (setAt s.2 i (asU32 mb.2.neighbour)).bind fun aux =>
      (mb.1.rotate r).map fun m => (m, aux))
    (fun i s => MatInv r input b e i s.1 ∧ s.2 = auxAt r input b e aux i)
    (k := ce - cb) (a := cb) (s := (m, auxAt r input b e aux cb)) ⟨hm, rfl⟩
    (by
      rintro i ⟨m1, aux1⟩ hi hi' ⟨q1, q2⟩
      simp only at q1 q2
      subst q2
      obtain ⟨m2, s1, s2, s3, s4, s5⟩ := searchOne_spec r input b e i (by omega) (by omega) hin m1 q1
      obtain ⟨m3, t1, t2, t3, t4⟩ := rotate_spec s2 s3
      refine ⟨(m3, auxAt r input b e aux (i + 1)), ?_, ⟨t2, t3, ?_⟩, rfl⟩
      · simp only [s1, Option.bind_some]
        have := auxAt_step r input b e aux i (by omega) (by omega)
        unfold nbOf at this
        rw [this]
        simp only [Option.bind_some, t1, Option.map_some]
      · intro j k g1 g2 g3 g4 g5 g6
        by_cases hji : j = i
        · subst hji
          rw [show j + 1 - j = 0 + 1 by omega, t4 0 _ (by omega)]
          exact s5 k g4 g5 g6
        · rw [show i + 1 - j = (i - j) + 1 by omega, t4 _ _ (by omega), s4 _ _ (by omega)]
          exact q1.vals j k g1 (by omega) (by omega) g4 g5 g6)
  rw [e2, Option.map_some, h2, show cb + (ce - cb) = ce by omega]

/-- Whatever the number of threads, the search stores the neighbour of each cluster and nothing else. -/
theorem searchAll_spec (r t : Nat) (ht : 0 < t) (input : List (BvhNode F)) (b e : Nat) (hbe : b ≤ e)
    (hin : e ≤ input.length) (aux : List Nat) (ha : e ≤ aux.length) :
    searchAll r t input b e aux = some (auxAt r input b e aux e) := by
  unfold searchAll
  simp only
  generalize hcs : (e - b) / t = cs
  have hcs' : t * cs ≤ e - b := by rw [← hcs]; exact Nat.mul_div_le _ _
  have hle : ∀ id, id ≤ t → b + id * cs ≤ e := by
    intro id hid
    have : id * cs ≤ t * cs := Nat.mul_le_mul_right _ hid
    omega
  conv => lhs; rw [← auxAt_base r input b e aux]
  have := forRange_eq (f := fun id aux =>
      searchChunk r input b e (b + id * cs) (if id ≠ t - 1 then b + id * cs + cs else e) aux)
    (fun id => auxAt r input b e aux (if id = t then e else b + id * cs)) (k := t) (a := 0) (by
      intro id _ hid
      simp only [Nat.zero_add] at hid
      rw [if_neg (show ¬ id = t by omega)]
      have h1 := hle id (by omega)
      have h2 : b + id * cs + cs = b + (id + 1) * cs := by rw [Nat.add_mul]; omega
      have h3 := hle (id + 1) (by omega)
      rw [searchChunk_spec r input b e (b + id * cs) _ (by omega) (by split <;> omega) (by split <;> omega) hin aux ha]
      congr 2
      by_cases hl : id = t - 1
      · rw [if_neg (by simpa using hl), if_pos (by omega)]
      · rw [if_pos hl, if_neg (by omega), h2])
  simp only [Nat.zero_add] at this
  rw [if_pos trivial, if_neg (by omega)] at this
  simpa using this

end
end Rtbvh
