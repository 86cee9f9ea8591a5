import Verif.Props.Utils
import Verif.Props.Spatial
/- Edge cases of C51 and C53; C57 at the level of results. -/
namespace Rtbvh
variable {α F : Type}

/-- C51 for every buffer length: call number `i` overall gets the pair `(1+2i, 2+2i)` exactly if both fit and `None`
exactly if the first does not; if only the first fits (possible for even lengths alone) the call refers past the end of the
buffer.  The two builders that allocate use `2n - 1` and `2m + 1` nodes, odd numbers. -/
theorem C51_allocate_any (len : Nat) (calls : List Nat) (i : Nat) (h : i < calls.length) :
    (allocTrace len calls 1)[i]? = some (calls[i],
      if 2 + 2 * i < len then .pair (1 + 2 * i) else if 2 + 2 * i = len then .outOfBounds else .exhausted) := by
  have key : ∀ (calls : List Nat) (k i : Nat) (h : i < calls.length), (allocTrace len calls (1 + 2 * k))[i]? =
      some (calls[i], if 2 + 2 * (k + i) < len then .pair (1 + 2 * (k + i)) else
        if 2 + 2 * (k + i) = len then .outOfBounds else .exhausted) := by
    intro calls
    induction calls with
    | nil => intro k i h; simp at h
    | cons th rest ih =>
      intro k i h
      have e : 1 + 2 * k + 2 = 1 + 2 * (k + 1) := by omega
      cases i with
      | zero =>
        simp only [allocTrace, allocate, List.getElem?_cons_zero, List.getElem_cons_zero, Nat.add_zero]
        congr 2
        by_cases h1 : len ≤ 1 + 2 * k
        · rw [if_pos h1, if_neg (by omega), if_neg (by omega)]
        · rw [if_neg h1]
          by_cases h2 : 2 + 2 * k < len
          · rw [if_pos (by omega), if_pos h2]
          · rw [if_neg (by omega), if_neg h2, if_pos (by omega)]
      | succ i =>
        simp only [allocTrace, allocate, List.getElem?_cons_succ, List.getElem_cons_succ]
        rw [e, ih (k + 1) i (by simpa using h)]
        have : k + 1 + i = k + (i + 1) := by omega
        rw [this]
  have := key calls 0 i h
  simpa only [Nat.mul_zero, Nat.add_zero, Nat.zero_add] using this

/-- Non-vacuity: both kinds of length. -/
example : allocTrace 6 [0, 1, 0, 2] 1 = [(0, .pair 1), (1, .pair 3), (0, .outOfBounds), (2, .exhausted)] := by decide

/-- C53, `count = 0`: `prefix_sum` returns `first[0]`, not the empty sum, and writes nothing; it panics on an empty
slice. -/
theorem C53_prefix_sum_zero [Add α] [Zero α] (first output : List α) :
    prefixSum first 0 output = (first[0]?).map (fun a => (a, output)) ∧
    prefixSumAlias first 0 = (first[0]?).map (fun a => (a, first)) := ⟨rfl, rfl⟩

example : prefixSum [7, 8] 0 [1, 2] = some (7, [1, 2]) ∧ prefixSum ([] : List Nat) 0 [] = none := by decide

theorem prefixSumLoop_long [Add α] (first : List α) : ∀ (k i : Nat) (s : α) (out : List α), 0 < k →
    (first.length < i + k ∨ out.length < i + k) → prefixSumLoop first k i s out = none := by
  intro k
  induction k with
  | zero => intro i s out h; omega
  | succ k ih =>
    intro i s out _ h
    unfold prefixSumLoop
    cases e : first[i]? with
    | none => rfl
    | some a =>
      have hi := (List.getElem?_eq_some_iff.1 e).1
      simp only
      split
      · rename_i ho
        exact ih (i + 1) _ _ (by omega) (by simp only [List.length_set]; omega)
      · rfl

/-- C53, slices that are too short: `prefix_sum` panics. -/
theorem C53_prefix_sum_panics [Add α] [Zero α] (first output : List α) (count : Nat) (hc : 0 < count)
    (h : first.length < count ∨ output.length < count) : prefixSum first count output = none := by
  unfold prefixSum
  rw [if_neg (by omega)]
  exact prefixSumLoop_long first count 0 0 output hc (by simpa using h)

example : prefixSum [1, 2] 3 [0, 0, 0] = none ∧ prefixSum [1, 2, 3] 3 [0, 0] = none := by decide

variable [FloatOps F]

omit [FloatOps F] in
/-- The boxes gathered in some arrival order are the primitives' own boxes, position by position, exactly if every
primitive that arrives has the box of the primitive whose place it takes. -/
theorem collectAabbs_own {prims : List (Prim F)} {order : List Nat} (ho : order.Perm (List.range prims.length)) :
    collectAabbs order prims = prims.map Prim.aabb ↔
      ∀ (i : Nat) (p q : Prim F), prims[i]? = some p → ((order[i]?).bind fun j => prims[j]?) = some q → q.aabb = p.aabb := by
  have hlen : order.length = prims.length := by rw [ho.length_eq, List.length_range]
  have hmem : ∀ j ∈ order, j < prims.length := fun j hj => by simpa using ho.mem_iff.1 hj
  have hget : ∀ (l : List Nat), (∀ j ∈ l, j < prims.length) → ∀ i : Nat, (l.filterMap fun j => (prims[j]?).map Prim.aabb)[i]? =
      ((l[i]?).bind fun j => prims[j]?).map Prim.aabb := by
    intro l
    induction l with
    | nil => intro _ i; simp
    | cons j l ih =>
      intro hj i
      have h1 : (prims[j]?).map Prim.aabb = some (prims[j]'(hj j (by simp))).aabb := by
        rw [List.getElem?_eq_getElem (hj j (by simp))]; rfl
      rw [List.filterMap_cons_some (f := fun j => (prims[j]?).map Prim.aabb) h1]
      cases i with
      | zero => simp [h1]
      | succ i => simpa using ih (fun j hj' => hj j (by simp [hj'])) i
  have hcol : ∀ i : Nat, (collectAabbs order prims)[i]? = ((order[i]?).bind fun j => prims[j]?).map Prim.aabb := by
    intro i; exact hget order hmem i
  constructor
  · intro e i p q hp hq
    have h := hcol i
    rw [e, hq, List.getElem?_map, hp] at h
    simp only [Option.map_some, Option.some.injEq] at h
    exact h.symm
  · intro hall
    apply List.ext_getElem?
    intro i
    rw [hcol, List.getElem?_map]
    by_cases hi : i < prims.length
    · have hj : order[i]'(by omega) < prims.length := hmem _ (List.getElem_mem _)
      have e1 : ((order[i]?).bind fun j => prims[j]?) = some (prims[order[i]'(by omega)]'hj) := by
        rw [List.getElem?_eq_getElem (by omega)]; simp [hj]
      have e2 : prims[i]? = some prims[i] := List.getElem?_eq_getElem hi
      rw [e1, e2]
      simp only [Option.map_some, Option.some.injEq]
      exact hall i _ _ e2 e1
    · rw [List.getElem?_eq_none (by omega), List.getElem?_eq_none (by omega)]; rfl

/-- C57, the part that holds, for all three constructors and every schedule: with `aabbs = None` the result is that of
passing each primitive's own box, provided every primitive has the same box as the primitive in whose place it arrives; in
particular when the boxes arrive in order.  Missing: other arrival orders, for which the claim is false
(`C57_arrival_order_matters`). -/
theorem C57_same_result_partial (prims : List (Prim F)) (ppl : Option Nat) (order order' : List Nat)
    (ho : order.Perm (List.range prims.length))
    (hsame : ∀ (i : Nat) (p q : Prim F), prims[i]? = some p → ((order[i]?).bind fun j => prims[j]?) = some q → q.aabb = p.aabb) :
    (∀ ks, (Builder.mk none prims ppl).constructBinnedSah order ks =
      (Builder.mk (some (prims.map Prim.aabb)) prims ppl).constructBinnedSah order' ks) ∧
    (∀ t fuel, (Builder.mk none prims ppl).constructLocb order t fuel =
      (Builder.mk (some (prims.map Prim.aabb)) prims ppl).constructLocb order' t fuel) ∧
    (∀ split sort ks, (Builder.mk none prims ppl).constructSpatialSah split sort order ks =
      (Builder.mk (some (prims.map Prim.aabb)) prims ppl).constructSpatialSah split sort order' ks) := by
  have hc : (Builder.mk none prims ppl).check order = (Builder.mk (some (prims.map Prim.aabb)) prims ppl).check order' := by
    unfold Builder.check
    simp only [(collectAabbs_own ho).2 hsame, List.length_map, ne_eq, not_true_eq_false, if_false]
  refine ⟨fun ks => ?_, fun t fuel => ?_, fun split sort ks => ?_⟩
  · unfold Builder.constructBinnedSah; rw [hc]
  · unfold Builder.constructLocb; rw [hc]
  · unfold Builder.constructSpatialSah; rw [hc]

/-- Non-vacuity: two equal boxes may arrive swapped. -/
example : let P : Prim F32 := cubePrim 3 1
    ∀ (i : Nat) (p q : Prim F32), [P, P, cubePrim 9 1][i]? = some p →
      (([1, 0, 2][i]?).bind fun j => [P, P, cubePrim 9 1][j]?) = some q → q.aabb = p.aabb := by
  intro P i p q hp hq
  match i with
  | 0 => simp at hp hq; subst hp; subst hq; rfl
  | 1 => simp at hp hq; subst hp; subst hq; rfl
  | 2 => simp at hp hq; subst hp; subst hq; rfl
  | n + 3 => simp at hp

end Rtbvh
