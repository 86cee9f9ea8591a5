import Verif.Model.BvhOps
import Verif.Spec.Visit
namespace Rtbvh
variable {F : Type}

/-- Mark a list of ids; `none` if one is out of range. -/
def markAll : List Nat → List Bool → Option (List Bool)
  | [], checks => some checks
  | id :: ids, checks => if id < checks.length then markAll ids (checks.set id true) else none

theorem markAll_append (a b : List Nat) (checks : List Bool) :
    markAll (a ++ b) checks = (markAll a checks).bind (markAll b) := by
  induction a generalizing checks with
  | nil => rfl
  | cons x xs ih =>
    simp only [List.cons_append, markAll]
    split
    · exact ih _
    · rfl

theorem markAll_spec (ids : List Nat) (checks : List Bool) :
    markAll ids checks = if ∀ id ∈ ids, id < checks.length
      then some ((List.range checks.length).map fun p => checks[p]?.getD false || decide (p ∈ ids)) else none := by
  induction ids generalizing checks with
  | nil =>
    simp only [markAll, List.not_mem_nil, false_imp_iff, implies_true, if_true, Option.some.injEq]
    apply List.ext_getElem
    · simp
    · intro i h1 h2; simp [h1]
  | cons id ids ih =>
    simp only [markAll]
    by_cases h : id < checks.length
    · rw [if_pos h, ih]
      simp only [List.length_set, List.mem_cons, forall_eq_or_imp, h, true_and]
      split
      · congr 1
        apply List.map_congr_left
        intro p hp
        have hp : p < checks.length := by simpa using hp
        by_cases e : p = id
        · subst e; simp [h]
        · rw [List.getElem?_set_ne (by omega)]; simp [e]
      · rfl
    · rw [if_neg h, if_neg (by intro hh; exact h (hh id (by simp)))]

theorem markLoop_eq (indices : List Nat) (f : Nat) (k : Nat) : ∀ (i : Nat) (checks : List Bool),
    f + i + k ≤ indices.length →
    markLoop indices (f : Int) k i checks = markAll ((indices.drop (f + i)).take k) checks := by
  induction k with
  | zero => intro i checks _; simp [markLoop, markAll]
  | succ k ih =>
    intro i checks h
    have e : ((f : Int) + (i : Int)) = ((f + i : Nat) : Int) := by omega
    rw [markLoop, e, atI32_nat', List.getElem?_eq_getElem (by omega), List.drop_eq_getElem_cons (by omega)]
    simp only [List.take_succ_cons, markAll]
    split
    · rw [ih _ _ (by omega)]; rfl
    · rfl
where
  atI32_nat' {α : Type} (l : List α) (x : Nat) : atI32 l (x : Int) = l[x]? := by simp [atI32]

theorem traverseCheck_eq {nodes : List (BvhNode F)} {indices : List Nat} (hn : nodes.length < 2 ^ 31)
    (hi : indices.length < 2 ^ 31) {i : Nat} {T : BTree F}
    (hU : Unfolds nodes i T) : T.RangesIn indices → ∀ (fuel : Nat), T.depth < fuel → ∀ (nd : BvhNode F),
    nodes[i]? = some nd → ∀ checks, traverseCheck nodes indices fuel nd checks = markAll (T.ids indices) checks := by
  have conv : ∀ (x : Nat), x < 2147483648 → asU32 (x : Int) = x ∧ asI32 x = (x : Int) := by
    intro x hx
    refine ⟨?_, ?_⟩
    · unfold asU32; rw [Int.emod_eq_of_lt (by omega) (by omega)]; simp
    · unfold asI32; rw [Nat.mod_eq_of_lt (by omega), if_pos hx]
  induction hU with
  | @leaf i f c nd h hc hf =>
    intro hr fuel hd nd' h' checks
    rw [h] at h'; cases h'
    obtain ⟨fuel, rfl⟩ : ∃ n, fuel = n + 1 := ⟨fuel - 1, by omega⟩
    simp only [BTree.RangesIn] at hr
    have c1 := conv f (by omega)
    rw [traverseCheck]
    simp only [BvhNode.getLeftFirst, hf, BvhNode.isLeaf, hc, BvhNode.countU]
    rw [if_pos (by omega)]
    simp only [c1.1, c1.2]
    rw [if_pos (by simp), Int.toNat_natCast, markLoop_eq _ _ _ _ _ (by omega)]
    rfl
  | @node i lf nd l r h hc hl ul ur ihl ihr =>
    intro hr fuel hd nd' h' checks
    rw [h] at h'; cases h'
    obtain ⟨fuel, rfl⟩ : ∃ n, fuel = n + 1 := ⟨fuel - 1, by omega⟩
    simp only [BTree.depth] at hd
    obtain ⟨ln, eln⟩ : ∃ ln, nodes[lf]? = some ln := by cases ul with | leaf h => exact ⟨_, h⟩ | node h => exact ⟨_, h⟩
    obtain ⟨rn, ern⟩ : ∃ rn, nodes[lf + 1]? = some rn := by
      cases ur with | leaf h => exact ⟨_, h⟩ | node h => exact ⟨_, h⟩
    have hlf := (List.getElem?_eq_some_iff.1 eln).1
    have c1 := conv lf (by omega)
    rw [traverseCheck]
    simp only [BvhNode.getLeftFirst, hl, BvhNode.isLeaf]
    rw [if_pos (by omega)]
    simp only [c1.1, eln, ern]
    rw [if_neg (by simp; omega), ihl hr.1 fuel (by omega) ln eln]
    rw [BTree.ids, markAll_append]
    congr 1
    funext c
    exact ihr hr.2 fuel (by omega) rn ern c

theorem validate_eq {b : Bvh F} {T : BTree F} (h : b.Denotes T) (hn : b.nodes.length < 2 ^ 31)
    (hi : b.primIndices.length < 2 ^ 31) {fuel : Nat}
    (hf : T.depth < fuel) (k : Nat) :
    b.validate fuel k = if ∀ id ∈ T.ids b.primIndices, id < k then
      some (decide (∀ p < k, p ∈ T.ids b.primIndices)) else none := by
  obtain ⟨nd, e⟩ : ∃ nd, b.nodes[0]? = some nd := by
    cases h.unfolds with
    | leaf h' => exact ⟨_, h'⟩
    | node h' => exact ⟨_, h'⟩
  unfold Bvh.validate
  rw [e]
  simp only
  rw [traverseCheck_eq hn hi h.unfolds h.ranges fuel hf nd e, markAll_spec]
  simp only [List.length_replicate]
  split
  · simp only [Option.map_some, Option.some.injEq]
    rw [Bool.eq_iff_iff]
    simp only [List.all_map, List.all_eq_true, List.mem_range, Function.comp, id_eq, decide_eq_true_eq,
      Bool.or_eq_true]
    constructor
    · intro hh p hp
      rcases hh p hp with h | h
      · simp [hp] at h
      · exact h
    · intro hh p hp; exact .inr (hh p hp)
  · rfl

end Rtbvh
