import Verif.Proofs.Partition
import Verif.Model.Alloc
import Verif.Model.Exact
/- Properties C43, C45, C51, C52, C53. -/
namespace Rtbvh
variable {α F : Type}

/-- C52. `partition` over a whole slice never panics, permutes the slice, returns the number of elements satisfying
the predicate, and leaves exactly those in front. -/
theorem C52_partition (check : α → Bool) (l : List α) :
    ∃ l', partition l 0 l.length check = some (l.countP check, l') ∧ l'.Perm l ∧
      (∀ a ∈ l'.take (l.countP check), check a = true) ∧ (∀ a ∈ l'.drop (l.countP check), check a = false) := by
  obtain ⟨c, l', e, _⟩ := partition_spec check l
  obtain ⟨p, _, q1, q2, rfl⟩ := partition_unique e
  exact ⟨l', e, p, q1, q2⟩

/-- C52, any range inside the slice: no panic, the slice is permuted, everything behind the range stays, and the elements
of the range that satisfy the predicate, in their order, become the first elements of the whole slice, whether or not the
range starts there. -/
theorem C52_partition_range (check : α → Bool) (l : List α) (start stop : Nat) (h : start ≤ stop) (hl : stop ≤ l.length) :
    ∃ c l', partition l start stop check = some (c, l') ∧ l'.Perm l ∧
      c = ((l.drop start).take (stop - start)).countP check ∧
      l'.take c = ((l.drop start).take (stop - start)).filter check ∧ l'.drop stop = l.drop stop := by
  obtain ⟨c, l', e, p, _, q1, q2, q3⟩ := partitionLoop_range check (stop - start) start 0 l (by omega) (by omega)
  refine ⟨c, l', e, p, by simpa using q3, by simpa using q1, ?_⟩
  rw [show start + (stop - start) = stop by omega] at q2
  exact q2

/-- C52: a range that ends behind the slice panics, however the predicate answers. -/
theorem C52_partition_past (check : α → Bool) (l : List α) (start stop : Nat) (h : start < stop) (hl : l.length < stop) :
    partition l start stop check = none :=
  partitionLoop_past check _ _ _ _ (by omega) (by omega) (by omega)

/-- C52: a range that does not start at 0 is not partitioned in place: the elements that satisfy the predicate leave the
range.  Here the range is `1..3`, the only even number goes to index 0, and the odd number there enters the range. -/
theorem C52_partition_range_not_in_place : ∃ (l l' : List Nat) (c : Nat),
    partition l 1 3 (fun x => x % 2 == 0) = some (c, l') ∧ c = 1 ∧
      ¬ ((l'.drop 1).take 2).Perm ((l.drop 1).take 2) ∧ ∀ a ∈ (l'.drop 1).take 2, a % 2 = 1 :=
  ⟨[1, 3, 2], [2, 3, 1], 1, by decide, rfl, by decide, by decide⟩

example : partition [1, 2, 7, 4, 9, 6] 2 5 (fun x => x % 2 == 0) = some (1, [4, 2, 7, 1, 9, 6]) := by decide
example : partition [1, 2] 1 3 (fun x => x % 2 == 0) = none := by decide

example : partition [5, 2, 7, 4, 9] 0 5 (fun x => x % 2 == 0) = some (2, [2, 4, 7, 5, 9]) := by decide

/-- Specification: inclusive prefix sums with a running start value. -/
def sums [Add α] : α → List α → List α
  | _, [] => []
  | s, a :: as => (s + a) :: sums (s + a) as
/-- Specification: the total. -/
def total [Add α] : α → List α → α
  | s, [] => s
  | s, a :: as => total (s + a) as

theorem prefixSumLoop_spec [Add α] (first : List α) (k : Nat) : ∀ (i : Nat) (s : α) (out : List α),
    i + k ≤ first.length → i + k ≤ out.length →
    prefixSumLoop first k i s out =
      some (total s ((first.drop i).take k), out.take i ++ sums s ((first.drop i).take k) ++ out.drop (i + k)) := by
  induction k with
  | zero => intro i s out _ _; simp [prefixSumLoop, sums, total]
  | succ k ih =>
    intro i s out h1 h2
    have hi : i < first.length := by omega
    have ho : i < out.length := by omega
    rw [prefixSumLoop, List.getElem?_eq_getElem hi]
    simp only [ho, if_true]
    rw [ih (i + 1) _ _ (by omega) (by simp; omega), List.drop_eq_getElem_cons hi]
    simp only [List.take_succ_cons, sums, total]
    congr 2
    rw [List.take_add_one, List.getElem?_set_self ho, List.take_set_of_le (Nat.le_refl _),
      List.drop_set_of_lt (by omega)]
    simp [Nat.add_comm, Nat.add_left_comm]

theorem prefixSumAliasLoop_spec [Add α] (k : Nat) : ∀ (i : Nat) (s : α) (buf : List α),
    i + k ≤ buf.length →
    prefixSumAliasLoop k i s buf =
      some (total s ((buf.drop i).take k), buf.take i ++ sums s ((buf.drop i).take k) ++ buf.drop (i + k)) := by
  induction k with
  | zero => intro i s buf _; simp [prefixSumAliasLoop, sums, total]
  | succ k ih =>
    intro i s buf h1
    have hi : i < buf.length := by omega
    rw [prefixSumAliasLoop, List.getElem?_eq_getElem hi]
    simp only
    rw [ih (i + 1) _ _ (by simp; omega), List.drop_eq_getElem_cons hi]
    simp only [List.take_succ_cons, sums, total]
    rw [List.take_add_one, List.getElem?_set_self hi, List.take_set_of_le (Nat.le_refl _),
      List.drop_set_of_lt (by omega), List.drop_set_of_lt (by omega)]
    simp [Nat.add_comm, Nat.add_left_comm]

/-- C53. `prefix_sum(first, count, output)` with `1 ≤ count` and both slices long enough returns the total of the
first `count` elements and writes exactly their inclusive prefix sums to the front of `output`; the same when
`output` and `first` are the same memory. -/
theorem C53_prefix_sum [Add α] [Zero α] (first output : List α) (count : Nat) (hc : 0 < count)
    (h1 : count ≤ first.length) (h2 : count ≤ output.length) :
    prefixSum first count output =
      some (total 0 (first.take count), sums 0 (first.take count) ++ output.drop count) ∧
    prefixSumAlias first count =
      some (total 0 (first.take count), sums 0 (first.take count) ++ first.drop count) := by
  constructor
  · rw [prefixSum, if_neg (by omega), prefixSumLoop_spec _ _ _ _ _ (by omega) (by omega)]
    simp
  · rw [prefixSumAlias, if_neg (by omega), prefixSumAliasLoop_spec _ _ _ _ (by omega)]
    simp

/-- The specification's `sums` are the partial sums, position by position (natural numbers, the type used in
src/builders/locb.rs 170-176). -/
theorem sums_get (l : List Nat) (s i : Nat) (h : i < l.length) : (sums s l)[i]? = some (s + (l.take (i + 1)).sum) := by
  induction l generalizing s i with
  | nil => simp at h
  | cons a as ih =>
    cases i with
    | zero => simp [sums]
    | succ i => simp only [sums, List.getElem?_cons_succ]; rw [ih _ _ (by simpa using h)]; simp; omega
theorem total_nat (l : List Nat) (s : Nat) : total s l = s + l.sum := by
  induction l generalizing s with
  | nil => simp [total]
  | cons a as ih => simp [total, ih]; omega

example : prefixSumAlias [1, 0, 1, 1] 3 = some (2, [1, 1, 2, 1]) := by decide

/-- C51. Whatever the threads and the order of their calls, call number `i` overall gets the pair `(1+2i, 2+2i)` if it
fits into a buffer of odd length, and `None` otherwise; never a reference past the end.  Hence successful calls get
pairwise disjoint pairs above index 0. -/
theorem C51_allocate (len : Nat) (hodd : len % 2 = 1) (calls : List Nat) :
    (allocTrace len calls 1).length = calls.length ∧
    (∀ i (h : i < calls.length), (allocTrace len calls 1)[i]? =
      some (calls[i], if 2 + 2 * i < len then .pair (1 + 2 * i) else .exhausted)) ∧
    (∀ (i j ti tj li lj : Nat), i ≠ j → (allocTrace len calls 1)[i]? = some (ti, Alloc.pair li) →
      (allocTrace len calls 1)[j]? = some (tj, Alloc.pair lj) →
      0 < li ∧ li + 1 < len ∧ li ≠ lj ∧ li ≠ lj + 1 ∧ li + 1 ≠ lj) := by
  have key : ∀ (calls : List Nat) (k : Nat), (allocTrace len calls (1 + 2 * k)).length = calls.length ∧
      ∀ i (h : i < calls.length), (allocTrace len calls (1 + 2 * k))[i]? =
        some (calls[i], if 2 + 2 * (k + i) < len then .pair (1 + 2 * (k + i)) else .exhausted) := by
    intro calls
    induction calls with
    | nil => intro k; exact ⟨rfl, by simp⟩
    | cons th rest ih =>
      intro k
      obtain ⟨h1, h2⟩ := ih (k + 1)
      have e : 1 + 2 * k + 2 = 1 + 2 * (k + 1) := by omega
      refine ⟨by simp [allocTrace, allocate, e, h1], ?_⟩
      intro i hi
      cases i with
      | zero =>
        simp only [allocTrace, allocate, List.getElem?_cons_zero, List.getElem_cons_zero, Nat.add_zero]
        congr 2
        by_cases h : len ≤ 1 + 2 * k
        · rw [if_pos h, if_neg (by omega)]
        · rw [if_neg h, if_pos (by omega), if_pos (by omega)]
      | succ i =>
        simp only [allocTrace, allocate, List.getElem?_cons_succ, List.getElem_cons_succ]
        rw [e, h2 i (by simpa using hi)]
        have : k + 1 + i = k + (i + 1) := by omega
        rw [this]
  obtain ⟨k1, k2⟩ := key calls 0
  simp only [Nat.mul_zero, Nat.add_zero, Nat.zero_add] at k1 k2
  refine ⟨k1, k2, ?_⟩
  intro i j ti tj li lj hij hi hj
  have li' : i < calls.length := by
    rw [← k1]; exact (List.getElem?_eq_some_iff.1 hi).1
  have lj' : j < calls.length := by
    rw [← k1]; exact (List.getElem?_eq_some_iff.1 hj).1
  rw [k2 i li'] at hi
  rw [k2 j lj'] at hj
  simp only [Option.some.injEq, Prod.mk.injEq] at hi hj
  obtain ⟨_, hi⟩ := hi
  obtain ⟨_, hj⟩ := hj
  split at hi <;> cases hi
  split at hj <;> cases hj
  omega

example : allocTrace 5 [3, 1, 3] 1 = [(3, .pair 1), (1, .pair 3), (3, .exhausted)] := by decide
/-- Odd lengths matter: with an even length the last allocation refers past the end of the buffer. -/
example : allocTrace 4 [0, 1] 1 = [(0, .pair 1), (1, .outOfBounds)] := by decide

/-- C45. Node encoding: values below 2^31 round-trip, values from 2^31 up (still `u32`) read back as `None`, the two
fields do not disturb each other or the box, and the classification predicates agree with what was stored. -/
theorem C45_node_encoding (n : BvhNode F) (x : Nat) (hx : x < 2 ^ 32) :
    (n.setLeftFirst (some x)).getLeftFirst = (if x < 2 ^ 31 then some x else none) ∧
    (n.setLeftFirst none).getLeftFirst = none ∧
    (n.setCount (some x)).getCount = (if x < 2 ^ 31 then some x else none) ∧
    (n.setCount none).getCount = none ∧
    (n.setLeftFirst (some x)).getCount = n.getCount ∧ (n.setLeftFirst none).getCount = n.getCount ∧
    (n.setCount (some x)).getLeftFirst = n.getLeftFirst ∧ (n.setCount none).getLeftFirst = n.getLeftFirst ∧
    ((n.setLeftFirst (some x)).setCount (some x)).bounds.min = n.bounds.min ∧
    ((n.setLeftFirst (some x)).setCount (some x)).bounds.max = n.bounds.max ∧
    (n.isLeaf = true ↔ n.getCount ≠ none) ∧ (n.isValid = true ↔ n.getLeftFirst ≠ none) ∧
    (n.hasChildren = true ↔ n.getCount = none ∧ n.getLeftFirst ≠ none) ∧
    ¬ (n.isLeaf = true ∧ n.hasChildren = true) := by
  have hm : x % 4294967296 = x := Nat.mod_eq_of_lt hx
  have key : (if asI32 x ≥ 0 then some (asU32 (asI32 x)) else none) = (if x < 2 ^ 31 then some x else none) := by
    unfold asI32
    rw [hm]
    by_cases h : x < 2 ^ 31
    · rw [if_pos (show x < 2147483648 by omega), if_pos h, if_pos (by omega)]
      unfold asU32
      rw [Int.emod_eq_of_lt (by omega) (by omega)]
      simp
    · rw [if_neg (show ¬ x < 2147483648 by omega), if_neg h, if_neg (by omega)]
  refine ⟨key, ?_, key, ?_, rfl, rfl, rfl, rfl, rfl, rfl, ?_, ?_, ?_, ?_⟩
  · simp [BvhNode.setLeftFirst, BvhNode.getLeftFirst]
  · simp [BvhNode.setCount, BvhNode.getCount]
  · simp [BvhNode.isLeaf, BvhNode.getCount]
  · simp [BvhNode.isValid, BvhNode.getLeftFirst]
  · simp [BvhNode.hasChildren, BvhNode.getCount, BvhNode.getLeftFirst]
  · simp only [BvhNode.isLeaf, BvhNode.hasChildren, decide_eq_true_eq, Bool.and_eq_true]
    omega

/-- C45, casts: `as i32` is injective on `u32` values, so nothing is lost in the two fields. -/
theorem C45_asI32_injective (x y : Nat) (hx : x < 2 ^ 32) (hy : y < 2 ^ 32) (h : asI32 x = asI32 y) : x = y := by
  unfold asI32 at h
  rw [Nat.mod_eq_of_lt hx, Nat.mod_eq_of_lt hy] at h
  split at h <;> split at h <;> omega

example : ((BvhNode.new : BvhNode Rat).setLeftFirst (some 7)).getLeftFirst = some 7 := by decide +kernel

variable [FloatOps F]

/-- C43. Lane `i` of a packet is the single ray with the same origin and direction, and `reset` restores the default
`t` and nothing else. -/
theorem C43_packet_lanes (origins directions : Fin 4 → Vec4 F) (i : Fin 4) (p : RayPacket4 F) :
    (RayPacket4.new origins directions).ray i =
      Ray.new ⟨(origins i).x, (origins i).y, (origins i).z⟩ ⟨(directions i).x, (directions i).y, (directions i).z⟩ ∧
    (∀ j, (p.reset.ray j) = (p.ray j).reset) ∧
    (p.reset).t = Vec4.splat (FloatOps.lit 1 34) ∧ { p.reset with t := p.t } = p := by
  refine ⟨?_, ?_, rfl, rfl⟩
  · match i with
    | 0 => rfl
    | 1 => rfl
    | 2 => rfl
    | 3 => rfl
  · intro j
    match j with
    | 0 => rfl
    | 1 => rfl
    | 2 => rfl
    | 3 => rfl

/-- C43, the packet's inverse directions are the rays' inverse directions. -/
theorem C43_packet_inverse (origins directions : Fin 4 → Vec4 F) (i : Fin 4) :
    let p := RayPacket4.new origins directions
    (p.ray i).invDirection = ⟨p.invDirectionX.get i, p.invDirectionY.get i, p.invDirectionZ.get i⟩ := by
  match i with
  | 0 => rfl
  | 1 => rfl
  | 2 => rfl
  | 3 => rfl

end Rtbvh
