import Verif.Model.Node
/- Model of src/utils.rs (loops over slices). -/
namespace Rtbvh
variable {α : Type}

/-- `slice.swap(i, j)` (used in src/utils.rs 90): panics when an index is out of range. -/
def swapAt (l : List α) (i j : Nat) : Option (List α) :=
  match l[i]?, l[j]? with
  | some a, some b => some ((l.set i b).set j a)
  | _, _ => none

/-- The loop of `partition` (src/utils.rs 87-95): `k` iterations left, current index `i`, running `count`. -/
def partitionLoop (check : α → Bool) : (k i count : Nat) → List α → Option (Nat × List α)
  | 0, _, count, l => some (count, l)
  | k + 1, i, count, l =>
    match l[i]? with
    | none => none
    | some a =>
      if check a then
        match swapAt l i count with
        | none => none
        | some l' => partitionLoop check k (i + 1) (count + 1) l'
      else partitionLoop check k (i + 1) count l

/-- `partition(slice, start..stop, check)` (src/utils.rs 76-96): the count of elements that went left and the new
contents of the slice; `none` is an index panic. -/
def partition (l : List α) (start stop : Nat) (check : α → Bool) : Option (Nat × List α) :=
  partitionLoop check (stop - start) start 0 l

/-- The loop of `prefix_sum` (src/utils.rs 50-54) with distinct input and output slices. -/
def prefixSumLoop [Add α] (first : List α) : (k i : Nat) → (sum : α) → (output : List α) → Option (α × List α)
  | 0, _, sum, out => some (sum, out)
  | k + 1, i, sum, out =>
    match first[i]? with
    | none => none
    | some a =>
      if i < out.length then prefixSumLoop first k (i + 1) (sum + a) (out.set i (sum + a)) else none

/-- `prefix_sum` (src/utils.rs 42-57). -/
def prefixSum [Add α] [Zero α] (first : List α) (count : Nat) (output : List α) : Option (α × List α) :=
  if count = 0 then (first[0]?).map fun a => (a, output)
  else prefixSumLoop first count 0 0 output

/-- The loop of `prefix_sum` (src/utils.rs 50-54) when `output` aliases `first`, as at its only call site
(src/builders/locb.rs 170-176): each read sees the writes done so far. -/
def prefixSumAliasLoop [Add α] : (k i : Nat) → (sum : α) → (buf : List α) → Option (α × List α)
  | 0, _, sum, buf => some (sum, buf)
  | k + 1, i, sum, buf =>
    match buf[i]? with
    | none => none
    | some a => prefixSumAliasLoop k (i + 1) (sum + a) (buf.set i (sum + a))

/-- `prefix_sum` with `output` aliasing `first` (src/utils.rs 42-57, src/builders/locb.rs 170-176). -/
def prefixSumAlias [Add α] [Zero α] (buf : List α) (count : Nat) : Option (α × List α) :=
  if count = 0 then (buf[0]?).map fun a => (a, buf)
  else prefixSumAliasLoop count 0 0 buf

/-- `move_backward(first, last, d_last)` (src/utils.rs 59-72) on one array: copies `[first, last)` to the region
ending at `dLast`, from the back; `none` is an access outside the array. -/
def moveBackward (l : List α) (first : Nat) : (k : Nat) → (dLast : Nat) → Option (List α)
  | 0, _ => some l
  | k + 1, dLast =>
    match l[first + k]? with
    | none => none
    | some a =>
      if 0 < dLast ∧ dLast - 1 < l.length then moveBackward (l.set (dLast - 1) a) first k (dLast - 1)
      else none

/-- `round_up_log2(bits, offset)` (src/utils.rs 12-22); `fuel` bounds the `while` loop (it increments `offset` until
`1 << offset >= bits`). -/
def roundUpLog2 (bits : Nat) : (fuel offset : Nat) → Nat
  | 0, offset => offset
  | fuel + 1, offset =>
    if bits = 0 then offset else if 2 ^ offset < bits then roundUpLog2 bits fuel (offset + 1) else offset

end Rtbvh
