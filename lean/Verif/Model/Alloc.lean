import Verif.Model.Binned
/- Any number of threads calling `AtomicNodeStack::allocate`. -/
namespace Rtbvh

/-- The calls of `allocate` (src/builders/mod.rs 59-76) made by a set of threads, in the order in which their atomic
`fetch_add`s take effect; each entry records the calling thread and the result.  `counter` starts at 1
(src/builders/mod.rs 53). -/
def allocTrace (len : Nat) : (calls : List Nat) → (counter : Nat) → List (Nat × Alloc)
  | [], _ => []
  | th :: rest, c => let (r, c') := allocate len c; (th, r) :: allocTrace len rest c'

end Rtbvh
