import Verif.Model.Spatial
/- The shared memory of the concurrent builds, and which part of it a task may use. -/
namespace Rtbvh
variable {F : Type}

/-- A location in the memory shared by the tasks of a build: a node, an entry of the index array, or an entry of the
reference arrays. -/
inductive Cell
  | node (i : Nat)
  | index (i : Nat)
  | ref (i : Nat)
deriving DecidableEq

/-- What a task of the binned build may read or write: its node, the two nodes it has allocated, and its range of the
index array. -/
def BinnedTask.Uses (x : BinnedTask × TaskPhase) : Cell → Prop
  | .node i => i = x.1.node ∨ ∃ left, x.2 = .allocated left ∧ (i = left ∨ i = left + 1)
  | .index i => x.1.begin ≤ i ∧ i < x.1.stop
  | .ref _ => False

/-- Two states agree on a location. -/
def BinnedState.SameAt (s s' : BinnedState F) : Cell → Prop
  | .node i => s.nodes[i]? = s'.nodes[i]?
  | .index i => s.prims[i]? = s'.prims[i]?
  | .ref _ => True

/-- A location that exists. -/
def BinnedState.Has (s : BinnedState F) : Cell → Prop
  | .node i => i < s.nodes.length
  | .index i => i < s.prims.length
  | .ref _ => False

/-- What a task of the spatial build may read or write: its node, the two nodes it has allocated, its range of the
reference arrays including the reserve, and the part of the index array it has claimed. -/
def SpatialTask.Uses (x : SpatialTask × SpatialPhase) : Cell → Prop
  | .node i => i = x.1.node ∨ ∃ left, x.2 = .allocated left ∧ (i = left ∨ i = left + 1)
  | .index i => ∃ first, x.2 = .leafAt first ∧ first ≤ i ∧ i < first + (x.1.stop - x.1.begin)
  | .ref i => x.1.begin ≤ i ∧ i < x.1.splitEnd

/-- Two states agree on a location. -/
def SpatialState.SameAt (s s' : SpatialState F) : Cell → Prop
  | .node i => s.nodes[i]? = s'.nodes[i]?
  | .index i => s.prims[i]? = s'.prims[i]?
  | .ref i => s.refs.x[i]? = s'.refs.x[i]? ∧ s.refs.y[i]? = s'.refs.y[i]? ∧ s.refs.z[i]? = s'.refs.z[i]?

/-- A location that exists. -/
def SpatialState.Has (s : SpatialState F) : Cell → Prop
  | .node i => i < s.nodes.length
  | .index i => i < s.prims.length
  | .ref i => i < s.refs.x.length ∧ i < s.refs.y.length ∧ i < s.refs.z.length

end Rtbvh
