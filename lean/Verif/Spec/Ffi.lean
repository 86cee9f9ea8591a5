import Verif.Model.Ffi
/- Specification vocabulary for the C interface: call histories, what a handle should designate, callback chains. -/
namespace Rtbvh
variable {F : Type}

/-- Callbacks made one after the other, each starting from what the previous one left, up to and including the first
that returns true; the last component says whether one did. -/
inductive CallChain {T D : Type} (cb : Nat → T → D → T × D × Bool) : List Nat → T → D → T → D → Bool → Prop
  | nil {t d} : CallChain cb [] t d t d false
  | stop {id t d t' d'} : cb id t d = (t', d', true) → CallChain cb [id] t d t' d' true
  | next {id ids t d t' d' t'' d'' b} : cb id t d = (t', d', false) → CallChain cb ids t' d' t'' d'' b →
      CallChain cb (id :: ids) t d t'' d'' b

/-- A call of the C interface that can change the manager. -/
inductive Call (F : Type)
  | create (nulls : Bool) (r : Except BuildError (Bvh F))
  | createMbvh (h : Handle) (nulls : Bool)
  | refit (aabbs : Option (List (Aabb F))) (h : Handle)
  | freeBvh (h : Handle)
  | freeMbvh (h : Handle)

/-- A finished call: the code it returned (`ok` for the functions that return nothing) and the handle it wrote. -/
structure Event (F : Type) where
  call : Call F
  code : ResultCode
  out : Option Handle

/-- No live structure has its buffers at address `a`. -/
def Manager.Free (m : Manager F) (a : Nat) : Prop :=
  (∀ s ∈ m.slots, s.addr ≠ some a) ∧ ∀ s ∈ m.mslots, s.addr ≠ some a

/-- One finished call.  The allocator may put new buffers at any address that is not in use. -/
inductive Calls [FloatOps F] : Manager F → Event F → Manager F → Prop
  | create {m : Manager F} (nulls r a) : m.Free a →
      Calls m ⟨.create nulls r, (m.create nulls r a).2.1, (m.create nulls r a).2.2⟩ (m.create nulls r a).1
  | createMbvh {m : Manager F} (fuel h nulls a) {m' c o} : m.Free a → m.createMbvh fuel h nulls a = some (m', c, o) →
      Calls m ⟨.createMbvh h nulls, c, o⟩ m'
  | refit {m : Manager F} (aabbs h) {m' c} : m.refit aabbs h = some (m', c) → Calls m ⟨.refit aabbs h, c, none⟩ m'
  | freeBvh {m : Manager F} (h) : Calls m ⟨.freeBvh h, .ok, none⟩ (m.freeBvh h)
  | freeMbvh {m : Manager F} (h) : Calls m ⟨.freeMbvh h, .ok, none⟩ (m.freeMbvh h)

/-- A history of finished calls. -/
inductive History [FloatOps F] : Manager F → List (Event F) → Manager F → Prop
  | nil {m} : History m [] m
  | cons {m e m' es m''} : Calls m e m' → History m' es m'' → History m (e :: es) m''

/-- The manager at program start. -/
def Manager.empty : Manager F := { slots := [], mslots := [] }

/-- The handles written by successful `create_bvh` / `create_spatial_Bvh` calls, in order. -/
def bvhHandles (es : List (Event F)) : List Handle :=
  es.filterMap fun e => match e.call with | .create _ _ => e.out | _ => none
/-- The handles written by successful `create_mbvh` calls, in order. -/
def mbvhHandles (es : List (Event F)) : List Handle :=
  es.filterMap fun e => match e.call with | .createMbvh _ _ => e.out | _ => none

/-- What a later call does to the structure behind a BVH handle with this id: refitting it replaces it, freeing it
leaves the empty structure, every other call leaves it alone. -/
def Event.after [FloatOps F] (id : Nat) (b : Bvh F) (e : Event F) : Bvh F :=
  match e.call with
  | .refit (some bs) h => if h.id = id ∧ h.addr.isSome then (b.refit (bs.take b.primIndices.length)).getD b else b
  | .freeBvh h => if h.id = id then Bvh.default else b
  | _ => b

/-- The same for an MBVH handle. -/
def Event.afterM (id : Nat) (q : Mbvh F) (e : Event F) : Mbvh F :=
  match e.call with
  | .freeMbvh h => if h.id = id then Mbvh.default else q
  | _ => q

/-- The history frees this BVH id. -/
def frees (id : Nat) (e : Event F) : Bool := match e.call with | .freeBvh h => h.id == id | _ => false
/-- The history frees this MBVH id. -/
def freesM (id : Nat) (e : Event F) : Bool := match e.call with | .freeMbvh h => h.id == id | _ => false

/-- One of the three components is NaN. -/
def Vec3.SomeNaN [FloatOps F] (v : Vec3 F) : Prop :=
  FloatOps.isNaN v.x = true ∨ FloatOps.isNaN v.y = true ∨ FloatOps.isNaN v.z = true
/-- One of the four lanes is NaN. -/
def Vec4.SomeNaN [FloatOps F] (v : Vec4 F) : Prop := ∃ i, FloatOps.isNaN (v.get i) = true

end Rtbvh
