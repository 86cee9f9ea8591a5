import Verif.Spec.Ffi
/- The C interface called from several threads, lock by lock.  `StructureManager` keeps its structures in two vectors,
each behind a read-write lock, with a read-write lock around every element (rtbvh_ffi/src/lib.rs 12-15).  Every call of
the interface is a sequence of small steps; the steps of different calls interleave in any order that the locks allow.
The query functions (`intersect`, ...) take no lock. -/
namespace Rtbvh

/-- The locks of the manager (rtbvh_ffi/src/lib.rs 12-15): the two vectors and their elements. -/
inductive Lock
  | structures
  | bvh (i : Nat)
  | mstructures
  | mbvh (i : Nat)
deriving DecidableEq, Repr

/-- How a `parking_lot::RwLock` is held: `read()` or `write()`. -/
inductive LockMode
  | read
  | write
deriving DecidableEq, Repr

/-- A call of the interface: one that changes the manager, or a query (`intersect` and `intersect_packet`,
rtbvh_ffi/src/lib.rs 551-686; `intersect_mbvh` and `intersect_mbvh_packet`, 700-835). -/
inductive FfiOp (F : Type)
  | manage (c : Call F)
  | query (h : Handle)
  | queryMbvh (h : Handle)

/-- How far a call has got; see `FfiMove` and `FfiIdle` for the code each step stands for. -/
inductive FfiPhase (F : Type)
  /-- The call has begun. -/
  | called
  /-- `create_bvh`: the structure is built, its buffers are at `a`. -/
  | built (a : Nat)
  /-- `store`: `structures` is write-locked. -/
  | storing (a : Nat)
  /-- `store`: the structure has been pushed at `id`. -/
  | stored (id a : Nat)
  /-- `store`: the new element is read-locked. -/
  | storedRead (id a : Nat)
  /-- `get`: `structures` is read-locked. -/
  | looking
  /-- `get`: the element is read-locked. -/
  | found (id : Nat)
  /-- `create_mbvh`: the structure has been converted; the buffers of the result are at `a`. -/
  | converted (id : Nat) (q : Mbvh F) (a : Nat)
  /-- `store_mbvh`: `m_structures` is write-locked. -/
  | mstoring (id : Nat) (q : Mbvh F) (a : Nat)
  /-- `store_mbvh`: the structure has been pushed at `j`. -/
  | mstored (id j a : Nat)
  /-- `store_mbvh`: the new element is read-locked. -/
  | mstoredRead (id j a : Nat)
  /-- `get_mut`: `structures` is read-locked. -/
  | rlooking
  /-- `get_mut`: the element is write-locked; it was `b` when the lock was taken. -/
  | refitting (id : Nat) (b : Bvh F)
  /-- `free`: `structures` is write-locked. -/
  | freeing
  /-- `free_mbvh`: `m_structures` is write-locked. -/
  | mfreeing
  /-- A query has read the buffers of its handle, with these results (`none`: there was no such buffer). -/
  | reading (seen : List (Option (List (BvhNode F) × List Nat)))
  /-- The same for a query on a four-wide structure. -/
  | mreading (seen : List (Option (List (MbvhNode F) × List Nat)))
  /-- The result is known; these locks are still to be released, in this order. -/
  | leaving (locks : List (Lock × LockMode)) (code : ResultCode) (out : Option Handle)
  /-- The call has returned. -/
  | done (code : ResultCode) (out : Option Handle)

variable {F : Type}

/-- The locks a call holds. -/
def FfiPhase.held : FfiPhase F → List (Lock × LockMode)
  | .storing _ | .stored _ _ | .freeing => [(.structures, .write)]
  | .storedRead id _ => [(.bvh id, .read), (.structures, .write)]
  | .looking | .rlooking => [(.structures, .read)]
  | .found id | .converted id _ _ => [(.bvh id, .read), (.structures, .read)]
  | .mstoring id _ _ | .mstored id _ _ => [(.mstructures, .write), (.bvh id, .read), (.structures, .read)]
  | .mstoredRead id j _ => [(.mbvh j, .read), (.mstructures, .write), (.bvh id, .read), (.structures, .read)]
  | .refitting id _ => [(.bvh id, .write), (.structures, .read)]
  | .mfreeing => [(.mstructures, .write)]
  | .leaving locks _ _ => locks
  | .called | .built _ | .reading _ | .mreading _ | .done _ _ => []

/-- The address of buffers that a call has allocated and not yet handed to the manager. -/
def FfiPhase.buffer : FfiPhase F → Option Nat
  | .built a | .storing a | .converted _ _ a | .mstoring _ _ a => some a
  | _ => none

/-- The interface while it is being used: the manager's memory, and every call made so far. -/
structure FfiSys (F : Type) where
  mem : Manager F
  calls : List (FfiOp F × FfiPhase F)

/-- No live buffer is at address `a`. -/
def FfiSys.Fresh (s : FfiSys F) (a : Nat) : Prop := s.mem.Free a ∧ ∀ c ∈ s.calls, c.2.buffer ≠ some a

/-- The handle of entry `id` (`store`, rtbvh_ffi/src/lib.rs 53-59; `id as u32`, lengths `as u32`). -/
def Slot.handle (s : Slot (Bvh F)) (id : Nat) : Handle :=
  { id := natAsU32 id, nodeCount := natAsU32 s.val.nodes.length, indexCount := natAsU32 s.val.primIndices.length
    addr := s.addr }
/-- The handle of entry `id` (`store_mbvh`, rtbvh_ffi/src/lib.rs 71-77). -/
def Slot.mhandle (s : Slot (Mbvh F)) (id : Nat) : Handle :=
  { id := natAsU32 id, nodeCount := natAsU32 s.val.mNodes.length, indexCount := natAsU32 s.val.primIndices.length
    addr := s.addr }

variable [FloatOps F]

/-- A step that brings a call nearer to its end: the call, the phase and memory before, the phase and memory after. -/
inductive FfiMove (s : FfiSys F) : FfiOp F → FfiPhase F → FfiPhase F → Manager F → Prop
  /-- `create_bvh`: a pointer is null (rtbvh_ffi/src/lib.rs 437-439; `create_spatial_Bvh` makes no such check). -/
  | createNull {r} : FfiMove s (.manage (.create true r)) .called (.done .error none) s.mem
  /-- The build reports an error (rtbvh_ffi/src/lib.rs 491, 386). -/
  | createErr {e} : FfiMove s (.manage (.create false (.error e))) .called (.done (.ofBuildError e) none) s.mem
  /-- The build succeeds; it uses no lock (rtbvh_ffi/src/lib.rs 459-484, 375-381). -/
  | createBuild {b a} (ha : s.Fresh a) : FfiMove s (.manage (.create false (.ok b))) .called (.built a) s.mem
  /-- `self.structures.write()` (rtbvh_ffi/src/lib.rs 47). -/
  | createLock {b a} : FfiMove s (.manage (.create false (.ok b))) (.built a) (.storing a) s.mem
  /-- `lock.push(RwLock::new(bvh)); let id = lock.len() - 1` (rtbvh_ffi/src/lib.rs 48-49). -/
  | createPush {b a} : FfiMove s (.manage (.create false (.ok b))) (.storing a) (.stored s.mem.slots.length a)
      { s.mem with slots := s.mem.slots ++ [⟨b, some a⟩] }
  /-- `lock[id].read()` (rtbvh_ffi/src/lib.rs 51). -/
  | createRead {b id a} : FfiMove s (.manage (.create false (.ok b))) (.stored id a) (.storedRead id a) s.mem
  /-- The handle is made (rtbvh_ffi/src/lib.rs 53-59). -/
  | createHandle {b id a} {sl : Slot (Bvh F)} (h : s.mem.slots[id]? = some sl) :
      FfiMove s (.manage (.create false (.ok b))) (.storedRead id a)
        (.leaving [(.bvh id, .read), (.structures, .write)] .ok (some (sl.handle id))) s.mem
  /-- `create_mbvh`: a pointer is null (rtbvh_ffi/src/lib.rs 500-502). -/
  | mNull {h nulls} (hn : (nulls || h.addr.isNone) = true) :
      FfiMove s (.manage (.createMbvh h nulls)) .called (.done .error none) s.mem
  /-- `self.structures.read()` in `get` (rtbvh_ffi/src/lib.rs 84). -/
  | mLook {h nulls} (hn : (nulls || h.addr.isNone) = false) :
      FfiMove s (.manage (.createMbvh h nulls)) .called .looking s.mem
  /-- `lock.get(id)` finds nothing (rtbvh_ffi/src/lib.rs 85, 89-90, 510-511). -/
  | mMissing {h nulls} (hs : s.mem.slots[h.id]? = none) :
      FfiMove s (.manage (.createMbvh h nulls)) .looking (.leaving [(.structures, .read)] .error none) s.mem
  /-- `bvh.read()` (rtbvh_ffi/src/lib.rs 86). -/
  | mFound {h nulls sl} (hs : s.mem.slots[h.id]? = some sl) :
      FfiMove s (.manage (.createMbvh h nulls)) .looking (.found h.id) s.mem
  /-- `Mbvh::construct(bvh)` (rtbvh_ffi/src/lib.rs 505). -/
  | mConvert {h nulls id sl q fuel a} (hs : s.mem.slots[id]? = some sl) (hq : Mbvh.construct fuel sl.val = some q)
      (ha : s.Fresh a) : FfiMove s (.manage (.createMbvh h nulls)) (.found id) (.converted id q a) s.mem
  /-- `self.m_structures.write()` (rtbvh_ffi/src/lib.rs 63). -/
  | mLock {h nulls id q a} : FfiMove s (.manage (.createMbvh h nulls)) (.converted id q a) (.mstoring id q a) s.mem
  /-- `lock.push(RwLock::new(mbvh)); let id = lock.len() - 1` (rtbvh_ffi/src/lib.rs 65-66). -/
  | mPush {h nulls id q a} : FfiMove s (.manage (.createMbvh h nulls)) (.mstoring id q a)
      (.mstored id s.mem.mslots.length a) { s.mem with mslots := s.mem.mslots ++ [⟨q, some a⟩] }
  /-- `lock[id].read()` (rtbvh_ffi/src/lib.rs 68). -/
  | mRead {h nulls id j a} : FfiMove s (.manage (.createMbvh h nulls)) (.mstored id j a) (.mstoredRead id j a) s.mem
  /-- The handle is made (rtbvh_ffi/src/lib.rs 71-77). -/
  | mHandle {h nulls id j a} {sl : Slot (Mbvh F)} (hs : s.mem.mslots[j]? = some sl) :
      FfiMove s (.manage (.createMbvh h nulls)) (.mstoredRead id j a)
        (.leaving [(.mbvh j, .read), (.mstructures, .write), (.bvh id, .read), (.structures, .read)] .ok
          (some (sl.mhandle j))) s.mem
  /-- `refit`: a pointer is null (rtbvh_ffi/src/lib.rs 520-522). -/
  | rNull {aabbs h} (hn : (aabbs.isNone || h.addr.isNone) = true) :
      FfiMove s (.manage (.refit aabbs h)) .called (.done .error none) s.mem
  /-- `self.structures.read()` in `get_mut` (rtbvh_ffi/src/lib.rs 98). -/
  | rLook {aabbs h} (hn : (aabbs.isNone || h.addr.isNone) = false) :
      FfiMove s (.manage (.refit aabbs h)) .called .rlooking s.mem
  /-- `lock.get(id)` finds nothing (rtbvh_ffi/src/lib.rs 99, 103-104, 535-536). -/
  | rMissing {aabbs h} (hs : s.mem.slots[h.id]? = none) :
      FfiMove s (.manage (.refit aabbs h)) .rlooking (.leaving [(.structures, .read)] .error none) s.mem
  /-- `bvh.write()` (rtbvh_ffi/src/lib.rs 100). -/
  | rLock {aabbs h sl} (hs : s.mem.slots[h.id]? = some sl) :
      FfiMove s (.manage (.refit aabbs h)) .rlooking (.refitting h.id sl.val) s.mem
  /-- `bvh.refit(...)` has ended (rtbvh_ffi/src/lib.rs 526-529); see `FfiIdle.scribble` for the time before. -/
  | rFinish {h id bs b b'} {sl : Slot (Bvh F)} (hs : s.mem.slots[id]? = some sl) (hl : b.primCount ≤ bs.length)
      (hb : b.refit (bs.take b.primCount) = some b') :
      FfiMove s (.manage (.refit (some bs) h)) (.refitting id b)
        (.leaving [(.bvh id, .write), (.structures, .read)] .ok none)
        { s.mem with slots := s.mem.slots.set id { sl with val := b' } }
  /-- `self.structures.write()` in `free` (rtbvh_ffi/src/lib.rs 109). -/
  | fLock {h} : FfiMove s (.manage (.freeBvh h)) .called .freeing s.mem
  /-- `*m.get_mut() = Bvh::default()` (rtbvh_ffi/src/lib.rs 110-115). -/
  | fFree {h} : FfiMove s (.manage (.freeBvh h)) .freeing (.leaving [(.structures, .write)] .ok none) (s.mem.freeBvh h)
  /-- `self.m_structures.write()` in `free_mbvh` (rtbvh_ffi/src/lib.rs 119). -/
  | mfLock {h} : FfiMove s (.manage (.freeMbvh h)) .called .mfreeing s.mem
  /-- `*m.get_mut() = Mbvh::default()` (rtbvh_ffi/src/lib.rs 120-125). -/
  | mfFree {h} : FfiMove s (.manage (.freeMbvh h)) .mfreeing (.leaving [(.mstructures, .write)] .ok none)
      (s.mem.freeMbvh h)
  /-- A query begins (rtbvh_ffi/src/lib.rs 559-571, 657-675): it makes slices from the handle's raw pointers. -/
  | qStart {h} : FfiMove s (.query h) .called (.reading []) s.mem
  /-- A query ends (rtbvh_ffi/src/lib.rs 578-580, 683-685). -/
  | qEnd {h seen} : FfiMove s (.query h) (.reading seen) (.done .ok none) s.mem
  /-- A query on a four-wide structure begins (rtbvh_ffi/src/lib.rs 709-721, 806-824). -/
  | mqStart {h} : FfiMove s (.queryMbvh h) .called (.mreading []) s.mem
  /-- A query on a four-wide structure ends (rtbvh_ffi/src/lib.rs 728-730, 832-834). -/
  | mqEnd {h seen} : FfiMove s (.queryMbvh h) (.mreading seen) (.done .ok none) s.mem
  /-- A guard is dropped. -/
  | unlock {op l ls c o} : FfiMove s op (.leaving (l :: ls) c o) (.leaving ls c o) s.mem
  /-- The call returns to the client. -/
  | leave {op c o} : FfiMove s op (.leaving [] c o) (.done c o) s.mem

/-- A step a call can take any number of times. -/
inductive FfiIdle (s : FfiSys F) : FfiOp F → FfiPhase F → FfiPhase F → Manager F → Prop
  /-- While `Bvh::refit` runs (src/bvh.rs 176-205), the nodes it works on hold anything. -/
  | scribble {op id b} {sl : Slot (Bvh F)} {nodes : List (BvhNode F)} (hs : s.mem.slots[id]? = some sl)
      (hl : nodes.length = sl.val.nodes.length) :
      FfiIdle s op (.refitting id b) (.refitting id b)
        { s.mem with slots := s.mem.slots.set id { sl with val := { sl.val with nodes := nodes } } }
  /-- A query reads nodes and indices through the raw pointers of its handle. -/
  | read {h seen} : FfiIdle s (.query h) (.reading seen) (.reading (seen ++ [s.mem.slices h])) s.mem
  /-- The same for a four-wide structure. -/
  | mread {h seen} : FfiIdle s (.queryMbvh h) (.mreading seen) (.mreading (seen ++ [s.mem.mslices h])) s.mem

/-- Two ways of holding a lock exclude each other. -/
def LockMode.conflict : LockMode → LockMode → Bool
  | .read, .read => false
  | _, _ => true

/-- Another call than number `k` holds `l` in a way that excludes `mode`. -/
def FfiSys.Held (s : FfiSys F) (k : Nat) (l : Lock) (mode : LockMode) : Prop :=
  ∃ j op p mode', j ≠ k ∧ s.calls[j]? = some (op, p) ∧ (l, mode') ∈ p.held ∧ LockMode.conflict mode mode' = true

/-- What can be seen of the use of the interface. -/
inductive FfiLabel (F : Type)
  | invoke (k : Nat) (op : FfiOp F)
  | step (k : Nat)
  | idle (k : Nat)
  | ret (k : Nat) (code : ResultCode) (out : Option Handle)

/-- One step of the interface: a call is made, or one of the calls goes on.  A lock that a step takes must not be held
by another call in a way that excludes it (`parking_lot::RwLock`). -/
inductive FfiStep : FfiSys F → FfiLabel F → FfiSys F → Prop
  | invoke {s : FfiSys F} (op : FfiOp F) :
      FfiStep s (.invoke s.calls.length op) { s with calls := s.calls ++ [(op, .called)] }
  | step {s : FfiSys F} {k op p p' m'} (hk : s.calls[k]? = some (op, p)) (hm : FfiMove s op p p' m')
      (hl : ∀ l mode, (l, mode) ∈ p'.held → (l, mode) ∉ p.held → ¬ s.Held k l mode)
      (hd : ∀ c o, p' ≠ .done c o) : FfiStep s (.step k) ⟨m', s.calls.set k (op, p')⟩
  | ret {s : FfiSys F} {k op p c o m'} (hk : s.calls[k]? = some (op, p)) (hm : FfiMove s op p (.done c o) m') :
      FfiStep s (.ret k c o) ⟨m', s.calls.set k (op, .done c o)⟩
  | idle {s : FfiSys F} {k op p p' m'} (hk : s.calls[k]? = some (op, p)) (hm : FfiIdle s op p p' m') :
      FfiStep s (.idle k) ⟨m', s.calls.set k (op, p')⟩

/-- A use of the interface, with what can be seen of it. -/
inductive FfiRun (s : FfiSys F) : List (FfiLabel F) → FfiSys F → Prop
  | nil : FfiRun s [] s
  | snoc {tr s' l s''} (h : FfiRun s tr s') (hs : FfiStep s' l s'') : FfiRun s (tr ++ [l]) s''

/-- The interface at program start. -/
def FfiSys.init : FfiSys F := { mem := .empty, calls := [] }

/-- The lock a call must get before it can go on. -/
def FfiSys.Wants (s : FfiSys F) (k : Nat) (l : Lock) (mode : LockMode) : Prop :=
  ∃ op p p' m', s.calls[k]? = some (op, p) ∧ FfiMove s op p p' m' ∧ (l, mode) ∈ p'.held ∧ (l, mode) ∉ p.held

/-- A lock may be refused while another call holds it in a way that excludes the request; and a reader may also be
refused while a writer waits (`parking_lot` prefers waiting writers). -/
def FfiSys.Refused (s : FfiSys F) (k : Nat) (l : Lock) (mode : LockMode) : Prop :=
  s.Held k l mode ∨ (mode = .read ∧ ∃ j, j ≠ k ∧ s.Wants j l .write)

/-- A call that has not returned. -/
def FfiSys.Open (s : FfiSys F) (k : Nat) : Prop :=
  ∃ op p, s.calls[k]? = some (op, p) ∧ ∀ c o, p ≠ .done c o

/-- A call is in code that panics or does not come to an end: `Mbvh::construct` or `Bvh::refit`, or `refit` was given too
few boxes. -/
def FfiSys.Broken (s : FfiSys F) (k : Nat) : Prop :=
  (∃ h nulls id sl, s.calls[k]? = some (.manage (.createMbvh h nulls), .found id) ∧ s.mem.slots[id]? = some sl ∧
    ∀ fuel, Mbvh.construct fuel sl.val = none) ∨
  (∃ bs h id b, s.calls[k]? = some (.manage (.refit (some bs) h), .refitting id b) ∧
    (bs.length < b.primCount ∨ b.refit (bs.take b.primCount) = none))

end Rtbvh
