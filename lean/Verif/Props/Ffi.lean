import Verif.Proofs.Ffi
import Verif.Proofs.MbvhMain
import Verif.Props.Traversal
import Verif.Props.Mbvh
import Verif.Props.Slab
import Verif.Proofs.F32Laws
/- Properties C46-C49 of the C interface (rtbvh_ffi). -/
namespace Rtbvh
variable {F : Type}

/-! ### C46: handles -/

theorem asU32_of_lt {n : Nat} (h : n < 2 ^ 32) : natAsU32 n = n := Nat.mod_eq_of_lt h

/-- C46: in every history of calls with fewer than 2^32 creations of each kind, the ids written by successful creations
are 0, 1, 2, ... in order of creation, whatever was freed in between: no id is ever handed out twice. -/
theorem C46_ids_fresh [FloatOps F] {es : List (Event F)} {m : Manager F} (h : History .empty es m)
    (hb : (bvhHandles es).length ≤ 2 ^ 32) (hm : (mbvhHandles es).length ≤ 2 ^ 32) :
    (bvhHandles es).map Handle.id = List.range (bvhHandles es).length ∧
    (mbvhHandles es).map Handle.id = List.range (mbvhHandles es).length ∧
    ((bvhHandles es).map Handle.id).Nodup ∧ ((mbvhHandles es).map Handle.id).Nodup := by
  have key : ∀ n, n ≤ 2 ^ 32 → (List.range' 0 n).map natAsU32 = List.range n := by
    intro n hn
    rw [List.range_eq_range']
    conv => rhs; rw [← List.map_id (List.range' 0 n)]
    apply List.map_congr_left
    intro x hx
    simp only [List.mem_range'_1] at hx
    exact asU32_of_lt (by omega)
  obtain ⟨⟨_, h1⟩, _, h2⟩ := h.lengths
  have e1 := h1.trans (key _ hb)
  have e2 := h2.trans (key _ hm)
  exact ⟨e1, e2, by rw [e1]; exact List.nodup_range, by rw [e2]; exact List.nodup_range⟩

theorem inv_empty : (Manager.empty : Manager F).Inv :=
  ⟨fun i j a s s' h => by simp [Manager.empty] at h, fun i j a s s' h => by simp [Manager.empty] at h⟩

/-- C46: take any history, a successful creation of `b` that writes handle `h`, and any further history.  Then the entry
designated by `h.id` holds `b` as changed by exactly the later refits and frees of that id.  If the id was not freed,
the raw pointers in `h` give exactly the current nodes and indices of that structure. -/
theorem C46_handle_stable [FloatOps F] {es₁ es₂ : List (Event F)} {m m₁ m₂ : Manager F} {nulls : Bool} {b : Bvh F}
    {c : ResultCode} {h : Handle} (h₁ : History .empty es₁ m) (hc : Calls m ⟨.create nulls (.ok b), c, some h⟩ m₁)
    (h₂ : History m₁ es₂ m₂) (hcount : (bvhHandles es₁).length < 2 ^ 32) :
    c = .ok ∧ ((m₂.slots[h.id]?).map Slot.val = some (es₂.foldl (Event.after h.id) b)) ∧
    ((∀ e ∈ es₂, frees h.id e = false) → b.nodes.length < 2 ^ 32 → b.primIndices.length < 2 ^ 32 →
      m₂.slices h = some ((es₂.foldl (Event.after h.id) b).nodes, (es₂.foldl (Event.after h.id) b).primIndices)) := by
  obtain ⟨⟨hl, _⟩, _⟩ := h₁.lengths
  have hl : m.slots.length = (bvhHandles es₁).length := by simpa [Manager.empty] using hl
  have hinv := (h₂.inv (hc.inv (h₁.inv inv_empty)))
  have hcr : ∃ a, m₁.slots[m.slots.length]? = some ⟨b, some a⟩ ∧ c = .ok ∧ h.id = m.slots.length ∧ h.addr = some a ∧
      h.nodeCount = natAsU32 b.nodes.length ∧ h.indexCount = natAsU32 b.primIndices.length := by
    generalize he : (⟨.create nulls (.ok b), c, some h⟩ : Event F) = e at hc
    cases hc with
    | create nulls' r a hf =>
      simp only [Event.mk.injEq, Call.create.injEq] at he
      obtain ⟨⟨rfl, rfl⟩, rfl, he⟩ := he
      cases nulls with
      | true => simp [Manager.create] at he
      | false =>
        simp only [Manager.create, Manager.store, Option.some.injEq, Bool.false_eq_true, if_false] at he ⊢
        subst he
        exact ⟨a, by simp, trivial, asU32_of_lt (by omega), rfl, rfl, rfl⟩
    | createMbvh => simp at he
    | refit => simp at he
    | freeBvh => simp at he
    | freeMbvh => simp at he
  obtain ⟨a, hs, rfl, hid, ha, hnc, hic⟩ := hcr
  rw [← hid] at hs
  obtain ⟨s', hs', hv, hx⟩ := h₂.slot hs
  refine ⟨rfl, by rw [hs', Option.map_some, hv], fun hf hn hi => ?_⟩
  obtain ⟨x1, x2, x3⟩ := hx hf
  have hfind := find_slot hinv.slots hs' x1
  simp only [Manager.slices, ha, hfind]
  rw [hnc, hic, asU32_of_lt hn, asU32_of_lt hi]
  simp only at x2 x3
  rw [if_pos ⟨by omega, by rw [x3]⟩, ← hv]
  rw [List.take_of_length_le (by omega), List.take_of_length_le (by rw [x3])]

/-- C46 for MBVH handles: the entry designated by the handle is `Mbvh::construct` of what the BVH handle designated when
`create_mbvh` was called, until it is freed; and the raw pointers give its nodes and indices. -/
theorem C46_mbvh_handle_stable [FloatOps F] {es₁ es₂ : List (Event F)} {m m₁ m₂ : Manager F} {hb h : Handle} {nulls : Bool}
    {c : ResultCode} (h₁ : History .empty es₁ m) (hc : Calls m ⟨.createMbvh hb nulls, c, some h⟩ m₁)
    (h₂ : History m₁ es₂ m₂) (hcount : (mbvhHandles es₁).length < 2 ^ 32) :
    c = .ok ∧ ∃ (s : Slot (Bvh F)) (q : Mbvh F) (fuel : Nat), m.slots[hb.id]? = some s ∧ Mbvh.construct fuel s.val = some q ∧
      (m₂.mslots[h.id]?).map Slot.val = some (es₂.foldl (Event.afterM h.id) q) ∧
      ((∀ e ∈ es₂, freesM h.id e = false) → q.mNodes.length < 2 ^ 32 → q.primIndices.length < 2 ^ 32 →
        m₂.mslices h = some (q.mNodes, q.primIndices)) := by
  obtain ⟨_, hl, _⟩ := h₁.lengths
  have hl : m.mslots.length = (mbvhHandles es₁).length := by simpa [Manager.empty] using hl
  have hinv := (h₂.inv (hc.inv (h₁.inv inv_empty)))
  have hcr : c = .ok ∧ ∃ (s : Slot (Bvh F)) (q : Mbvh F) (fuel a : Nat), m.slots[hb.id]? = some s ∧
      Mbvh.construct fuel s.val = some q ∧
      m₁.mslots[m.mslots.length]? = some ⟨q, some a⟩ ∧ h.id = m.mslots.length ∧ h.addr = some a ∧
      h.nodeCount = natAsU32 q.mNodes.length ∧ h.indexCount = natAsU32 q.primIndices.length := by
    generalize he : (⟨.createMbvh hb nulls, c, some h⟩ : Event F) = e at hc
    cases hc with
    | create => simp at he
    | createMbvh fuel h' nulls' a hf hm =>
      simp only [Event.mk.injEq, Call.createMbvh.injEq] at he
      obtain ⟨⟨rfl, rfl⟩, rfl, rfl⟩ := he
      unfold Manager.createMbvh at hm
      split at hm
      · simp at hm
      · split at hm
        · simp at hm
        · rename_i s hs
          obtain ⟨q, hq, h2⟩ := Option.map_eq_some_iff.1 hm
          simp only [Prod.mk.injEq, Option.some.injEq] at h2
          obtain ⟨rfl, rfl, rfl⟩ := h2
          exact ⟨rfl, s, q, fuel, a, hs, hq, by simp [Manager.storeMbvh], asU32_of_lt (by omega), rfl, rfl, rfl⟩
    | refit => simp at he
    | freeBvh => simp at he
    | freeMbvh => simp at he
  obtain ⟨rfl, s, q, fuel, a, hsl, hq, hs, hid, ha, hnc, hic⟩ := hcr
  rw [← hid] at hs
  obtain ⟨s', hs', hv, hx⟩ := h₂.mslot hs
  refine ⟨rfl, s, q, fuel, hsl, hq, by rw [hs', Option.map_some, hv], fun hf hn hi => ?_⟩
  have hx := hx hf
  subst hx
  have hfind := find_slot hinv.mslots hs' rfl
  simp only [Manager.mslices, ha, hfind]
  rw [hnc, hic, asU32_of_lt hn, asU32_of_lt hi]
  rw [if_pos ⟨Nat.le_refl _, Nat.le_refl _⟩, List.take_length, List.take_length]

/-- C46: an id that was never handed out is reported as an error and changes nothing. -/
theorem C46_unknown_id [FloatOps F] (m : Manager F) (h : Handle) :
    (m.slots.length ≤ h.id → (∀ fuel nulls a, m.createMbvh fuel h nulls a = some (m, .error, none)) ∧
      (∀ aabbs, m.refit aabbs h = some (m, .error)) ∧ m.freeBvh h = m) ∧
    (m.mslots.length ≤ h.id → m.freeMbvh h = m) := by
  refine ⟨fun hle => ⟨fun fuel nulls a => ?_, fun aabbs => ?_, ?_⟩, fun hle => ?_⟩
  · unfold Manager.createMbvh
    rw [List.getElem?_eq_none hle]
    split <;> rfl
  · unfold Manager.refit
    cases aabbs with
    | none => rfl
    | some bs =>
      simp only [List.getElem?_eq_none hle]
      split <;> rfl
  · unfold Manager.freeBvh; rw [if_neg (by omega)]
  · unfold Manager.freeMbvh; rw [if_neg (by omega)]

/-- A failed creation changes nothing and writes no handle; the code is the builder's error, or `Error` for null. -/
theorem C46_failed_create (m : Manager F) (a : Nat) :
    (∀ r, m.create true r a = (m, .error, none)) ∧
    (m.create false (.error .noPrimitives) a = (m, .noPrimitives, none)) ∧
    ∀ k n, m.create false (.error (.inequalAabbsAndPrimitives k n)) a = (m, .inequalAabbsAndPrimitives, none) :=
  ⟨fun _ => rfl, rfl, fun _ _ => rfl⟩

/-- A BVH with one leaf holding primitive `k`. -/
def leafBvh (k : Nat) : Bvh F32 :=
  { nodes := [{ bounds := { Aabb.new with extra1 := 1, extra2 := 0 } }], primIndices := [k], buildType := .binnedSAH }

/-- The limit of C46: `intersect` uses the raw pointers.  After `free_bvh` the allocator may put a new structure where
the freed one was; the freed handle then reads the new structure (here primitive 7 instead of 3), although its id does
not designate it. -/
theorem C46_use_after_free : ∃ (es : List (Event F32)) (m : Manager F32) (h h' : Handle),
    History .empty es m ∧ bvhHandles es = [h, h'] ∧ h.id ≠ h'.id ∧
    (m.slots[h.id]?).map Slot.val = some Bvh.default ∧
    m.slices h = some ((leafBvh 7).nodes, [7]) := by
  refine ⟨[⟨.create false (.ok (leafBvh 3)), .ok, some ⟨0, 1, 1, some 1000⟩⟩, ⟨.freeBvh ⟨0, 1, 1, some 1000⟩, .ok, none⟩,
    ⟨.create false (.ok (leafBvh 7)), .ok, some ⟨1, 1, 1, some 1000⟩⟩],
    ⟨[⟨Bvh.default, none⟩, ⟨leafBvh 7, some 1000⟩], []⟩, ⟨0, 1, 1, some 1000⟩, ⟨1, 1, 1, some 1000⟩, ?_, rfl, by decide, rfl, rfl⟩
  refine .cons (m' := ⟨[⟨leafBvh 3, some 1000⟩], []⟩) (.create false (.ok (leafBvh 3)) 1000 ⟨by simp [Manager.empty], by simp [Manager.empty]⟩) ?_
  refine .cons (m' := ⟨[⟨Bvh.default, none⟩], []⟩) (.freeBvh ⟨0, 1, 1, some 1000⟩) ?_
  exact .cons (.create false (.ok (leafBvh 7)) 1000 ⟨by simp, by simp⟩) .nil

/-- Non-vacuity of the handle theorems: two creations, an MBVH, a refit of the first structure, a free of the second. -/
example : ∃ (es : List (Event F32)) (m : Manager F32), History .empty es m ∧ (bvhHandles es).length = 2 ∧
    (mbvhHandles es).length = 1 ∧ m.slots.length = 2 := by
  refine ⟨[⟨.create false (.ok (leafBvh 0)), .ok, some ⟨0, 1, 1, some 8⟩⟩, ⟨.create false (.ok (leafBvh 7)), .ok, some ⟨1, 1, 1, some 16⟩⟩,
    ⟨.createMbvh ⟨0, 1, 1, some 8⟩ false, .ok, some ⟨0, 1, 1, some 24⟩⟩,
    ⟨.refit (some [Aabb.new]) ⟨0, 1, 1, some 8⟩, .ok, none⟩, ⟨.freeBvh ⟨1, 1, 1, some 16⟩, .ok, none⟩],
    ⟨[⟨((leafBvh 0).refit [Aabb.new]).getD Bvh.default, some 8⟩, ⟨Bvh.default, none⟩], [⟨(Mbvh.construct 5 (leafBvh 0)).getD Mbvh.default, some 24⟩]⟩,
    ?_, rfl, rfl, rfl⟩
  · refine .cons (.create false (.ok (leafBvh 0)) 8 ⟨by simp [Manager.empty], by simp [Manager.empty]⟩) ?_
    refine .cons (.create false (.ok (leafBvh 7)) 16 ⟨by simp [Manager.create, Manager.store, Manager.empty], by simp [Manager.create, Manager.store, Manager.empty]⟩) ?_
    refine .cons (m' := ⟨[⟨leafBvh 0, some 8⟩, ⟨leafBvh 7, some 16⟩], [⟨(Mbvh.construct 5 (leafBvh 0)).getD Mbvh.default, some 24⟩]⟩)
      (.createMbvh 5 ⟨0, 1, 1, some 8⟩ false 24 ⟨by simp [Manager.create, Manager.store, Manager.empty], by simp [Manager.create, Manager.store, Manager.empty]⟩ (by decide +kernel)) ?_
    refine .cons (m' := ⟨[⟨((leafBvh 0).refit [Aabb.new]).getD Bvh.default, some 8⟩, ⟨leafBvh 7, some 16⟩], [⟨(Mbvh.construct 5 (leafBvh 0)).getD Mbvh.default, some 24⟩]⟩)
      (.refit _ _ (by decide +kernel)) ?_
    exact .cons (.freeBvh _) .nil

/-! ### C47: the intersect protocol -/

section
variable [FloatOps F] {D : Type}

/-- C47, NaN: with a NaN in origin or direction every entry point returns `Nan`, makes no callback and leaves `*t` and
the user's data alone. -/
theorem C47_nan (nodes : List (BvhNode F)) (mnodes : List (MbvhNode F)) (indices : List Nat) (d : D) (fuel : Nat) :
    (∀ o r t cb, (o.isNaN || r.isNaN) = true →
      ffiIntersect nodes indices o r t d cb fuel = ⟨.nan, t, d, [], .finished⟩ ∧
      ffiIntersectMbvh mnodes indices o r t d cb fuel = ⟨.nan, t, d, [], .finished⟩) ∧
    (∀ ox oy oz dx dy dz t cb, (ox.isNaN || oy.isNaN || oz.isNaN || dx.isNaN || dy.isNaN || dz.isNaN) = true →
      ffiIntersectPacket nodes indices ox oy oz dx dy dz t d cb fuel = ⟨.nan, t, d, [], .finished⟩ ∧
      ffiIntersectMbvhPacket mnodes indices ox oy oz dx dy dz t d cb fuel = ⟨.nan, t, d, [], .finished⟩) := by
  refine ⟨fun o r t cb h => ?_, fun ox oy oz dx dy dz t cb h => ?_⟩
  · simp only [ffiIntersect, ffiIntersectMbvh, h, if_true, and_self]
  · simp only [ffiIntersectPacket, ffiIntersectMbvhPacket, h, if_true, and_self]

theorem Vec3.isNaN_iff (v : Vec3 F) : v.isNaN = true ↔ v.SomeNaN := by simp [Vec3.isNaN, Vec3.SomeNaN, or_assoc]
theorem Vec4.isNaN_iff (v : Vec4 F) : v.isNaN = true ↔ v.SomeNaN := by
  unfold Vec4.isNaN Vec4.SomeNaN
  rw [Vec4.any_iff]
  exact exists_congr fun i => by rw [Vec4.get_map]

/-- C47, NaN, both ways: the code is `Nan` exactly when one of the numbers of the origins and directions is NaN, and
`Ok` otherwise (`*t` is not looked at). -/
theorem C47_nan_exact (nodes : List (BvhNode F)) (mnodes : List (MbvhNode F)) (indices : List Nat) (d : D) (fuel : Nat) :
    (∀ (o r : Vec3 F) t cb out, out = ffiIntersect nodes indices o r t d cb fuel ∨
        out = ffiIntersectMbvh mnodes indices o r t d cb fuel →
      (o.SomeNaN ∨ r.SomeNaN → out = ⟨.nan, t, d, [], .finished⟩) ∧ (¬ (o.SomeNaN ∨ r.SomeNaN) → out.code = .ok)) ∧
    (∀ (ox oy oz dx dy dz : Vec4 F) t cb out, out = ffiIntersectPacket nodes indices ox oy oz dx dy dz t d cb fuel ∨
        out = ffiIntersectMbvhPacket mnodes indices ox oy oz dx dy dz t d cb fuel →
      ((∃ v ∈ [ox, oy, oz, dx, dy, dz], v.SomeNaN) → out = ⟨.nan, t, d, [], .finished⟩) ∧
      (¬ (∃ v ∈ [ox, oy, oz, dx, dy, dz], v.SomeNaN) → out.code = .ok)) := by
  constructor
  · intro o r t cb out ho
    rw [← Vec3.isNaN_iff, ← Vec3.isNaN_iff, ← Bool.or_eq_true]
    rcases ho with rfl | rfl
    · exact ⟨fun h => ((C47_nan nodes mnodes indices d fuel).1 o r t cb h).1, fun h => by
        unfold ffiIntersect; rw [if_neg h]⟩
    · exact ⟨fun h => ((C47_nan nodes mnodes indices d fuel).1 o r t cb h).2, fun h => by
        unfold ffiIntersectMbvh; rw [if_neg h]⟩
  · intro ox oy oz dx dy dz t cb out ho
    have e : (∃ v ∈ [ox, oy, oz, dx, dy, dz], v.SomeNaN) ↔
        (ox.isNaN || oy.isNaN || oz.isNaN || dx.isNaN || dy.isNaN || dz.isNaN) = true := by
      simp [← Vec4.isNaN_iff, or_assoc]
    rw [e]
    rcases ho with rfl | rfl
    · exact ⟨fun h => ((C47_nan nodes mnodes indices d fuel).2 ox oy oz dx dy dz t cb h).1, fun h => by
        unfold ffiIntersectPacket; rw [if_neg h]⟩
    · exact ⟨fun h => ((C47_nan nodes mnodes indices d fuel).2 ox oy oz dx dy dz t cb h).2, fun h => by
        unfold ffiIntersectMbvhPacket; rw [if_neg h]⟩

/-- C47, callbacks: on any nodes and indices whatever, the callbacks form a chain: each gets the `t` and data the previous
one left, all but the last returned false, the loop stops at the first that returns true, and `*t` ends as what the last
callback left.  Without NaN the code is `Ok`. -/
theorem C47_call_chain (nodes : List (BvhNode F)) (mnodes : List (MbvhNode F)) (indices : List Nat) (d : D) (fuel : Nat) :
    (∀ o r t cb, (o.isNaN || r.isNaN) = false →
      (∀ out, out = ffiIntersect nodes indices o r t d cb fuel ∨ out = ffiIntersectMbvh mnodes indices o r t d cb fuel →
        out.code = .ok ∧ CallChain cb out.calls t d out.t out.data (decide (out.ending = .stopped)))) ∧
    (∀ ox oy oz dx dy dz t cb, (ox.isNaN || oy.isNaN || oz.isNaN || dx.isNaN || dy.isNaN || dz.isNaN) = false →
      (∀ out, out = ffiIntersectPacket nodes indices ox oy oz dx dy dz t d cb fuel ∨
          out = ffiIntersectMbvhPacket mnodes indices ox oy oz dx dy dz t d cb fuel →
        out.code = .ok ∧ CallChain cb out.calls t d out.t out.data (decide (out.ending = .stopped)))) := by
  have travRay : ∀ {σ : Type} (b : Bool) (r : σ), (travNew b r).ray = r := fun _ _ => rfl
  refine ⟨fun o r t cb h out ho => ?_, fun ox oy oz dx dy dz t cb h out ho => ?_⟩
  · rcases ho with rfl | rfl
    · unfold ffiIntersect
      rw [if_neg (by simp [h])]
      refine ⟨rfl, ?_⟩
      exact drive_chain (proj := fun s : Ray F × D => (s.1.t, s.2)) (fun s id => ⟨rfl, rfl⟩)
        (fun t t' => (bvhIndexStep_ray _ _ _ _ t).1 t') (fun t x t' => (bvhIndexStep_ray _ _ _ _ t).2 x t') fuel _
    · unfold ffiIntersectMbvh
      rw [if_neg (by simp [h])]
      refine ⟨rfl, ?_⟩
      exact qdrive_chain (proj := fun s : Ray F × D => (s.1.t, s.2)) (fun s id => ⟨rfl, rfl⟩)
        (fun t t' => (quadStep_ray _ _ _ _ t).1 t') (fun t x t' => (quadStep_ray _ _ _ _ t).2 x t') fuel _
  · rcases ho with rfl | rfl
    · unfold ffiIntersectPacket
      rw [if_neg (by simp [h])]
      refine ⟨rfl, ?_⟩
      exact drive_chain (proj := fun s : RayPacket4 F × D => (s.1.t, s.2)) (fun s id => ⟨rfl, rfl⟩)
        (fun t t' => (bvhIndexStep_ray _ _ _ _ t).1 t') (fun t x t' => (bvhIndexStep_ray _ _ _ _ t).2 x t') fuel _
    · unfold ffiIntersectMbvhPacket
      rw [if_neg (by simp [h])]
      refine ⟨rfl, ?_⟩
      exact qdrive_chain (proj := fun s : RayPacket4 F × D => (s.1.t, s.2)) (fun s id => ⟨rfl, rfl⟩)
        (fun t t' => (quadStep_ray _ _ _ _ t).1 t') (fun t x t' => (quadStep_ray _ _ _ _ t).2 x t') fuel _

/-- C47, ids: on a well-formed structure within the stack limit, the calls, `*t` and the data are those of the recursive
ordered traversal of the tree with the callback as visitor; the loop always ends. -/
theorem C47_refines (b : Bvh F) (T : BTree F) (h : b.Denotes T) (hd : T.depth ≤ 31) (fuel : Nat) (hf : T.rounds < fuel)
    (o r : Vec3 F) (hn : (o.isNaN || r.isNaN) = false) (t : F) (d : D) (cb : Nat → F → D → F × D × Bool) :
    let v := T.visit (BTree.rangeIds b.indices) (fun (a : Aabb F) (s : Ray F × D) => a.intersect s.1) closerRay (rayBody cb)
      ({ Ray.new o r with t := t }, d)
    ffiIntersect b.nodes b.primIndices o r t d cb fuel = ⟨.ok, v.ray.1.t, v.ray.2, v.items, v.ending⟩ := by
  have hne : b.nodes.isEmpty = false := by
    obtain ⟨nd, e, _⟩ := h.unfolds.root
    cases hb : b.nodes with
    | nil => rw [hb] at e; simp at e
    | cons => rfl
  have hn' : (({ Ray.new o r with t := t } : Ray F)).hasNaN = false := hn
  unfold ffiIntersect
  rw [if_neg (by simp [hn])]
  simp only [hne, hn', travNew, Bool.or_self, Bool.false_eq_true, if_false]
  rw [drive_fresh bvhIndexStep_spec (fun a s => intersect_clean a s.1) (rayBody cb) h.unfolds
    (BTree.AllLeaves.of_rangesIn h.ranges fun f c hfc => bvhIndexStep_leaf hfc) _ hd hf]
  rfl

/-- The packet a caller of the packet functions means: built by the library's own constructor (property C43) from the four
origins and directions, with the given `t`. -/
def packetOf (ox oy oz dx dy dz t : Vec4 F) : RayPacket4 F :=
  { RayPacket4.new (fun i => ⟨ox.get i, oy.get i, oz.get i, FloatOps.zero⟩)
      (fun i => ⟨dx.get i, dy.get i, dz.get i, FloatOps.zero⟩) with t := t }

theorem ffiPacket_eq (ox oy oz dx dy dz t : Vec4 F) : ffiPacket ox oy oz dx dy dz t = packetOf ox oy oz dx dy dz t := rfl

/-- Lane `i` of that packet is the single ray `Ray::new` makes from lane `i`, and its reciprocal direction is the one the
box tests use. -/
theorem C47_packet_lanes (ox oy oz dx dy dz t : Vec4 F) (i : Fin 4) :
    (ffiPacket ox oy oz dx dy dz t).ray i =
      { Ray.new ⟨ox.get i, oy.get i, oz.get i⟩ ⟨dx.get i, dy.get i, dz.get i⟩ with t := t.get i } ∧
    (ffiPacket ox oy oz dx dy dz t).invOf i = recip3 ⟨dx.get i, dy.get i, dz.get i⟩ := by
  match i with
  | 0 => exact ⟨rfl, rfl⟩
  | 1 => exact ⟨rfl, rfl⟩
  | 2 => exact ⟨rfl, rfl⟩
  | 3 => exact ⟨rfl, rfl⟩

/-- C47, ids, packets. -/
theorem C47_packet_refines (b : Bvh F) (T : BTree F) (h : b.Denotes T) (hd : T.depth ≤ 31) (fuel : Nat)
    (hf : T.rounds < fuel) (ox oy oz dx dy dz t : Vec4 F)
    (hn : (ox.isNaN || oy.isNaN || oz.isNaN || dx.isNaN || dy.isNaN || dz.isNaN) = false) (d : D)
    (cb : Nat → Vec4 F → D → Vec4 F × D × Bool) :
    let v := T.visit (BTree.rangeIds b.indices) (fun (a : Aabb F) (s : RayPacket4 F × D) => a.intersect4 s.1) closerPacket
      (packetBody cb) (packetOf ox oy oz dx dy dz t, d)
    ffiIntersectPacket b.nodes b.primIndices ox oy oz dx dy dz t d cb fuel = ⟨.ok, v.ray.1.t, v.ray.2, v.items, v.ending⟩ := by
  have hne : b.nodes.isEmpty = false := by
    obtain ⟨nd, e, _⟩ := h.unfolds.root
    cases hb : b.nodes with
    | nil => rw [hb] at e; simp at e
    | cons => rfl
  have hn' : (ffiPacket ox oy oz dx dy dz t).hasNaN = false := hn
  unfold ffiIntersectPacket
  rw [if_neg (by simp [hn])]
  simp only [hne, hn', travNew, Bool.or_self, Bool.false_eq_true, if_false]
  rw [drive_fresh bvhIndexStep_spec (fun a s => intersect4_clean a s.1) (packetBody cb) h.unfolds
    (BTree.AllLeaves.of_rangesIn h.ranges fun f c hfc => bvhIndexStep_leaf hfc) _ hd hf]
  rfl

/-- C47, ids, quad structures. -/
theorem C47_mbvh_refines (q : Mbvh F) (Q : QTree F) (h : q.Denotes Q) (hd : Q.stackNeed ≤ 32) (fuel : Nat)
    (hf : Q.rounds ≤ fuel) (d : D) :
    (∀ (o r : Vec3 F), (o.isNaN || r.isNaN) = false → ∀ (t : F) (cb : Nat → F → D → F × D × Bool),
      let v := Q.visit (BTree.rangeIds q.primIndices) (fun b (s : Ray F × D) => quadHit b s.1) (rayBody cb)
        ({ Ray.new o r with t := t }, d)
      ffiIntersectMbvh q.mNodes q.primIndices o r t d cb fuel = ⟨.ok, v.ray.1.t, v.ray.2, v.items, v.ending⟩) ∧
    (∀ (ox oy oz dx dy dz t : Vec4 F), (ox.isNaN || oy.isNaN || oz.isNaN || dx.isNaN || dy.isNaN || dz.isNaN) = false →
      ∀ (cb : Nat → Vec4 F → D → Vec4 F × D × Bool),
      let v := Q.visit (BTree.rangeIds q.primIndices) (fun b (s : RayPacket4 F × D) => quadHit4 b s.1) (packetBody cb)
        (packetOf ox oy oz dx dy dz t, d)
      ffiIntersectMbvhPacket q.mNodes q.primIndices ox oy oz dx dy dz t d cb fuel =
        ⟨.ok, v.ray.1.t, v.ray.2, v.items, v.ending⟩) := by
  refine ⟨fun o r hn t cb => ?_, fun ox oy oz dx dy dz t hn cb => ?_⟩
  · unfold ffiIntersectMbvh
    rw [if_neg (by simp [hn])]
    have e := qdrive_fresh (cb := rayBody cb) (item := some) (items := BTree.rangeIds q.primIndices)
      (hit := fun b (s : Ray F × D) => quadHit b s.1) (fun b s => quadHit_perm b s.1)
      (fun _ _ => (firstSome_some _).symm) h.unfolds h.unfolds.root_isQuad h.ranges ({ Ray.new o r with t := t }, d) hd hf
    simp only [e]
  · unfold ffiIntersectMbvhPacket
    rw [if_neg (by simp [hn])]
    have e := qdrive_fresh (cb := packetBody cb) (item := some) (items := BTree.rangeIds q.primIndices)
      (hit := fun b (s : RayPacket4 F × D) => quadHit4 b s.1) (fun b s => quadHit4_perm b s.1)
      (fun _ _ => (firstSome_some _).symm) h.unfolds h.unfolds.root_isQuad h.ranges (ffiPacket ox oy oz dx dy dz t, d) hd hf
    simp only [e]
    rfl
end

section
variable {σ τ : Type}

/-- A visitor that cannot influence the box tests gets a prefix of the ids a passive visitor gets: all of them unless it
stops. -/
theorem visit_prefix {items : Nat → Nat → List Nat} {hit : Aabb F → σ → Option τ} {closer : τ → τ → Bool}
    {cb cb0 : σ → Nat → σ × Bool} {I : σ → Prop} (h0 : ∀ s x, cb0 s x = (s, false)) (hI : ∀ s x, I s → I (cb s x).1)
    (hh : ∀ a s s', I s → I s' → hit a s = hit a s') (T : BTree F) : ∀ (s s0 : σ), I s → I s0 →
    (T.visit items hit closer cb0 s0).ray = s0 ∧ (T.visit items hit closer cb0 s0).ending = .finished ∧
    I (T.visit items hit closer cb s).ray ∧
    ((T.visit items hit closer cb s).ending = .finished ∧
        (T.visit items hit closer cb s).items = (T.visit items hit closer cb0 s0).items ∨
      (T.visit items hit closer cb s).ending = .stopped ∧
        (T.visit items hit closer cb s).items <+: (T.visit items hit closer cb0 s0).items) := by
  have list : ∀ (l : List Nat) (s s0 : σ), I s → I s0 →
      (visitItems cb0 l s0).ray = s0 ∧ (visitItems cb0 l s0).ending = .finished ∧ I (visitItems cb l s).ray ∧
      ((visitItems cb l s).ending = .finished ∧ (visitItems cb l s).items = (visitItems cb0 l s0).items ∨
        (visitItems cb l s).ending = .stopped ∧ (visitItems cb l s).items <+: (visitItems cb0 l s0).items) := by
    intro l
    induction l with
    | nil => intro s s0 hs hs0; exact ⟨rfl, rfl, hs, .inl ⟨rfl, rfl⟩⟩
    | cons x l ih =>
      intro s s0 hs hs0
      have hs1 := hI s x hs
      cases hc : cb s x with
      | mk r b =>
        rw [hc] at hs1
        obtain ⟨a1, a2, a3, a4⟩ := ih r s0 hs1 hs0
        cases b with
        | true =>
          simp only [visitItems, hc, h0, Run.cons]
          exact ⟨a1, a2, hs1, .inr ⟨trivial, by simp⟩⟩
        | false =>
          simp only [visitItems, hc, h0, Run.cons]
          refine ⟨a1, a2, a3, ?_⟩
          rcases a4 with ⟨b1, b2⟩ | ⟨b1, b2⟩
          · exact .inl ⟨b1, by rw [b2]⟩
          · exact .inr ⟨b1, by rw [List.cons_prefix_cons]; exact ⟨rfl, b2⟩⟩
  induction T with
  | leaf b f c => intro s s0 hs hs0; exact list _ s s0 hs hs0
  | node b l r ihl ihr =>
    have two : ∀ (A B : BTree F), (∀ (s s0 : σ), I s → I s0 →
        (A.visit items hit closer cb0 s0).ray = s0 ∧ (A.visit items hit closer cb0 s0).ending = .finished ∧
        I (A.visit items hit closer cb s).ray ∧
        ((A.visit items hit closer cb s).ending = .finished ∧
            (A.visit items hit closer cb s).items = (A.visit items hit closer cb0 s0).items ∨
          (A.visit items hit closer cb s).ending = .stopped ∧
            (A.visit items hit closer cb s).items <+: (A.visit items hit closer cb0 s0).items)) →
        (∀ (s s0 : σ), I s → I s0 →
        (B.visit items hit closer cb0 s0).ray = s0 ∧ (B.visit items hit closer cb0 s0).ending = .finished ∧
        I (B.visit items hit closer cb s).ray ∧
        ((B.visit items hit closer cb s).ending = .finished ∧
            (B.visit items hit closer cb s).items = (B.visit items hit closer cb0 s0).items ∨
          (B.visit items hit closer cb s).ending = .stopped ∧
            (B.visit items hit closer cb s).items <+: (B.visit items hit closer cb0 s0).items)) →
        ∀ (s s0 : σ), I s → I s0 →
        ((A.visit items hit closer cb0 s0).andThen (B.visit items hit closer cb0)).ray = s0 ∧
        ((A.visit items hit closer cb0 s0).andThen (B.visit items hit closer cb0)).ending = .finished ∧
        I ((A.visit items hit closer cb s).andThen (B.visit items hit closer cb)).ray ∧
        (((A.visit items hit closer cb s).andThen (B.visit items hit closer cb)).ending = .finished ∧
          ((A.visit items hit closer cb s).andThen (B.visit items hit closer cb)).items =
            ((A.visit items hit closer cb0 s0).andThen (B.visit items hit closer cb0)).items ∨
        ((A.visit items hit closer cb s).andThen (B.visit items hit closer cb)).ending = .stopped ∧
          ((A.visit items hit closer cb s).andThen (B.visit items hit closer cb)).items <+:
            ((A.visit items hit closer cb0 s0).andThen (B.visit items hit closer cb0)).items) := by
      intro A B hA hB s s0 hs hs0
      obtain ⟨a1, a2, a3, a4⟩ := hA s s0 hs hs0
      obtain ⟨b1, b2, b3, b4⟩ := hB (A.visit items hit closer cb s).ray s0 a3 hs0
      have e0 : (A.visit items hit closer cb0 s0).andThen (B.visit items hit closer cb0) =
          { B.visit items hit closer cb0 s0 with items := (A.visit items hit closer cb0 s0).items ++
            (B.visit items hit closer cb0 s0).items } := by
        unfold Run.andThen; rw [if_pos a2, a1]
      rw [e0]
      refine ⟨b1, b2, ?_⟩
      rcases a4 with ⟨c1, c2⟩ | ⟨c1, c2⟩
      · have e : (A.visit items hit closer cb s).andThen (B.visit items hit closer cb) =
            { B.visit items hit closer cb (A.visit items hit closer cb s).ray with
              items := (A.visit items hit closer cb s).items ++
                (B.visit items hit closer cb (A.visit items hit closer cb s).ray).items } := by
          unfold Run.andThen; rw [if_pos c1]
        rw [e]
        refine ⟨b3, ?_⟩
        rcases b4 with ⟨d1, d2⟩ | ⟨d1, d2⟩
        · exact .inl ⟨d1, by simp only [c2, d2]⟩
        · refine .inr ⟨d1, ?_⟩
          simp only [c2]
          exact (List.prefix_append_right_inj _).2 d2
      · have e : (A.visit items hit closer cb s).andThen (B.visit items hit closer cb) = A.visit items hit closer cb s := by
          unfold Run.andThen; rw [if_neg (by rw [c1]; simp)]
        rw [e]
        exact ⟨a3, .inr ⟨c1, c2.trans (List.prefix_append _ _)⟩⟩
    intro s s0 hs hs0
    have el := hh l.bounds s s0 hs hs0
    have er := hh r.bounds s s0 hs hs0
    simp only [BTree.visit, el, er]
    cases hit l.bounds s0 with
    | none =>
      cases hit r.bounds s0 with
      | none => exact ⟨rfl, rfl, hs, .inl ⟨rfl, rfl⟩⟩
      | some tr => exact ihr s s0 hs hs0
    | some tl =>
      cases hit r.bounds s0 with
      | none => exact ihl s s0 hs hs0
      | some tr =>
        by_cases hc : closer tl tr = true
        · simp only [hc, if_true]; exact two r l ihr ihl s s0 hs hs0
        · simp only [hc, Bool.false_eq_true, if_false]; exact two l r ihl ihr s s0 hs hs0
end

/-- C47, ids, single rays: the ids called back with are the ids that a passive loop over `traverse_iter_indices` with the
same ray yields, in the same order, cut after the first callback that returns true; the callbacks' changes of `t` have no
influence on which ids come. -/
theorem C47_ids_prefix [FloatOps F] {D : Type} (b : Bvh F) (T : BTree F) (h : b.Denotes T) (hd : T.depth ≤ 31) (fuel : Nat)
    (hf : T.rounds < fuel) (o r : Vec3 F) (hn : (o.isNaN || r.isNaN) = false) (t : F) (d : D)
    (cb : Nat → F → D → F × D × Bool) :
    let out := ffiIntersect b.nodes b.primIndices o r t d cb fuel
    let all := (b.forIndices (fun ray _ => (ray, false)) fuel (Ray.new o r)).items
    out.ending = .finished ∧ out.calls = all ∨ out.ending = .stopped ∧ out.calls <+: all := by
  intro out all
  have e1 := C47_refines b T h hd fuel hf o r hn t d cb
  have e2 := C20_ray_traversal_refines b T h hd (Ray.new o r) hn (fun ray _ => (ray, false)) fuel hf
  have e3 := C47_refines b T h hd fuel hf o r hn t d (fun _ t d => (t, d, false))
  have hh : ∀ (a : Aabb F) (s s' : Ray F × D), (∃ t, s.1 = { Ray.new o r with t := t }) →
      (∃ t, s'.1 = { Ray.new o r with t := t }) → a.intersect s.1 = a.intersect s'.1 := by
    rintro a s s' ⟨t, e⟩ ⟨t', e'⟩
    rw [e, e']; rfl
  have key := visit_prefix (items := BTree.rangeIds b.indices) (hit := fun (a : Aabb F) (s : Ray F × D) => a.intersect s.1)
    (closer := closerRay) (cb := rayBody cb) (cb0 := fun s _ => (s, false))
    (I := fun s => ∃ t, s.1 = { Ray.new o r with t := t }) (fun _ _ => rfl)
    (by rintro s x ⟨t, e⟩; exact ⟨(cb x s.1.t s.2).1, by simp only [rayBody, e]⟩) hh T
    ({ Ray.new o r with t := t }, d) (Ray.new o r, d) ⟨t, rfl⟩ ⟨_, rfl⟩
  -- the passive loop with and without user data
  have same : ∀ (T : BTree F) (s : Ray F), (T.visit (BTree.rangeIds b.indices) Aabb.intersect closerRay
        (fun ray _ => (ray, false)) s) =
      ⟨(T.visit (BTree.rangeIds b.indices) (fun (a : Aabb F) (s : Ray F × D) => a.intersect s.1) closerRay
        (fun s _ => (s, false)) (s, d)).items, s, .finished⟩ ∧
      (T.visit (BTree.rangeIds b.indices) (fun (a : Aabb F) (s : Ray F × D) => a.intersect s.1) closerRay
        (fun s _ => (s, false)) (s, d)).ray = (s, d) ∧
      (T.visit (BTree.rangeIds b.indices) (fun (a : Aabb F) (s : Ray F × D) => a.intersect s.1) closerRay
        (fun s _ => (s, false)) (s, d)).ending = .finished := by
    intro T
    have list : ∀ (l : List Nat) (s : Ray F), visitItems (fun (ray : Ray F) _ => (ray, false)) l s = ⟨l, s, .finished⟩ ∧
        visitItems (fun (s : Ray F × D) _ => (s, false)) l (s, d) = ⟨l, (s, d), .finished⟩ := by
      intro l s
      induction l with
      | nil => exact ⟨rfl, rfl⟩
      | cons x l ih => simp only [visitItems, ih, Run.cons, and_self]
    induction T with
    | leaf bb f c => intro s; simp only [BTree.visit, list, and_self]
    | node bb l r ihl ihr =>
      intro s
      obtain ⟨l1, l2, l3⟩ := ihl s
      obtain ⟨r1, r2, r3⟩ := ihr s
      simp only [BTree.visit]
      cases l.bounds.intersect s with
      | none =>
        cases r.bounds.intersect s with
        | none => exact ⟨rfl, rfl, rfl⟩
        | some tr => exact ⟨r1, r2, r3⟩
      | some tl =>
        cases r.bounds.intersect s with
        | none => exact ⟨l1, l2, l3⟩
        | some tr =>
          by_cases hc : closerRay tl tr = true
          · simp only [hc, if_true, Run.andThen, r1, r3, r2, l1, l2, l3, and_self]
          · simp only [hc, Bool.false_eq_true, if_false, Run.andThen, r1, r3, r2, l1, l2, l3, if_true, and_self]
  obtain ⟨_, _, _, k⟩ := key
  have hall : all = (T.visit (BTree.rangeIds b.indices) (fun (a : Aabb F) (s : Ray F × D) => a.intersect s.1) closerRay
        (fun s _ => (s, false)) (Ray.new o r, d)).items := by
    show (b.forIndices (fun ray _ => (ray, false)) fuel (Ray.new o r)).items = _
    rw [e2, (same T (Ray.new o r)).1]
  rw [hall]
  show (ffiIntersect _ _ _ _ _ _ _ _).ending = _ ∧ (ffiIntersect _ _ _ _ _ _ _ _).calls = _ ∨
    (ffiIntersect _ _ _ _ _ _ _ _).ending = _ ∧ (ffiIntersect _ _ _ _ _ _ _ _).calls <+: _
  rw [e1]
  exact k

/-- Non-vacuity of C47: a callback that records the ids and halves `*t`, and stops at id 0: both boxes are called back on
`twoBvh` and the loop is stopped by the second one. -/
example : twoBvh.Denotes twoTree ∧ twoTree.depth ≤ 31 ∧ twoTree.rounds < 10 ∧
    (twoRay.origin.isNaN || twoRay.direction.isNaN) = false ∧
    (let out := ffiIntersect twoBvh.nodes twoBvh.primIndices twoRay.origin twoRay.direction (FloatOps.lit 8 0) ([] : List Nat)
      (fun id t d => (FloatOps.mul t (FloatOps.lit 5 (-1)), d ++ [id], id == 0)) 10
     out.code = .ok ∧ out.calls = [1, 0] ∧ out.data = [1, 0] ∧ out.t = FloatOps.lit 2 0 ∧ out.ending = .stopped) :=
  ⟨twoBvh_denotes, by decide +kernel, by decide +kernel, by decide +kernel, by decide +kernel⟩

/-! ### C48: boxes and nodes across the boundary -/

/-- C48: the conversions are inverse to each other. -/
theorem C48_round_trip (a : Aabb F) (r : RTAabb F) (n : BvhNode F) (rn : RTBvhNode F) :
    (RTAabb.ofAabb a).toAabb = a ∧ RTAabb.ofAabb r.toAabb = r ∧
    (RTBvhNode.ofNode n).toNode = n ∧ RTBvhNode.ofNode rn.toNode = rn := ⟨rfl, rfl, rfl, rfl⟩

/-- C48: what the C side sees through the cast pointers: the memory of an `Aabb` (or `BvhNode`) read as `RTAabb` (or
`RTBvhNode`) is the converted value, `count` is the node's count and `left_first` its link; the memory of an `MbvhNode`
read as `RTMbvhNode` has the same fields. -/
theorem C48_layout (a : Aabb F) (r : RTAabb F) (m : MbvhNode F) (rm : RTMbvhNode F) :
    (r.words = a.words ↔ r = RTAabb.ofAabb a) ∧
    (rm.words = m.words ↔ rm = ⟨m.minX, m.maxX, m.minY, m.maxY, m.minZ, m.maxZ, m.children, m.counts⟩) := by
  constructor
  · obtain ⟨⟨_, _, _⟩, _, ⟨_, _, _⟩, _⟩ := r
    simp [RTAabb.words, Aabb.words, RTAabb.ofAabb]
    constructor
    · rintro ⟨rfl, rfl, rfl, rfl, rfl, rfl, rfl, rfl⟩; simp
    · rintro ⟨⟨rfl, rfl, rfl⟩, rfl, ⟨rfl, rfl, rfl⟩, rfl⟩; simp
  · constructor
    · intro h
      obtain ⟨⟨_, _, _, _⟩, ⟨_, _, _, _⟩, ⟨_, _, _, _⟩, ⟨_, _, _, _⟩, ⟨_, _, _, _⟩, ⟨_, _, _, _⟩, ⟨_, _, _, _⟩, ⟨_, _, _, _⟩⟩ := rm
      obtain ⟨⟨_, _, _, _⟩, ⟨_, _, _, _⟩, ⟨_, _, _, _⟩, ⟨_, _, _, _⟩, ⟨_, _, _, _⟩, ⟨_, _, _, _⟩, ⟨_, _, _, _⟩, ⟨_, _, _, _⟩⟩ := m
      simp only [RTMbvhNode.words, MbvhNode.words, Vec4.words, List.cons_append, List.nil_append, List.cons.injEq,
        Word.f.injEq, Word.i.injEq, and_true] at h
      obtain ⟨rfl, rfl, rfl, rfl, rfl, rfl, rfl, rfl, rfl, rfl, rfl, rfl, rfl, rfl, rfl, rfl, rfl, rfl, rfl, rfl, rfl, rfl,
        rfl, rfl, rfl, rfl, rfl, rfl, rfl, rfl, rfl, rfl⟩ := h
      rfl
    · rintro rfl; rfl

/-! ### C49: the triangle wrapper -/

/-- C49 fails as stated, for every vertex stride: with any vertex stride from 4 bytes to 2^29 and any other strides there is
a vertex buffer for which the box of triangle 0 does not contain its third vertex (f32). -/
theorem C49_fails_every_stride (centers : Nat → F32) (stride vertexStride triangleStride : Nat) (h1 : 4 ≤ vertexStride)
    (h2 : vertexStride < 2 ^ 29) :
    ∃ vertices : Nat → F32, ¬ (TriWrapper.new centers vertices stride vertexStride triangleStride 0).aabb.Has
      (TriWrapper.new centers vertices stride vertexStride triangleStride 0).vertex2 := by
  refine ⟨fun k => if k = 2 * (vertexStride / 4) then FloatOps.one else FloatOps.zero, ?_⟩
  intro h
  have hx := h.2.1
  have e1 : natAsU32 (vertexStride / 4) = vertexStride / 4 := asU32_of_lt (by omega)
  have e2 : natAsU32 (2 * (vertexStride / 4)) = 2 * (vertexStride / 4) := asU32_of_lt (by omega)
  have e0 : natAsU32 0 = 0 := rfl
  simp only [TriWrapper.vertex2, TriWrapper.aabb, TriWrapper.new, TriWrapper.read3, Nat.zero_mul, Nat.zero_div, e0, e1, e2,
    Nat.zero_add, if_true, Aabb.grow, Vec3.max, Vec3.map2] at hx
  have n1 : ¬ (0 = 2 * (vertexStride / 4)) := by omega
  have n2 : ¬ (vertexStride / 4 / 4 = 2 * (vertexStride / 4)) := by omega
  have n3 : ¬ (vertexStride / 4 / 4 * 2 = 2 * (vertexStride / 4)) := by omega
  rw [if_neg n1, if_neg n2, if_neg n3] at hx
  revert hx
  decide +kernel

/-- C49, the part that holds: with a vertex stride of 16 bytes the box contains the first vertex. -/
theorem C49_first_vertex_partial [FloatOps F] [LawfulFloat F] (centers vertices : Nat → F) (stride triangleStride i : Nat)
    (hv : ∀ k, Num (vertices k)) (hi : i * triangleStride < 2 ^ 32) :
    (TriWrapper.new centers vertices stride 16 triangleStride i).aabb.Has
      (TriWrapper.new centers vertices stride 16 triangleStride i).vertex0 := by
  have e1 : natAsU32 (16 / 4) = 4 := rfl
  have e2 : natAsU32 (i * triangleStride / 4) = i * triangleStride / 4 := asU32_of_lt (by omega)
  have e3 : natAsU32 (i * triangleStride / 4 * 4) / 4 = i * triangleStride / 4 := by
    rw [asU32_of_lt (by omega)]; omega
  have num : ∀ k, (TriWrapper.read3 vertices k).Numeric := fun k => ⟨hv _, hv _, hv _⟩
  simp only [TriWrapper.vertex0, TriWrapper.aabb, TriWrapper.new, e1, e2, e3]
  have s : (Aabb.empty : Aabb F).Numeric := Aabb.new_numeric
  have g : ∀ (a : Aabb F), a.Numeric → ∀ p : Vec3 F, p.Numeric → (a.grow p).Numeric ∧ (a.grow p).Has p ∧
      ∀ q, a.Has q → (a.grow p).Has q := by
    intro a ha p hp
    exact ⟨⟨Vec3.Numeric.min ha.1 hp, Vec3.Numeric.max ha.2 hp⟩,
      ⟨Vec3.min_le_right ha.1 hp, Vec3.le_max_right ha.2 hp⟩,
      fun q hq => Aabb.Within.has (a := a) ⟨Vec3.min_le_left ha.1 hp, Vec3.le_max_left ha.2 hp⟩ hq⟩
  obtain ⟨n1, p1, _⟩ := g _ s _ (num (i * triangleStride / 4))
  obtain ⟨n2, _, k2⟩ := g _ n1 _ (num (i * triangleStride / 4 + 4 / 4))
  obtain ⟨_, _, k3⟩ := g _ n2 _ (num (i * triangleStride / 4 + 4 / 4 * 2))
  exact k3 _ (k2 _ p1)

/-- The vertices the wrapper reports are those of the caller's layout: vertex `k` of triangle `i` starts at byte
`i * triangle_stride + k * vertex_stride`; its center starts at byte `i * stride` (strides multiples of four bytes, buffers
below 2^32 floats). -/
theorem C49_vertex_addresses (centers vertices : Nat → F) (cs vs ts i : Nat)
    (hlen : i * ts + 2 * vs < 2 ^ 30) (hc : i * (4 * cs) < 2 ^ 32) (hi : i < 2 ^ 32) (hcs : cs < 2 ^ 30) :
    let w := TriWrapper.new centers vertices (4 * cs) (4 * vs) (4 * ts) i
    w.vertex0 = TriWrapper.read3 vertices (i * ts) ∧ w.vertex1 = TriWrapper.read3 vertices (i * ts + vs) ∧
    w.vertex2 = TriWrapper.read3 vertices (i * ts + 2 * vs) ∧ w.center = TriWrapper.read3 centers (i * cs) := by
  have a1 : i * (4 * ts) / 4 = i * ts := by rw [Nat.mul_left_comm]; omega
  have a2 : 4 * vs / 4 = vs := by omega
  have a3 : i * (4 * cs) = 4 * (i * cs) := Nat.mul_left_comm ..
  simp only [TriWrapper.new, TriWrapper.vertex0, TriWrapper.vertex1, TriWrapper.vertex2, TriWrapper.center, a1, a2]
  rw [asU32_of_lt (show i * ts < 2 ^ 32 by omega), asU32_of_lt (show vs < 2 ^ 32 by omega),
    asU32_of_lt (show 2 * vs < 2 ^ 32 by omega), asU32_of_lt (show i * ts + vs < 2 ^ 32 by omega),
    asU32_of_lt (show i * ts + 2 * vs < 2 ^ 32 by omega), asU32_of_lt hi, asU32_of_lt (show 4 * cs < 2 ^ 32 by omega),
    asU32_of_lt hc, a3]
  refine ⟨rfl, rfl, rfl, ?_⟩
  congr 1
  omega

end Rtbvh
