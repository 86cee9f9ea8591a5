import Verif.Props.SceneBounds
/-
Property C55, the other direction: where the padding of 1e-4 stops working.  In binary32 no build of any scene that
reaches beyond 2048 on some side of some axis has its outermost point on that side strictly inside `bounds()`.
-/
namespace Rtbvh
open FloatOps LawfulFloat Aabb

section lawful
variable {F : Type} [FloatOps F] [LawfulFloat F]

/-- A box on which padding has no effect bounds whatever the builders make of boxes inside it. -/
structure Absorbing (c : Aabb F) : Prop where
  still : c.offsetBy (lit 1 (-4)) = c
  start : (Aabb.new : Aabb F).Within c

theorem Absorbing.union {c : Aabb F} (hc : Absorbing c) {bs : List (Aabb F)} (h : ∀ a ∈ bs, a.Within c) :
    (unionOfList bs).Within c := by
  have h1 := pad_within (foldl_growBB_least h hc.start)
  rw [show pad c = c from hc.still] at h1
  exact h1

theorem Absorbing.padded {c a : Aabb F} (hc : Absorbing c) (h : a.Within c) : (pad a).Within c := by
  have h1 := pad_within h
  rwa [show pad c = c from hc.still] at h1

theorem binned_within (b : Builder F) (order ks : List Nat) (h : b.Legal order) (bvh : Bvh F)
    (e : b.constructBinnedSah order ks = .ok (some (some bvh))) {c : Aabb F} (hc : Absorbing c)
    (hb : ∀ a ∈ b.boxes order, a.Within c) : bvh.bounds.Within c := by
  obtain ⟨_, T, hU, _⟩ := C03_binned_partition b order ks h bvh e
  obtain ⟨hT, _⟩ := built_tree h e hU
  have hu := hc.union hb
  change bvh.bounds.clean.Within c
  rw [Bvh.bounds_eq hU]
  unfold buildTree at hT
  split at hT
  · cases hT
  · simp only [Option.some.injEq, Prod.mk.injEq] at hT
    obtain ⟨rfl, _⟩ := hT
    exact hc.padded (hc.padded hu)
  · split at hT
    · simp only [Option.some.injEq, Prod.mk.injEq] at hT
      obtain ⟨rfl, _⟩ := hT
      exact hc.padded hu
    · cases hT

theorem locb_within (b : Builder F) (order : List Nat) (h : b.Legal order) (t fuel : Nat) (ht : 0 < t)
    (hs : b.primitives.length ≤ 2 ^ 29) (bvh : Bvh F) (e : b.constructLocb order t fuel = .ok (some (some bvh)))
    {c : Aabb F} (hc : Absorbing c) (hb : ∀ a ∈ b.boxes order, a.Within c) : bvh.bounds.Within c := by
  have hn : ∀ a ∈ b.boxes order, a.Numeric := fun a ha => (hb a ha).num_left
  have hlen := Builder.boxes_length h
  obtain ⟨_, _, T, hU, _, _, hids, _⟩ := C11_locb_structure b order h t fuel ht hs bvh e
  rcases locb_built h ht hs e with ⟨h3, sorted, T', R⟩ | ⟨h2, rfl⟩
  · have := hU.det R.unfolds
    subst this
    change bvh.bounds.clean.Within c
    rw [Bvh.bounds_eq hU]
    refine (locTree_bounds hn T R.loc).2.1 c ?_
    intro p hp
    have hpl : p < (b.boxes order).length := by
      rw [show bvh.indices = sorted from R.indices] at hids
      have := hids.mem_iff.1 hp
      rw [hlen]; simpa using this
    exact hc.padded (hb _ (boxAt_mem hpl))
  · exact hc.union hb

theorem spatial_within (b : Builder F) (split : Nat → Fin 3 → F → Aabb F × Aabb F)
    (sort : Fin 3 → List (Ref F) → Option (List (Ref F))) (order ks : List Nat) (h : b.LegalSpatial order sort)
    (bvh : Bvh F) (e : b.constructSpatialSah split sort order ks = .ok (.ok (some bvh)))
    {c : Aabb F} (hc : Absorbing c) (hb : ∀ a ∈ b.boxes order, a.Within c) : bvh.bounds.Within c := by
  obtain ⟨B, hU, hB, _⟩ := spatial_built h e
  have hu := hc.union hb
  change bvh.bounds.clean.Within c
  rw [Bvh.bounds_eq hU]
  unfold spatialRootTree at hB
  rw [show (b.spatialCtx split sort order).maxDepth = 64 from rfl,
    show (b.spatialCtx split sort order).aabbs = b.boxes order from rfl] at hB
  unfold spatialTree at hB
  split at hB
  · cases hB
  · simp only [Except.ok.injEq] at hB
    cases B with
    | leaf bd f n => simp only [BTree.withIds, IdTree.leaf.injEq] at hB; rw [show (BTree.leaf bd f n).bounds = bd from rfl, ← hB.1]; exact hu
    | node bd l r => simp [BTree.withIds] at hB
  · obtain ⟨L, R, _, _, hT⟩ := combine_ok hB
    cases B with
    | leaf bd f n => simp [BTree.withIds] at hT
    | node bd l r => simp only [BTree.withIds, IdTree.node.injEq] at hT; rw [show (BTree.node bd l r).bounds = bd from rfl, hT.1]; exact hc.padded hu

end lawful

/-- Everything up to `m` on `axis`. -/
def upTo (axis : Fin 3) (m : F32) : Aabb F32 :=
  { min := Vec3.splat (.inf true), extra1 := 0, extra2 := 0
    max := match axis with
      | 0 => ⟨m, .inf false, .inf false⟩
      | 1 => ⟨.inf false, m, .inf false⟩
      | 2 => ⟨.inf false, .inf false, m⟩ }

/-- Everything from `m` on `axis`. -/
def downTo (axis : Fin 3) (m : F32) : Aabb F32 :=
  { max := Vec3.splat (.inf false), extra1 := 0, extra2 := 0
    min := match axis with
      | 0 => ⟨m, .inf true, .inf true⟩
      | 1 => ⟨.inf true, m, .inf true⟩
      | 2 => ⟨.inf true, .inf true, m⟩ }

theorem le_inf {x : F32} (h : Num x) : (x <=. (.inf false : F32)) = true ∧ ((.inf true : F32) <=. x) = true := by
  have hb := F32.ord_bounds x
  constructor
  · show F32.le _ _ = true; rw [F32.le_iff]; exact ⟨h, rfl, hb.2⟩
  · show F32.le _ _ = true; rw [F32.le_iff]; exact ⟨rfl, h, hb.1⟩

theorem far_abs {m : F32} (h : (lit 2048 0 <. m) = true) : (lit 2048 0 <. FloatOps.abs m) = true := by
  change F32.lt (F32.lit 2048 0) m = true at h
  show F32.lt (F32.lit 2048 0) (F32.abs m) = true
  rw [F32.lt_iff'] at h ⊢
  rw [F32.isNaN_abs, F32.ord_abs]
  exact ⟨h.1, h.2.1, by omega⟩

theorem far_abs' {m : F32} (h : (m <. lit (-2048) 0) = true) : (lit 2048 0 <. FloatOps.abs m) = true := by
  change F32.lt m (F32.lit (-2048) 0) = true at h
  show F32.lt (F32.lit 2048 0) (F32.abs m) = true
  have e1 : (F32.lit (-2048) 0).ord = -2 ^ 160 := by decide +kernel
  have e2 : (F32.lit 2048 0).ord = 2 ^ 160 := by decide +kernel
  rw [F32.lt_iff', e1] at h
  rw [F32.lt_iff', F32.isNaN_abs, F32.ord_abs, e2]
  exact ⟨rfl, h.1, by omega⟩

theorem upTo_absorbing (axis : Fin 3) {m : F32} (h : (lit 2048 0 <. m) = true) : Absorbing (upTo axis m) := by
  have hm := (f32_pad_absorbed (far_abs h)).2
  have hi : FloatOps.add (.inf false : F32) (lit 1 (-4)) = .inf false := by decide +kernel
  have lo : FloatOps.sub (.inf true : F32) (lit 1 (-4)) = .inf true := by decide +kernel
  have h1 : (lit (-1) 34 <=. m) = true := by
    have a : (lit (-1) 34 <=. (lit 2048 0 : F32)) = true := by decide +kernel
    exact le_trans a (lt_le h)
  have h2 : (lit (-1) 34 <=. (.inf false : F32)) = true := by decide +kernel
  have h3 : ((.inf true : F32) <=. lit 1 34) = true := by decide +kernel
  constructor
  · unfold offsetBy upTo
    match axis with
    | 0 | 1 | 2 => simp only [Vec3.sub, Vec3.add, Vec3.map2, Vec3.splat, hm, hi, lo]
  · match axis with
    | 0 => exact ⟨⟨h3, h3, h3⟩, h1, h2, h2⟩
    | 1 => exact ⟨⟨h3, h3, h3⟩, h2, h1, h2⟩
    | 2 => exact ⟨⟨h3, h3, h3⟩, h2, h2, h1⟩

theorem downTo_absorbing (axis : Fin 3) {m : F32} (h : (m <. lit (-2048) 0) = true) : Absorbing (downTo axis m) := by
  have hm := (f32_pad_absorbed (far_abs' h)).1
  have hi : FloatOps.add (.inf false : F32) (lit 1 (-4)) = .inf false := by decide +kernel
  have lo : FloatOps.sub (.inf true : F32) (lit 1 (-4)) = .inf true := by decide +kernel
  have h1 : (m <=. lit 1 34) = true := by
    have a : (lit (-2048) 0 <=. (lit 1 34 : F32)) = true := by decide +kernel
    exact le_trans (lt_le h) a
  have h2 : (lit (-1) 34 <=. (.inf false : F32)) = true := by decide +kernel
  have h3 : ((.inf true : F32) <=. lit 1 34) = true := by decide +kernel
  constructor
  · unfold offsetBy downTo
    match axis with
    | 0 | 1 | 2 => simp only [Vec3.sub, Vec3.add, Vec3.map2, Vec3.splat, hm, hi, lo]
  · match axis with
    | 0 => exact ⟨⟨h1, h3, h3⟩, h2, h2, h2⟩
    | 1 => exact ⟨⟨h3, h1, h3⟩, h2, h2, h2⟩
    | 2 => exact ⟨⟨h3, h3, h1⟩, h2, h2, h2⟩

theorem within_upTo {a : Aabb F32} (axis : Fin 3) {m : F32} (hn : a.Numeric) (h : (a.max.get axis <=. m) = true) :
    a.Within (upTo axis m) := by
  obtain ⟨⟨n1, n2, n3⟩, n4, n5, n6⟩ := hn
  match axis with
  | 0 => exact ⟨⟨(le_inf n1).2, (le_inf n2).2, (le_inf n3).2⟩, h, (le_inf n5).1, (le_inf n6).1⟩
  | 1 => exact ⟨⟨(le_inf n1).2, (le_inf n2).2, (le_inf n3).2⟩, (le_inf n4).1, h, (le_inf n6).1⟩
  | 2 => exact ⟨⟨(le_inf n1).2, (le_inf n2).2, (le_inf n3).2⟩, (le_inf n4).1, (le_inf n5).1, h⟩

theorem within_downTo {a : Aabb F32} (axis : Fin 3) {m : F32} (hn : a.Numeric) (h : (m <=. a.min.get axis) = true) :
    a.Within (downTo axis m) := by
  obtain ⟨⟨n1, n2, n3⟩, n4, n5, n6⟩ := hn
  match axis with
  | 0 => exact ⟨⟨h, (le_inf n2).2, (le_inf n3).2⟩, (le_inf n4).1, (le_inf n5).1, (le_inf n6).1⟩
  | 1 => exact ⟨⟨(le_inf n1).2, h, (le_inf n3).2⟩, (le_inf n4).1, (le_inf n5).1, (le_inf n6).1⟩
  | 2 => exact ⟨⟨(le_inf n1).2, (le_inf n2).2, h⟩, (le_inf n4).1, (le_inf n5).1, (le_inf n6).1⟩

theorem f32_lt_irrefl {x : F32} : (x <. x) = false := by
  cases e : (x <. x) with
  | false => rfl
  | true =>
    change F32.lt x x = true at e
    rw [F32.lt_iff'] at e
    omega

theorem not_in_upTo {a : Aabb F32} (axis : Fin 3) {v : Vec3 F32} (h : a.Within (upTo axis (v.get axis))) :
    a.contains v = false := by
  cases e : a.contains v with
  | false => rfl
  | true =>
    have := contains_mono h e
    unfold Aabb.contains Vec3.allGt Vec3.allLt at this
    simp only [Bool.and_eq_true] at this
    match axis with
    | 0 => have := this.2.1.1; rw [show (upTo 0 (v.get 0)).max.x = v.x from rfl, f32_lt_irrefl] at this; cases this
    | 1 => have := this.2.1.2; rw [show (upTo 1 (v.get 1)).max.y = v.y from rfl, f32_lt_irrefl] at this; cases this
    | 2 => have := this.2.2; rw [show (upTo 2 (v.get 2)).max.z = v.z from rfl, f32_lt_irrefl] at this; cases this

theorem not_in_downTo {a : Aabb F32} (axis : Fin 3) {v : Vec3 F32} (h : a.Within (downTo axis (v.get axis))) :
    a.contains v = false := by
  cases e : a.contains v with
  | false => rfl
  | true =>
    have := contains_mono h e
    unfold Aabb.contains Vec3.allGt Vec3.allLt at this
    simp only [Bool.and_eq_true] at this
    match axis with
    | 0 => have := this.1.1.1; change (v.x <. v.x) = true at this; rw [f32_lt_irrefl] at this; cases this
    | 1 => have := this.1.1.2; change (v.y <. v.y) = true at this; rw [f32_lt_irrefl] at this; cases this
    | 2 => have := this.1.2; change (v.z <. v.z) = true at this; rw [f32_lt_irrefl] at this; cases this

/-- `v` is an outermost point of the scene beyond 2048: on some axis no box reaches further up than `v`, which lies above
2048, or no box reaches further down than `v`, which lies below -2048. -/
def FarOutermost (boxes : List (Aabb F32)) (v : Vec3 F32) : Prop :=
  ∃ axis : Fin 3, ((lit 2048 0 <. v.get axis) = true ∧ ∀ a ∈ boxes, (a.max.get axis <=. v.get axis) = true) ∨
    ((v.get axis <. lit (-2048) 0) = true ∧ ∀ a ∈ boxes, (v.get axis <=. a.min.get axis) = true)

theorem FarOutermost.missed {boxes : List (Aabb F32)} {v : Vec3 F32} (h : FarOutermost boxes v)
    (hn : ∀ a ∈ boxes, a.Numeric) {bd : Aabb F32}
    (hw : ∀ c : Aabb F32, Absorbing c → (∀ a ∈ boxes, a.Within c) → bd.Within c) : bd.contains v = false := by
  obtain ⟨axis, ⟨h1, h2⟩ | ⟨h1, h2⟩⟩ := h
  · exact not_in_upTo axis (hw _ (upTo_absorbing axis h1) (fun a ha => within_upTo axis (hn a ha) (h2 a ha)))
  · exact not_in_downTo axis (hw _ (downTo_absorbing axis h1) (fun a ha => within_downTo axis (hn a ha) (h2 a ha)))

/-- C55 fails for every scene beyond 2048, binned builder: an outermost point is not strictly inside `bounds()`. -/
theorem C55_binned_far (b : Builder F32) (order ks : List Nat) (h : b.Legal order) (bvh : Bvh F32)
    (e : b.constructBinnedSah order ks = .ok (some (some bvh))) (hn : ∀ a ∈ b.boxes order, a.Numeric)
    (v : Vec3 F32) (hv : FarOutermost (b.boxes order) v) : bvh.bounds.contains v = false :=
  hv.missed hn (fun _ hc hb => binned_within b order ks h bvh e hc hb)

/-- C55 fails for every scene beyond 2048, clustering builder. -/
theorem C55_locb_far (b : Builder F32) (order : List Nat) (h : b.Legal order) (t fuel : Nat) (ht : 0 < t)
    (hs : b.primitives.length ≤ 2 ^ 29) (bvh : Bvh F32) (e : b.constructLocb order t fuel = .ok (some (some bvh)))
    (hn : ∀ a ∈ b.boxes order, a.Numeric) (v : Vec3 F32) (hv : FarOutermost (b.boxes order) v) :
    bvh.bounds.contains v = false :=
  hv.missed hn (fun _ hc hb => locb_within b order h t fuel ht hs bvh e hc hb)

/-- C55 fails for every scene beyond 2048, spatial builder. -/
theorem C55_spatial_far (b : Builder F32) (split : Nat → Fin 3 → F32 → Aabb F32 × Aabb F32)
    (sort : Fin 3 → List (Ref F32) → Option (List (Ref F32))) (order ks : List Nat) (h : b.LegalSpatial order sort)
    (bvh : Bvh F32) (e : b.constructSpatialSah split sort order ks = .ok (.ok (some bvh)))
    (hn : ∀ a ∈ b.boxes order, a.Numeric) (v : Vec3 F32) (hv : FarOutermost (b.boxes order) v) :
    bvh.bounds.contains v = false :=
  hv.missed hn (fun _ hc hb => spatial_within b split sort order ks h bvh e hc hb)

/-- The threshold is exact: at 2048 itself `x + 1e-4` is absorbed and `x - 1e-4` is not. -/
theorem pad_at_2048 : (lit 2048 0 : F32) +. lit 1 (-4) = lit 2048 0 ∧
    ((lit 2048 0 : F32) -. lit 1 (-4) <. lit 2048 0) = true := by decide +kernel

/-- Not vacuous: four cubes, the outermost corner at `x = 2100`. -/
example : (cubeScene [(20, 1), (0, 1), (2090, 10), (10, 1)] none : Builder F32).Legal [0, 1, 2, 3] ∧
    (built ((cubeScene [(20, 1), (0, 1), (2090, 10), (10, 1)] none : Builder F32).constructBinnedSah [0, 1, 2, 3]
      (List.replicate 10 0))).isSome = true ∧
    FarOutermost ((cubeScene [(20, 1), (0, 1), (2090, 10), (10, 1)] none : Builder F32).boxes [0, 1, 2, 3])
      ⟨lit 2100 0, lit 0 0, lit 0 0⟩ := by
  refine ⟨cubeScene_legal _ _ (by decide) (by decide), by decide +kernel, 0, .inl ⟨by decide +kernel, ?_⟩⟩
  decide +kernel

end Rtbvh
