import Verif.Proofs.Refit
import Verif.Proofs.BinnedLinks
import Verif.Proofs.F32Pad
import Verif.Props.BinnedBounds
import Verif.Props.Validate
/- Properties C18 (refit recomputes containing bounds) and C55 (bounds() strictly contains the scene). -/
namespace Rtbvh
open Aabb FloatOps
variable {F : Type} [FloatOps F]

/-- C18 (first part). `refit` does not panic on a BVH with all links in range and children behind their parents, if
every stored id has a new box; it changes neither the index array nor the number of nodes. -/
theorem C18_refit_total (b : Bvh F) (newAabbs : List (Aabb F)) (hl : b.LinksOk) (hn : b.nodes.length < 2 ^ 31)
    (hi : b.indices.length < 2 ^ 31) (hids : ∀ p ∈ b.indices, p < newAabbs.length) :
    ∃ b', b.refit newAabbs = some b' ∧ b'.indices = b.indices ∧ b'.nodes.length = b.nodes.length := by
  obtain ⟨nodes', e⟩ := refitLoop_total hn hi hids b.nodes.length b.nodes rfl (Nat.le_refl _) (fun j _ nd h => hl j nd h)
  refine ⟨{ b with nodes := nodes' }, by unfold Bvh.refit; simp only [Bvh.indices] at e; rw [e]; rfl, rfl, ?_⟩
  exact (refitLoop_links _ _ _ e).1

/-- C18. Under floating-point rounding (any lawful float type): after `refit`, the box of every node contains the new
box of every primitive that was below that node before the call, if the new boxes are numbers and children lie behind
their parents. -/
theorem C18_refit_contains [LawfulFloat F] (b b' : Bvh F) (newAabbs : List (Aabb F)) (hl : b.LinksOk)
    (hn : b.nodes.length < 2 ^ 31) (hi : b.indices.length < 2 ^ 31) (hnum : ∀ a ∈ newAabbs, a.Numeric)
    (e : b.refit newAabbs = some b') (i : Nat) (T : BTree F) (hU : Unfolds b.nodes i T) (hR : T.RangesIn b.indices)
    (p : Nat) (hp : p ∈ T.ids b.indices) :
    ∃ nd', b'.nodes[i]? = some nd' ∧ (boxAt newAabbs p).Within nd'.bounds := by
  unfold Bvh.refit at e
  rw [Option.map_eq_some_iff] at e
  obtain ⟨nodes', e, rfl⟩ := e
  have hlen := (refitLoop_links _ _ _ e).1
  have hi' : i < nodes'.length := by
    rw [hlen]
    cases hU with
    | leaf h => exact (List.getElem?_eq_some_iff.1 h).1
    | node h => exact (List.getElem?_eq_some_iff.1 h).1
  refine ⟨nodes'[i], List.getElem?_eq_getElem hi', ?_⟩
  refine (refitLoop_contains (orig := b.nodes) (idx := b.indices) (bbs := newAabbs) hnum hi ?_ b.nodes.length b.nodes
    nodes' rfl (fun _ _ => rfl) ?_ e i nodes'[i] (List.getElem?_eq_getElem hi')).2 T hU hR p hp
  · intro j nd hnd h1 h2
    have := (hl j nd hnd).2 h1
    omega
  · intro j hj nd hnd
    have := (List.getElem?_eq_some_iff.1 hnd).1
    omega

/-- C18 for the binned builder: every BVH it returns satisfies the link hypotheses, so `refit` with one new box per
primitive never panics. -/
theorem C18_refit_after_binned (b : Builder F) (order ks : List Nat) (h : b.Legal order) (bvh : Bvh F)
    (e : b.constructBinnedSah order ks = .ok (some (some bvh))) :
    bvh.LinksOk ∧ ∀ newAabbs : List (Aabb F), newAabbs.length = b.primitives.length →
      ∃ bvh', bvh.refit newAabbs = some bvh' := by
  have hl := binned_linksOk h e
  obtain ⟨hp, _⟩ := C03_binned_partition b order ks h bvh e
  have hlen := (C02_binned_completes b order h).2.2 ks bvh e
  have hsmall := h.small
  refine ⟨hl, fun newAabbs hn => ?_⟩
  obtain ⟨b', e', _⟩ := C18_refit_total bvh newAabbs hl (by omega) (by rw [hp.length_eq]; simp; omega)
    (by intro p hp'; rw [hn]; simpa using hp.mem_iff.1 hp')
  exact ⟨b', e'⟩

/-- Non-vacuity: the BVH of the demo scene in binary32 is refitted to moved cubes; the new root box reaches to 101. -/
example : ((builtTree ((cubeScene [(20, 1), (0, 1), (30, 1), (10, 1)] none : Builder F32).constructBinnedSah
    (List.range 4) (List.replicate 10 0))).bind fun x =>
      x.1.refit ((cubeScene [(20, 1), (0, 1), (100, 1), (10, 1)] none : Builder F32).boxes [])).map
      (fun b => (b.nodes.length, (b.nodes.map fun n => decide ((lit 100 0 : F32) <. n.bounds.max.x)))) =
    some (7, [true, false, true, false, false, false, true]) := by decide +kernel

/-! C55 -/

/-- The padding constant moves the coordinate: it is not absorbed by rounding. -/
def PadStrict (x : F) : Prop := (x -. lit 1 (-4) <. x) = true ∧ (x <. x +. lit 1 (-4)) = true

section lawful
variable [LawfulFloat F]
open LawfulFloat

theorem contains_mono {a b : Aabb F} (h : a.Within b) {v : Vec3 F} (hv : a.contains v = true) : b.contains v = true := by
  unfold Aabb.contains Vec3.allGt Vec3.allLt at hv ⊢
  simp only [Bool.and_eq_true] at hv ⊢
  obtain ⟨⟨⟨v1, v2⟩, v3⟩, ⟨v4, v5⟩, v6⟩ := hv
  exact ⟨⟨⟨lt_of_le_of_lt' h.1.1 v1, lt_of_le_of_lt' h.1.2.1 v2⟩, lt_of_le_of_lt' h.1.2.2 v3⟩,
    ⟨lt_of_lt_of_le' v4 h.2.1, lt_of_lt_of_le' v5 h.2.2.1⟩, lt_of_lt_of_le' v6 h.2.2.2⟩

theorem contains_offset {a : Aabb F} {v : Vec3 F} (h : a.Has v) (hs : PadStrict v.x ∧ PadStrict v.y ∧ PadStrict v.z) :
    (a.offsetBy (lit 1 (-4))).contains v = true := by
  have hf : Fin' (lit 1 (-4) : F) := lit_fin (by decide) (by decide) (by decide)
  have lo : ∀ {m x : F}, (m <=. x) = true → PadStrict x → (m -. lit 1 (-4) <. x) = true := by
    intro m x hm hx
    exact lt_of_le_of_lt' (sub_mono _ hm (sub_fin (le_num hm).1 hf) (sub_fin (le_num hm).2 hf)) hx.1
  have hi : ∀ {m x : F}, (x <=. m) = true → PadStrict x → (x <. m +. lit 1 (-4)) = true := by
    intro m x hm hx
    exact lt_of_lt_of_le' hx.2 (add_mono _ hm (add_fin (le_num hm).1 hf) (add_fin (le_num hm).2 hf))
  unfold Aabb.contains Vec3.allGt Vec3.allLt
  simp only [Bool.and_eq_true]
  exact ⟨⟨⟨lo h.1.1 hs.1, lo h.1.2.1 hs.2.1⟩, lo h.1.2.2 hs.2.2⟩,
    ⟨hi h.2.1 hs.1, hi h.2.2.1 hs.2.1⟩, hi h.2.2.2 hs.2.2⟩

omit [LawfulFloat F] in
/-- `bounds()` of a BVH is the box at the root of its tree. -/
theorem Bvh.bounds_eq {b : Bvh F} {T : BTree F} (h : Unfolds b.nodes 0 T) : b.bounds.clean = T.bounds := by
  unfold Bvh.bounds
  cases e : b.nodes with
  | nil =>
    rw [e] at h
    cases h with
    | leaf h => simp at h
    | node h => simp at h
  | cons n l =>
    rw [e] at h
    cases h with
    | leaf h => simp at h; subst h; rfl
    | node h => simp at h; subst h; rfl

/-- C55 for the binned builder, over any lawful float type: a point of an input box is strictly inside `bounds()`,
provided the padding constant is not absorbed by rounding at its coordinates. -/
theorem C55_binned_contains_padded (b : Builder F) (order ks : List Nat) (h : b.Legal order) (bvh : Bvh F)
    (e : b.constructBinnedSah order ks = .ok (some (some bvh))) (hn : ∀ a ∈ b.boxes order, a.Numeric)
    (a : Aabb F) (ha : a ∈ b.boxes order) (v : Vec3 F) (hv : a.Has v)
    (hs : PadStrict v.x ∧ PadStrict v.y ∧ PadStrict v.z) : bvh.bounds.contains v = true := by
  obtain ⟨_, T, hU, _⟩ := C03_binned_partition b order ks h bvh e
  obtain ⟨hb, _⟩ := built_tree h e hU
  have h1 := (foldl_growBB hn new_numeric).2 a ha
  have h2 : (unionOfList (b.boxes order)).contains v = true := contains_offset (h1.has hv) hs
  have hun : (unionOfList (b.boxes order)).Numeric := (unionOfList_contains hn a ha).num_right
  have h3 : (unionOfList (b.boxes order)).Within T.bounds := by
    have hpad := within_pad (Within.refl hun)
    unfold buildTree at hb
    split at hb
    · cases hb
    · simp only [Option.some.injEq, Prod.mk.injEq] at hb
      obtain ⟨rfl, _⟩ := hb
      exact within_pad hpad
    · split at hb
      · simp only [Option.some.injEq, Prod.mk.injEq] at hb
        obtain ⟨rfl, _⟩ := hb
        exact hpad
      · cases hb
  rw [← Bvh.bounds_eq hU] at h3
  exact contains_mono (b := bvh.bounds) h3 h2

end lawful

/-- C55 for the binned builder in exact arithmetic: no restriction. -/
theorem C55_binned_contains_exact (b : Builder Rat) (order ks : List Nat) (h : b.Legal order) (bvh : Bvh Rat)
    (e : b.constructBinnedSah order ks = .ok (some (some bvh)))
    (a : Aabb Rat) (ha : a ∈ b.boxes order) (v : Vec3 Rat) (hv : a.Has v) : bvh.bounds.contains v = true := by
  have hs : ∀ x : Rat, PadStrict x := by
    intro x
    have : (0 : Rat) < FloatOps.lit 1 (-4) := by
      show (0 : Rat) < ((1 : Int) : Rat) * ratPow10 (-4)
      have := ratPow10_pos (-4)
      simpa using this
    constructor
    · rw [rat_lt]; show x - _ < x; linarith
    · rw [rat_lt]; show x < x + _; linarith
  exact C55_binned_contains_padded b order ks h bvh e (fun a _ => ⟨⟨rfl, rfl, rfl⟩, ⟨rfl, rfl, rfl⟩⟩) a ha v hv
    ⟨hs _, hs _, hs _⟩

/-- C55 for the binned builder in binary32: true for points with coordinates of magnitude below 2048. -/
theorem C55_binned_contains_f32_partial (b : Builder F32) (order ks : List Nat) (h : b.Legal order) (bvh : Bvh F32)
    (e : b.constructBinnedSah order ks = .ok (some (some bvh))) (hn : ∀ a ∈ b.boxes order, a.Numeric)
    (a : Aabb F32) (ha : a ∈ b.boxes order) (v : Vec3 F32) (hv : a.Has v)
    (hx : (FloatOps.abs v.x <. lit 2048 0) = true) (hy : (FloatOps.abs v.y <. lit 2048 0) = true)
    (hz : (FloatOps.abs v.z <. lit 2048 0) = true) : bvh.bounds.contains v = true :=
  C55_binned_contains_padded b order ks h bvh e hn a ha v hv ⟨f32_pad_strict hx, f32_pad_strict hy, f32_pad_strict hz⟩

/-- C55 is false in binary32 for large coordinates: a corner of the only box, at `x = 3001`, is not strictly inside. -/
theorem C55_far_scene_counterexample : ∃ bvh : Bvh F32,
    (cubeScene [(3000, 1)] none : Builder F32).Legal [0] ∧
    (cubeScene [(3000, 1)] none : Builder F32).constructBinnedSah [0] [0] = .ok (some (some bvh)) ∧
    (boxAt ((cubeScene [(3000, 1)] none : Builder F32).boxes [0]) 0).Has ⟨lit 3001 0, lit 0 0, lit 0 0⟩ ∧
    bvh.bounds.contains ⟨lit 3001 0, lit 0 0, lit 0 0⟩ = false := by
  have key : (built ((cubeScene [(3000, 1)] none : Builder F32).constructBinnedSah [0] [0])).map
      (fun bvh => bvh.bounds.contains ⟨lit 3001 0, lit 0 0, lit 0 0⟩) = some false := by decide +kernel
  rw [Option.map_eq_some_iff] at key
  obtain ⟨bvh, h1, h2⟩ := key
  refine ⟨bvh, cubeScene_legal _ _ (by decide) (by decide), built_some h1, ?_, h2⟩
  unfold Aabb.Has; decide +kernel

/-- Non-vacuity: a corner of a cube of the demo scene. -/
example : ((cubeScene [(20, 1), (0, 1), (30, 1), (10, 1)] none : Builder F32).boxes []).all (fun a => a.contains ⟨lit 20 0, lit 0 0, lit 0 0⟩ ||
    (FloatOps.abs (lit 31 0 : F32) <. lit 2048 0)) = true ∧
    (boxAt ((cubeScene [(20, 1), (0, 1), (30, 1), (10, 1)] none : Builder F32).boxes []) 2).Has ⟨lit 31 0, lit 1 0, lit (-1) 0⟩ := by
  unfold Aabb.Has; decide +kernel

end Rtbvh
