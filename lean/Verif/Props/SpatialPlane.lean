import Verif.Proofs.SpatialPlane
import Verif.Proofs.ExactLaws
import Verif.Props.SpatialFault
import Mathlib.Tactic.FieldSimp
import Mathlib.Tactic.Linarith
/- C77, C78: the clipping plane of the spatial builder. -/
namespace Rtbvh
open FloatOps LawfulFloat
variable {F : Type} [FloatOps F]

/-! ### The plane is determined by the specification -/

section
variable [LawfulFloat F]

theorem lt_irrefl' {a : F} : (a <. a) = false := by
  cases e : (a <. a) with
  | false => rfl
  | true =>
    rw [lt_iff] at e
    rw [le_refl e.1] at e
    exact absurd e.2.2 (by simp)

theorem Slabs.Improves.not_keeps {s : Slabs F} {prims : List (SpatialPrim F)} {refs : List (Ref F)}
    {best new : SpatialSplit F} (h : s.Improves prims refs best new) : ¬ s.Keeps prims refs best := by
  obtain ⟨j, h1, _, h2, _⟩ := h
  intro hk
  rw [hk j h1] at h2
  cases h2

theorem Slabs.Improves.det {s : Slabs F} {prims : List (SpatialPrim F)} {refs : List (Ref F)}
    {best new new' : SpatialSplit F} (h : s.Improves prims refs best new) (h' : s.Improves prims refs best new') :
    new = new' := by
  obtain ⟨i, a1, a2, a3, a4, a5⟩ := h
  obtain ⟨j, b1, b2, b3, b4, b5⟩ := h'
  have key : ∀ {i j}, (s.cost prims refs i <. best.cost) = true → (s.cost prims refs j <. best.cost) = true →
      (s.cost prims refs j <. s.cost prims refs i) = false →
      (∀ k, k < j → (s.cost prims refs k <=. s.cost prims refs j) = false) → ¬ i < j := by
    intro i j h1 h2 h3 h4 hlt
    have := h4 i hlt
    have : (s.cost prims refs j <. s.cost prims refs i) = true := lt_iff.2 ⟨(lt_iff.1 h2).1, (lt_iff.1 h1).1, this⟩
    rw [h3] at this
    cases this
  have : i = j := by
    have := key a3 b3 (a4 j b1) b5
    have := key b3 a3 (b4 i a1) a5
    omega
  subst this
  rw [a2, b2]

theorem Passes.det {ctx : SpatialCtx F} {refs : List (Ref F)} {axis : Fin 3} {k : Nat} {lo hi : F}
    {best p p' : SpatialSplit F} (h : Passes ctx refs axis k lo hi best p) (h' : Passes ctx refs axis k lo hi best p') :
    p = p' := by
  induction h with
  | done => cases h'; rfl
  | keep _ hk =>
    cases h' with
    | keep => rfl
    | better _ hb => exact absurd hk hb.not_keeps
  | better _ hb _ ih =>
    cases h' with
    | keep _ hk => exact absurd hk hb.not_keeps
    | better _ hb' hk' =>
      obtain rfl := hb.det hb'
      exact ih hk'

theorem PassPanics.not_passes {ctx : SpatialCtx F} {refs : List (Ref F)} {axis : Fin 3} {k : Nat} {lo hi : F}
    {best p : SpatialSplit F} (h : PassPanics ctx refs axis k lo hi best) : ¬ Passes ctx refs axis k lo hi best p := by
  induction h with
  | here hr hp =>
    intro h'
    cases h' with
    | keep hq => exact hq _ hr hp
    | better hq => exact hq _ hr hp
  | later hb _ ih =>
    intro h'
    cases h' with
    | keep _ hk => exact absurd hk hb.not_keeps
    | better _ hb' hk' =>
      obtain rfl := hb.det hb'
      exact ih hk'

theorem ClipPlane.det {ctx : SpatialCtx F} {B : Aabb F} {refs : List (Ref F)} {p p' : SpatialSplit F}
    (h : ClipPlane ctx B refs p) (h' : ClipPlane ctx B refs p') : p = p' := by
  obtain ⟨px, py, a1, a2, a3⟩ := h
  obtain ⟨qx, qy, b1, b2, b3⟩ := h'
  obtain rfl := a1.det b1
  obtain rfl := a2.det b2
  exact a3.det b3

theorem ClipPanics.not_plane {ctx : SpatialCtx F} {B : Aabb F} {refs : List (Ref F)} {p : SpatialSplit F}
    (h : ClipPanics ctx B refs) : ¬ ClipPlane ctx B refs p := by
  rintro ⟨px, py, a1, a2, a3⟩
  rcases h with h | ⟨qx, b1, h | ⟨qy, b2, h⟩⟩
  · exact h.not_passes a1
  · obtain rfl := a1.det b1
    exact h.not_passes a2
  · obtain rfl := a1.det b1
    obtain rfl := a2.det b2
    exact h.not_passes a3

/-- C77: the search for a clipping plane at a node returns the plane that the specification determines, and panics exactly
where the specification says so; there is no third case.  The rule of C75 says which nodes look for a plane and use it. -/
theorem C77_plane_rule (ctx : SpatialCtx F) (B : Aabb F) (refs : List (Ref F)) :
    (∀ p, findSpatialSplit ctx B refs = some p ↔ ClipPlane ctx B refs p) ∧
    (findSpatialSplit ctx B refs = none ↔ ClipPanics ctx B refs) ∧
    ((∃ p, ClipPlane ctx B refs p ∧ ∀ p', ClipPlane ctx B refs p' → p' = p) ∧ ¬ ClipPanics ctx B refs ∨
      (∀ p, ¬ ClipPlane ctx B refs p) ∧ ClipPanics ctx B refs) := by
  cases e : findSpatialSplit ctx B refs with
  | some p =>
    have h := findSpatialSplit_spec e
    refine ⟨fun p' => ⟨fun h' => ?_, fun h' => by rw [h.det h']⟩, ⟨fun h' => (by cases h'), fun h' => absurd h h'.not_plane⟩,
      .inl ⟨⟨p, h, fun p' h' => h'.det h⟩, fun h' => h'.not_plane h⟩⟩
    cases h'; exact h
  | none =>
    have h := findSpatialSplit_panics e
    exact ⟨fun p' => ⟨fun h' => (by cases h'), fun h' => absurd h' h.not_plane⟩, ⟨fun _ => h, fun _ => rfl⟩,
      .inr ⟨fun p => h.not_plane, h⟩⟩

/-! ### What the code takes for the left box -/

namespace Slabs
variable {s : Slabs F} {prims : List (SpatialPrim F)} {refs : List (Ref F)}

/-- No part has a NaN bound. -/
def NoNaNParts (s : Slabs F) (prims : List (SpatialPrim F)) (refs : List (Ref F)) : Prop :=
  ∀ r ∈ usable refs, ∀ j b, s.part prims r j = some b → b.Numeric

theorem slabBox_numeric (h : s.NoNaNParts prims refs) (j : Nat) : (s.slabBox prims refs j).Numeric := by
  unfold slabBox
  have hn : ∀ b ∈ (usable refs).filterMap fun r => s.part prims r j, b.Numeric := by
    intro b hb
    obtain ⟨r, hr, e⟩ := List.mem_filterMap.1 hb
    exact h r hr j b e
  exact (Aabb.foldl_growBB hn Aabb.new_numeric).1.num_right

omit [LawfulFloat F] in
theorem boxFrom_succ {j : Nat} (hj : j < s.count) :
    s.boxFrom prims refs j = (s.boxFrom prims refs (j + 1)).growBB (s.slabBox prims refs j) := by
  unfold boxFrom
  rw [show s.count - j = (s.count - (j + 1)) + 1 by omega, List.range'_succ, List.foldr_cons]

theorem boxFrom_numeric (h : s.NoNaNParts prims refs) : ∀ k j, j + k = s.count → (s.boxFrom prims refs j).Numeric
  | 0, j, hj => by
    unfold boxFrom
    rw [show s.count - j = 0 by omega]
    exact Aabb.new_numeric
  | k + 1, j, hj => by
    rw [boxFrom_succ (by omega)]
    exact Aabb.growBB_numeric (boxFrom_numeric h k (j + 1) (by omega)) (slabBox_numeric h j)

theorem boxFrom_within (h : s.NoNaNParts prims refs) : ∀ j, j ≤ s.count →
    (s.boxFrom prims refs j).Within (s.boxFrom prims refs 0)
  | 0, _ => .refl (boxFrom_numeric h s.count 0 (by omega))
  | j + 1, hj => by
    refine Aabb.Within.trans ?_ (boxFrom_within h j (by omega))
    rw [boxFrom_succ (s := s) (j := j) (by omega)]
    exact Aabb.within_growBB_left (boxFrom_numeric h (s.count - (j + 1)) (j + 1) (by omega)) (slabBox_numeric h j)

end Slabs

/-- C77, on the cost: the box whose area the code multiplies with the number of references left of a plane is, for every
plane, the box of all the parts on both sides. -/
theorem C77_left_box {s : Slabs F} {prims : List (SpatialPrim F)} {refs : List (Ref F)} (h : s.NoNaNParts prims refs)
    {j : Nat} (hj : j < s.count) : (s.leftBox prims refs j).Same (s.boxFrom prims refs 0) := by
  have hn : ∀ b ∈ (List.range (j + 1)).map (s.boxFrom prims refs), b.Numeric := by
    intro b hb
    obtain ⟨i, hi, rfl⟩ := List.mem_map.1 hb
    rw [List.mem_range] at hi
    exact Slabs.boxFrom_numeric h (s.count - i) i (by omega)
  constructor
  · unfold Slabs.leftBox
    refine Aabb.foldl_growBB_least ?_ ?_
    · intro b hb
      obtain ⟨i, hi, rfl⟩ := List.mem_map.1 hb
      rw [List.mem_range] at hi
      exact Slabs.boxFrom_within h i (by omega)
    · have := Slabs.boxFrom_within h s.count (Nat.le_refl _)
      have e : s.boxFrom prims refs s.count = Aabb.empty := by
        unfold Slabs.boxFrom
        rw [Nat.sub_self]; rfl
      rwa [e] at this
  · exact (Aabb.foldl_growBB hn Aabb.new_numeric).2 _ (List.mem_map.2 ⟨0, by simp, rfl⟩)

end

/-! ### Where the plane lies -/

/-- Proof device: a plane of an axis lies inside an interval. -/
def PlaneIn (a : Fin 3) (lo hi : Rat) (p : SpatialSplit Rat) : Prop :=
  p.axis = a ∧ lo ≤ p.position ∧ p.position ≤ hi ∧ (lo < hi → lo < p.position ∧ p.position < hi)

theorem Slabs.Improves.inside {axis : Fin 3} {c : Nat} {lo hi : Rat} (h : lo ≤ hi) {prims : List (SpatialPrim Rat)}
    {refs : List (Ref Rat)} {best new : SpatialSplit Rat} (hi' : (Slabs.of axis c lo hi).Improves prims refs best new) :
    PlaneIn axis lo hi new ∧ lo ≤ new.position -. (Slabs.of axis c lo hi).width ∧
      new.position +. (Slabs.of axis c lo hi).width ≤ hi ∧ 0 ≤ (Slabs.of axis c lo hi).width := by
  obtain ⟨j, hj, rfl, _⟩ := hi'
  have hj : j < c - 1 := hj
  have hw : (Slabs.of axis c lo hi).width = (hi - lo) / c := rfl
  have hp : (Slabs.of axis c lo hi).plane (j + 1) = lo + ((j + 1 : Nat) : Rat) * ((hi - lo) / c) := rfl
  have hc : (0 : Rat) < c := by
    have : 0 < c := by omega
    exact_mod_cast this
  have e : (hi - lo) = c * ((hi - lo) / c) := by field_simp
  have h0 : 0 ≤ (hi - lo) / c := div_nonneg (by linarith) hc.le
  have h1 : (1 : Rat) ≤ ((j + 1 : Nat) : Rat) := by exact_mod_cast (by omega : 1 ≤ j + 1)
  have h2 : ((j + 1 : Nat) : Rat) + 1 ≤ c := by exact_mod_cast (by omega : j + 1 + 1 ≤ c)
  have hneg : lo < hi → 0 < (hi - lo) / c := fun hl => div_pos (by linarith) hc
  generalize (hi - lo) / c = w at *
  show PlaneIn axis lo hi ⟨_, (Slabs.of axis c lo hi).plane (j + 1), axis⟩ ∧
    lo ≤ (Slabs.of axis c lo hi).plane (j + 1) - (Slabs.of axis c lo hi).width ∧
      (Slabs.of axis c lo hi).plane (j + 1) + (Slabs.of axis c lo hi).width ≤ hi ∧ _
  rw [hp, hw]
  unfold PlaneIn
  simp only []
  have q1 : w ≤ ((j + 1 : Nat) : Rat) * w := by nlinarith
  have q2 : ((j + 1 : Nat) : Rat) * w + w ≤ c * w := by nlinarith
  exact ⟨⟨trivial, by linarith, by linarith, fun hl => by have := hneg hl; constructor <;> linarith⟩, by linarith, by linarith, h0⟩

theorem Passes.inside {ctx : SpatialCtx Rat} {refs : List (Ref Rat)} {axis : Fin 3} {k : Nat} {lo hi : Rat}
    {best p : SpatialSplit Rat} (h : Passes ctx refs axis k lo hi best p) (hl : lo ≤ hi) :
    p = best ∨ PlaneIn axis lo hi p := by
  induction h with
  | done => exact .inl rfl
  | keep => exact .inl rfl
  | @better k lo hi best new final _ hb hk ih =>
    obtain ⟨h1, h2, h3, h4⟩ := hb.inside hl
    have hle : new.position -. (Slabs.of axis ctx.binCount lo hi).width ≤
        new.position +. (Slabs.of axis ctx.binCount lo hi).width := by
      show new.position - _ ≤ new.position + _
      linarith
    rcases ih hle with rfl | ⟨g1, g2, g3, g4⟩
    · exact .inr h1
    · refine .inr ⟨g1, by linarith, by linarith, fun hlt => ?_⟩
      by_cases hw : new.position -. (Slabs.of axis ctx.binCount lo hi).width <
          new.position +. (Slabs.of axis ctx.binCount lo hi).width
      · obtain ⟨q1, q2⟩ := g4 hw
        exact ⟨by linarith, by linarith⟩
      · obtain ⟨q1, q2⟩ := h1.2.2.2 hlt
        have hw' : new.position + (Slabs.of axis ctx.binCount lo hi).width ≤
          new.position - (Slabs.of axis ctx.binCount lo hi).width := not_lt.1 hw
        have g2' : new.position - (Slabs.of axis ctx.binCount lo hi).width ≤ final.position := g2
        have g3' : final.position ≤ new.position + (Slabs.of axis ctx.binCount lo hi).width := g3
        constructor <;> linarith

/-- C77 in exact arithmetic: the plane found at a node lies inside the node's box, and strictly inside if the box has an
extent along the plane's axis; unless no plane is cheaper than `f32::MAX`, and then none is used. -/
theorem C77_plane_inside {ctx : SpatialCtx Rat} {B : Aabb Rat} {refs : List (Ref Rat)} {p : SpatialSplit Rat}
    (h : ClipPlane ctx B refs p) (hB : ∀ a, B.min.get a ≤ B.max.get a) :
    p = noPlane ∨ B.min.get p.axis ≤ p.position ∧ p.position ≤ B.max.get p.axis ∧
      (B.min.get p.axis < B.max.get p.axis → B.min.get p.axis < p.position ∧ p.position < B.max.get p.axis) := by
  obtain ⟨px, py, h1, h2, h3⟩ := h
  have fin : ∀ {a : Fin 3} {q : SpatialSplit Rat}, PlaneIn a (B.min.get a) (B.max.get a) q →
      B.min.get q.axis ≤ q.position ∧ q.position ≤ B.max.get q.axis ∧
      (B.min.get q.axis < B.max.get q.axis → B.min.get q.axis < q.position ∧ q.position < B.max.get q.axis) := by
    rintro a q ⟨rfl, h1, h2, h3⟩
    exact ⟨h1, h2, h3⟩
  rcases h3.inside (hB 2) with rfl | h3
  · rcases h2.inside (hB 1) with rfl | h2
    · rcases h1.inside (hB 0) with rfl | h1
      · exact .inl rfl
      · exact .inr (fin (a := 0) h1)
    · exact .inr (fin (a := 1) h2)
  · exact .inr (fin (a := 2) h3)

/-! ### The cost is not the surface-area cost -/

/-- A box with whole coordinates. -/
def wholeBox (x0 y0 z0 x1 y1 z1 : Int) : Aabb F32 :=
  { min := ⟨lit x0 0, lit y0 0, lit z0 0⟩, max := ⟨lit x1 0, lit y1 0, lit z1 0⟩, extra1 := 0, extra2 := 0 }
/-- Two unit cubes and a cube of twice the size on the x axis. -/
def threeBoxes : List (Aabb F32) := [wholeBox 0 0 0 1 1 1, wholeBox 8 0 0 9 1 1, wholeBox 14 0 0 16 2 2]
/-- Their references. -/
def threeRefs : List (Ref F32) := threeBoxes.zipIdx.map fun (b, i) => ⟨b, b.center, i⟩
/-- The builder for them, `split` cutting boxes. -/
def threeCtx : SpatialCtx F32 :=
  .new threeBoxes (threeBoxes.map fun b => ⟨b.center, clipBox b⟩) none refSort
/-- The box of the three. -/
def threeRoot : Aabb F32 := wholeBox 0 0 0 16 2 2
/-- The first sixteen slabs. -/
def threeSlabs : Slabs F32 := .of 0 16 (lit 0 0) (lit 16 0)

/-- C78 is false, in binary32: for three disjoint cubes the plane found is `x = 2`, right of the first cube, of surface-area
cost 75; the candidate `x = 10`, right of the second cube, has surface-area cost 50.  (The code gives them costs 140 and
148.) -/
theorem C78_not_area_cost : ClipPlane threeCtx threeRoot threeRefs ⟨lit 140 0, lit 2 0, 0⟩ ∧
    threeSlabs.plane 2 = lit 2 0 ∧ threeSlabs.areaCost threeCtx.prims threeRefs 1 = lit 75 0 ∧
    threeSlabs.plane 10 = lit 10 0 ∧ threeSlabs.areaCost threeCtx.prims threeRefs 9 = lit 50 0 := by
  refine ⟨((C77_plane_rule threeCtx threeRoot threeRefs).1 _).1 ?_, ?_, ?_, ?_, ?_⟩
  · have : ((findSpatialSplit threeCtx threeRoot threeRefs).map fun p => (p.cost, p.position, p.axis)) =
        some (lit 140 0, lit 2 0, 0) := by decide +kernel
    obtain ⟨p, h1, h2⟩ := Option.map_eq_some_iff.1 this
    rw [h1]
    cases p
    simp only [Prod.mk.injEq] at h2
    obtain ⟨rfl, rfl, rfl⟩ := h2
    rfl
  all_goals decide +kernel

/-- `C77_left_box` is not vacuous: it applies to the three cubes. -/
example : (threeSlabs.leftBox threeCtx.prims threeRefs 1).Same (threeSlabs.boxFrom threeCtx.prims threeRefs 0) := by
  refine C77_left_box (s := threeSlabs) ?_ (by decide)
  have key : ∀ r ∈ Slabs.usable threeRefs, ∀ j, j < 16 → ∀ b, threeSlabs.part threeCtx.prims r j = some b → b.Numeric := by
    have : ∀ r ∈ Slabs.usable threeRefs, ∀ j : Fin 16, ∀ b ∈ (threeSlabs.part threeCtx.prims r j).toList, b.Numeric := by
      unfold Aabb.Numeric Vec3.Numeric Num
      decide +kernel
    intro r hr j hj b hb
    exact this r hr ⟨j, hj⟩ b (by simp [hb])
  intro r hr j b hb
  by_cases hj : j < 16
  · exact key r hr j hj b hb
  · unfold Slabs.part at hb
    have : threeSlabs.last r ≤ 15 := Nat.min_le_left _ _
    rw [if_pos (by omega)] at hb
    cases hb

/-- `C77_plane_inside` is not vacuous: the plane of two boxes in exact arithmetic. -/
example : ∃ (ctx : SpatialCtx Rat) (B : Aabb Rat) (refs : List (Ref Rat)) (p : SpatialSplit Rat),
    ClipPlane ctx B refs p ∧ (∀ a, B.min.get a ≤ B.max.get a) ∧ p ≠ noPlane := by
  let box (x0 x1 : Rat) : Aabb Rat := { min := ⟨x0, 0, 0⟩, max := ⟨x1, 1, 1⟩, extra1 := 0, extra2 := 0 }
  let ctx : SpatialCtx Rat := .new [box 0 1, box 3 4] [⟨⟨0, 0, 0⟩, clipBox (box 0 1)⟩, ⟨⟨3, 0, 0⟩, clipBox (box 3 4)⟩] none refSort
  let refs : List (Ref Rat) := [⟨box 0 1, ⟨0, 0, 0⟩, 0⟩, ⟨box 3 4, ⟨3, 0, 0⟩, 1⟩]
  have : ∃ p, findSpatialSplit ctx (box 0 4) refs = some p ∧ p.cost ≠ maxFinite := by
    have h : ((findSpatialSplit ctx (box 0 4) refs).map fun p => decide (p.cost ≠ maxFinite)) = some true := by
      decide +kernel
    obtain ⟨p, h1, h2⟩ := Option.map_eq_some_iff.1 h
    exact ⟨p, h1, of_decide_eq_true h2⟩
  obtain ⟨p, h1, h2⟩ := this
  refine ⟨ctx, box 0 4, refs, p, findSpatialSplit_spec h1, by decide +kernel, ?_⟩
  rintro rfl
  exact h2 rfl

end Rtbvh
