import Verif.Model.Node
import Verif.Model.F32
/- Property C106. -/
namespace Rtbvh
variable {F : Type} [FloatOps F]

/-- Specification: the two payload words of a box. -/
def Aabb.payload (a : Aabb F) : Int × Int := (a.extra1, a.extra2)

theorem Aabb.foldl_grow_payload (ps : List (Vec3 F)) (a : Aabb F) : (ps.foldl Aabb.grow a).payload = a.payload := by
  induction ps generalizing a with
  | nil => rfl
  | cons p ps ih => exact ih _

theorem Aabb.foldl_growBB_payload (bs : List (Aabb F)) (a : Aabb F) : (bs.foldl Aabb.growBB a).payload = a.payload := by
  induction bs generalizing a with
  | nil => rfl
  | cons p ps ih => exact ih _

/-- C106. The operations that edit a box in place keep its two payload words, so that a node whose box grows, shrinks or is
padded keeps its links. -/
theorem C106_edits_keep (a b : Aabb F) (p : Vec3 F) (bs : List (Aabb F)) (d : F) :
    (a.grow p).payload = a.payload ∧ (a.growBB b).payload = a.payload ∧ (a.growBBs bs).payload = a.payload ∧
    (a.shrink b).payload = a.payload ∧ (a.offsetBy d).payload = a.payload :=
  ⟨rfl, rfl, rfl, rfl, rfl⟩

/-- C106. The operations that make a box zero both words, whatever the words of the boxes they are made from. -/
theorem C106_makers_zero (a b : Aabb F) (v w : Vec3 F) (ps : List (Vec3 F)) (bs : List (Aabb F)) (m : Aabb.Affine F) :
    (Aabb.new : Aabb F).payload = (0, 0) ∧ (Aabb.full : Aabb F).payload = (0, 0) ∧ (Aabb.empty : Aabb F).payload = (0, 0) ∧
    (Aabb.ofPoints2 v w).payload = (0, 0) ∧ (a.unionOf b).payload = (0, 0) ∧ (a.intersection b).payload = (0, 0) ∧
    (Aabb.fromPoints ps).payload = (0, 0) ∧ (Aabb.macroAabb ps).payload = (0, 0) ∧ (Aabb.unionOfList bs).payload = (0, 0) ∧
    (a.transformed m).payload = (0, 0) :=
  ⟨rfl, rfl, rfl, rfl, rfl, rfl, Aabb.foldl_grow_payload ps .empty, Aabb.foldl_grow_payload ps .empty,
    Aabb.foldl_growBB_payload bs .new, Aabb.foldl_grow_payload _ .empty⟩

/-- C106, nodes: a node edited through its box reads back the same links; a node whose box is replaced by a made one is an
empty leaf at 0, whatever it linked to before. -/
theorem C106_nodes (n : BvhNode F) (b : Aabb F) (p : Vec3 F) (bs : List (Aabb F)) (d : F) (m : Aabb.Affine F) :
    (∀ e ∈ [n.bounds.grow p, n.bounds.growBB b, n.bounds.growBBs bs, n.bounds.shrink b, n.bounds.offsetBy d],
      (BvhNode.mk e).getCount = n.getCount ∧ (BvhNode.mk e).getLeftFirst = n.getLeftFirst ∧
      (BvhNode.mk e).isLeaf = n.isLeaf ∧ (BvhNode.mk e).hasChildren = n.hasChildren ∧ (BvhNode.mk e).isValid = n.isValid) ∧
    (∀ e ∈ [n.bounds.unionOf b, n.bounds.intersection b, n.bounds.transformed m, Aabb.unionOfList (n.bounds :: bs)],
      (BvhNode.mk e).getCount = some 0 ∧ (BvhNode.mk e).getLeftFirst = some 0 ∧ (BvhNode.mk e).isLeaf = true) := by
  refine ⟨fun e he => ?_, fun e he => ?_⟩
  · have h : e.payload = n.bounds.payload := by
      simp only [List.mem_cons, List.not_mem_nil, or_false] at he
      rcases he with rfl | rfl | rfl | rfl | rfl <;> rfl
    simp only [Aabb.payload, Prod.mk.injEq] at h
    simp [BvhNode.getCount, BvhNode.getLeftFirst, BvhNode.isLeaf, BvhNode.hasChildren, BvhNode.isValid, h.1, h.2]
  · have h : e.payload = (0, 0) := by
      simp only [List.mem_cons, List.not_mem_nil, or_false] at he
      rcases he with rfl | rfl | rfl | rfl
      · rfl
      · rfl
      · exact (C106_makers_zero n.bounds b p p [] bs m).2.2.2.2.2.2.2.2.2
      · exact (C106_makers_zero n.bounds b p p [] (n.bounds :: bs) m).2.2.2.2.2.2.2.2.1
    simp only [Aabb.payload, Prod.mk.injEq] at h
    simp [BvhNode.getCount, BvhNode.getLeftFirst, BvhNode.isLeaf, h.1, h.2, asU32]

/-- C106, example: an inner node with children 7 and 8.  Padding its box keeps the link, uniting it with itself loses it. -/
example (b : Aabb F32) (n : BvhNode F32) (hn : n = { bounds := { b with extra1 := -1, extra2 := 7 } }) :
    n.hasChildren = true ∧ (BvhNode.mk (n.bounds.offsetBy (FloatOps.lit 1 (-4)))).getLeftFirst = some 7 ∧
    (BvhNode.mk (n.bounds.offsetBy (FloatOps.lit 1 (-4)))).hasChildren = true ∧
    (BvhNode.mk (n.bounds.unionOf n.bounds)).hasChildren = false ∧
    (BvhNode.mk (n.bounds.unionOf n.bounds)).getCount = some 0 := by
  subst hn
  refine ⟨rfl, rfl, rfl, rfl, rfl⟩
end Rtbvh
