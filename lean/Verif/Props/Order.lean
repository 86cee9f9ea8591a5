import Verif.Props.Slab
/- Property C64: the order in which a ray traversal reports primitives. -/
namespace Rtbvh
open FloatOps
variable {F : Type} [FloatOps F]

/-- Specification: the ids below a tree, subtrees with the larger box distance first (the left one on a tie), subtrees
whose box has no distance left out.  `dist` is the distance of a box, if it is hit. -/
def BTree.farthestFirst (idx : List Nat) (dist : Aabb F → Option F) : BTree F → List Nat
  | .leaf _ f c => rangeIds idx f c
  | .node _ l r =>
    match dist l.bounds, dist r.bounds with
    | some tl, some tr =>
      if tl <. tr then r.farthestFirst idx dist ++ l.farthestFirst idx dist
      else l.farthestFirst idx dist ++ r.farthestFirst idx dist
    | some _, none => l.farthestFirst idx dist
    | none, some _ => r.farthestFirst idx dist
    | none, none => []

omit [FloatOps F] in
theorem visitItems_all {σ ι : Type} {cb : σ → ι → σ × Bool} (h : ∀ r x, (cb r x).2 = false) (xs : List ι) (r : σ) :
    (visitItems cb xs r).items = xs := by
  induction xs generalizing r with
  | nil => rfl
  | cons x xs ih =>
    unfold visitItems
    have := h r x
    cases e : cb r x with
    | mk r' s => rw [e] at this; simp only at this; subst this; simp [Run.cons, ih]

/-- C64, what holds: for a caller that changes only `ray.t` and never breaks, the loop yields exactly the sequence
`farthestFirst` with the distances `Aabb::intersect` reports for the ray: at every interior node with both boxes hit, all
of the subtree with the larger distance comes before any of the other one.  The claimed order (nearer child first) is the
opposite and false: `C64_nearer_last`. -/
theorem C64_sequence_partial (b : Bvh F) (T : BTree F) (h : b.Denotes T) (hd : T.depth ≤ 31) (ray : Ray F)
    (hn : ray.hasNaN = false) (cb : Ray F → Nat → Ray F × Bool)
    (hcb : ∀ r id, ∃ t, cb r id = ({ r with t := t }, false)) (fuel : Nat) (hf : T.rounds < fuel) :
    (b.forIndices cb fuel ray).items = T.farthestFirst b.indices (fun a => a.intersect ray) := by
  rw [C20_ray_traversal_refines b T h hd ray hn cb fuel hf]
  have hno : ∀ (r : Ray F) x, (cb r x).2 = false := fun r x => by obtain ⟨t, e⟩ := hcb r x; rw [e]
  have hinv : ∀ (r : Ray F) (x : Nat), (∃ t, r = { ray with t := t }) → ∃ t, (cb r x).1 = { ray with t := t } := by
    rintro r x ⟨t, rfl⟩
    obtain ⟨t', e⟩ := hcb { ray with t := t } x
    exact ⟨t', by rw [e]⟩
  have hb : ∀ (a : Aabb F) (r : Ray F), (∃ t, r = { ray with t := t }) → a.intersect r = a.intersect ray := by
    rintro a r ⟨t, rfl⟩; rfl
  suffices H : ∀ T : BTree F, ∀ r : Ray F, (∃ t, r = { ray with t := t }) →
      (T.visit (BTree.rangeIds b.indices) Aabb.intersect closerRay cb r).items =
        T.farthestFirst b.indices (fun a => a.intersect ray) from H T ray ⟨ray.t, rfl⟩
  intro T
  induction T with
  | leaf bb f c => intro r _; exact visitItems_all hno _ r
  | node bb l r ihl ihr =>
    intro r₀ hr
    have step : ∀ A B : BTree F,
        ((A.visit (BTree.rangeIds b.indices) Aabb.intersect closerRay cb r₀).andThen
          (B.visit (BTree.rangeIds b.indices) Aabb.intersect closerRay cb)).items =
        (A.visit (BTree.rangeIds b.indices) Aabb.intersect closerRay cb r₀).items ++
          (B.visit (BTree.rangeIds b.indices) Aabb.intersect closerRay cb
            (A.visit (BTree.rangeIds b.indices) Aabb.intersect closerRay cb r₀).ray).items := by
      intro A B
      unfold Run.andThen
      rw [if_pos (visit_finished hno A r₀)]
    simp only [BTree.visit, BTree.farthestFirst, hb _ r₀ hr]
    cases e1 : l.bounds.intersect ray <;> cases e2 : r.bounds.intersect ray <;> simp only
    · exact ihr _ hr
    · exact ihl _ hr
    · rename_i tl tr
      by_cases hc : (tl <. tr) = true
      · have hc' : closerRay tl tr = true := hc
        rw [if_pos hc', if_pos hc, step, ihr _ hr, ihl _ (visit_inv hinv r r₀ hr)]
      · have hc' : ¬ closerRay tl tr = true := hc
        rw [if_neg hc', if_neg hc, step, ihl _ hr, ihr _ (visit_inv hinv l r₀ hr)]

/-- C64 is false as a claim that the nearer child comes first: two boxes one behind the other, the ray meets primitive 0's
box strictly before primitive 1's box (entry and exit), and the loop yields 1 first. -/
theorem C64_nearer_last : twoBvh.Denotes twoTree ∧ twoRay.hasNaN = false ∧
    (∃ t0 t1, (twoBoxes 0).intersect twoRay = some t0 ∧ (twoBoxes 1).intersect twoRay = some t1 ∧ (t0 <. t1) = true ∧
      ((twoBoxes 0).max.x <. (twoBoxes 1).min.x) = true ∧ (zero <. twoRay.direction.x) = true) ∧
    (twoBvh.forIndices (fun r _ => (r, false)) 100 twoRay).items = [1, 0] := by
  refine ⟨twoBvh_denotes, by decide +kernel, ?_, by decide +kernel⟩
  have h : (match (twoBoxes 0).intersect twoRay, (twoBoxes 1).intersect twoRay with
    | some t0, some t1 => t0 <. t1
    | _, _ => false) = true := by decide +kernel
  cases e0 : (twoBoxes 0).intersect twoRay with
  | none => rw [e0] at h; cases h
  | some t0 =>
    cases e1 : (twoBoxes 1).intersect twoRay with
    | none => rw [e0, e1] at h; cases h
    | some t1 => rw [e0, e1] at h; exact ⟨t0, t1, rfl, rfl, h, by decide +kernel, by decide +kernel⟩

/-- Specification for packets: as `farthestFirst`, with a distance per lane; the left subtree counts as nearer if its box
is nearer in at least one lane. -/
def BTree.farthestFirst4 (idx : List Nat) (dist : Aabb F → Option (Vec4 F)) : BTree F → List Nat
  | .leaf _ f c => rangeIds idx f c
  | .node _ l r =>
    match dist l.bounds, dist r.bounds with
    | some tl, some tr =>
      if ∃ i, (tl.get i <. tr.get i) = true then r.farthestFirst4 idx dist ++ l.farthestFirst4 idx dist
      else l.farthestFirst4 idx dist ++ r.farthestFirst4 idx dist
    | some _, none => l.farthestFirst4 idx dist
    | none, some _ => r.farthestFirst4 idx dist
    | none, none => []

/-- C64 for packets, what holds: a loop that leaves the packet alone and never breaks yields the sequence
`farthestFirst4` with the lane distances `Aabb::intersect4` reports: where both boxes are hit, the right subtree comes
first as soon as the left box is nearer in one lane, otherwise the left subtree. -/
theorem C64_packet_sequence_partial (b : Bvh F) (T : BTree F) (h : b.Denotes T) (hd : T.depth ≤ 31) (p : RayPacket4 F)
    (hn : p.hasNaN = false) (fuel : Nat) (hf : T.rounds < fuel) :
    (b.forIndicesPacket (fun q _ => (q, false)) fuel p).items =
      T.farthestFirst4 b.indices (fun a => a.intersect4 p) := by
  rw [C23_packet_traversal_refines b T h hd p hn _ fuel hf]
  have hno : ∀ (r : RayPacket4 F) (x : Nat), ((fun (q : RayPacket4 F) (_ : Nat) => (q, false)) r x).2 = false :=
    fun _ _ => rfl
  have hst : ∀ T : BTree F, (T.visit (BTree.rangeIds b.indices) Aabb.intersect4 closerPacket
      (fun q _ => (q, false)) p).ray = p := fun T =>
    visit_inv (Inv := fun q => q = p) (cb := fun q _ => (q, false)) (fun r x hr => hr) T p rfl
  clear h hd hf
  induction T with
  | leaf bb f c => exact visitItems_all hno _ p
  | node bb l r ihl ihr =>
    have step : ∀ A B : BTree F,
        ((A.visit (BTree.rangeIds b.indices) Aabb.intersect4 closerPacket (fun q _ => (q, false)) p).andThen
          (B.visit (BTree.rangeIds b.indices) Aabb.intersect4 closerPacket (fun q _ => (q, false)))).items =
        (A.visit (BTree.rangeIds b.indices) Aabb.intersect4 closerPacket (fun q _ => (q, false)) p).items ++
          (B.visit (BTree.rangeIds b.indices) Aabb.intersect4 closerPacket (fun q _ => (q, false)) p).items := by
      intro A B
      unfold Run.andThen
      rw [if_pos (visit_finished hno A p), hst A]
    simp only [BTree.visit, BTree.farthestFirst4]
    cases e1 : l.bounds.intersect4 p <;> cases e2 : r.bounds.intersect4 p <;> simp only
    · exact ihr
    · exact ihl
    · rename_i tl tr
      have hcl : closerPacket tl tr = true ↔ ∃ i, (tl.get i <. tr.get i) = true := by
        unfold closerPacket
        rw [Vec4.any_iff]
        refine exists_congr fun i => ?_
        have : (tl.map2 FloatOps.lt tr).get i = (tl.get i <. tr.get i) := by
          match i with
          | 0 => rfl
          | 1 => rfl
          | 2 => rfl
          | 3 => rfl
        rw [this]
      by_cases hc : ∃ i, (tl.get i <. tr.get i) = true
      · rw [if_pos (hcl.2 hc), if_pos hc, step, ihr, ihl]
      · rw [if_neg (fun hh => hc (hcl.1 hh)), if_neg hc, step, ihl, ihr]

/-- The packet of the second example also meets the boxes one behind the other and is handed 1 first. -/
example : twoPacket.hasNaN = false ∧ (twoBvh.forIndicesPacket (fun q _ => (q, false)) 100 twoPacket).items = [1, 0] := by
  decide +kernel

/-- `C64_sequence_partial` applies to that BVH. -/
example : twoTree.farthestFirst twoBvh.indices (fun a => a.intersect twoRay) = [1, 0] := by decide +kernel

end Rtbvh
