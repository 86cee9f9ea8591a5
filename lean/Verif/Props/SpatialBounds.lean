import Verif.Props.SpatialRule
import Verif.Proofs.Box
/- C76: bounds and contents of the nodes of a spatial BVH. -/
namespace Rtbvh
open FloatOps
variable {F : Type} [FloatOps F] [LawfulFloat F]

theorem boxFront_contains {l : List (Ref F)} (h : ∀ x ∈ l, x.aabb.Numeric) : ∀ x ∈ l, x.aabb.Within (boxFront l) := by
  intro x hx
  refine (Aabb.foldl_growBB (bs := l.map Ref.aabb) ?_ Aabb.new_numeric).2 _ (List.mem_map_of_mem hx)
  intro b hb
  obtain ⟨y, hy, rfl⟩ := List.mem_map.1 hb
  exact h y hy

theorem boxFront_within {l : List (Ref F)} {B : Aabb F} (he : (Aabb.empty : Aabb F).Within B)
    (h : ∀ x ∈ l, x.aabb.Within B) : (boxFront l).Within B := by
  refine Aabb.foldl_growBB_least ?_ he
  intro b hb
  obtain ⟨y, hy, rfl⟩ := List.mem_map.1 hb
  exact h y hy

omit [LawfulFloat F] in
theorem boxBack_eq (l : List (Ref F)) : boxBack l = boxFront l.reverse := by
  unfold boxBack boxFront
  rw [List.map_reverse, List.foldl_reverse]

theorem boxBack_contains {l : List (Ref F)} (h : ∀ x ∈ l, x.aabb.Numeric) : ∀ x ∈ l, x.aabb.Within (boxBack l) := by
  intro x hx
  rw [boxBack_eq]
  exact boxFront_contains (fun y hy => h y (by simpa using hy)) x (by simpa using hx)

theorem boxBack_within {l : List (Ref F)} {B : Aabb F} (he : (Aabb.empty : Aabb F).Within B)
    (h : ∀ x ∈ l, x.aabb.Within B) : (boxBack l).Within B := by
  rw [boxBack_eq]
  exact boxFront_within he fun y hy => h y (by simpa using hy)

theorem shrink_within {a b : Aabb F} (ha : a.Numeric) (hb : b.Numeric) : (a.shrink b).Within b :=
  ⟨Vec3.le_max_right ha.1 hb.1, Vec3.min_le_right ha.2 hb.2⟩

/-- Every reference in a range has a box without NaN. -/
def NumericRefs (V : RefView F) : Prop := ∀ a, ∀ x ∈ V.get a, x.aabb.Numeric

omit [LawfulFloat F] in
theorem ObjectCut.numeric {W : RefView F} {n k : Nat} {a : Fin 3} {r : SplitResult F} (h : ObjectCut W n a k r)
    (hW : NumericRefs W) : NumericRefs r.view := by
  intro b x hx
  by_cases hb : b = a
  · subst hb; rw [h.same] at hx; exact hW _ x hx
  · obtain ⟨front, back, e, hp, _⟩ := h.others b hb
    rw [e, List.mem_append] at hx
    rcases hx with hx | hx
    · exact hW b x (List.mem_of_mem_take (hp.mem_iff.2 hx))
    · exact hW b x (List.mem_of_mem_drop hx)

omit [LawfulFloat F] in
theorem ObjectCut.split {W : RefView F} {n k : Nat} {a : Fin 3} {r : SplitResult F} (h : ObjectCut W n a k r) :
    (r.view.get a).take r.mid = (W.get a).take k ∧ ((r.view.get a).take r.stop).drop r.mid = ((W.get a).take n).drop k := by
  rw [h.same, h.mid, h.stop]; exact ⟨rfl, rfl⟩

theorem ObjectCut.covers {prims : List (SpatialPrim F)} {W : RefView F} {n k : Nat} {a : Fin 3} {r : SplitResult F}
    (h : ObjectCut W n a k r) (hl : ∀ x ∈ (W.get a).take k, x.aabb.Within r.leftBox)
    (hr : ∀ x ∈ ((W.get a).take n).drop k, x.aabb.Within r.rightBox) : CutCovers prims W n r := by
  obtain ⟨e1, e2⟩ := h.split
  refine ⟨a, zero, fun x hx => ?_, by rwa [e1], by rwa [e2]⟩
  rw [e1, e2]
  have hk : ((W.get a).take n).take k = (W.get a).take k := by rw [List.take_take, Nat.min_eq_left (Nat.le_of_lt h.lt)]
  rw [← List.take_append_drop k ((W.get a).take n), hk, List.mem_append] at hx
  rcases hx with hx | hx
  · exact .inl hx
  · exact .inr (.inl hx)

theorem ClipCut.covers {ctx : SpatialCtx F} {W : RefView F} {begin n : Nat} {plane : SpatialSplit F} {r : SplitResult F}
    (h : ClipCut ctx W begin n plane r) (hW : NumericRefs W)
    (hs : ∀ p ∈ ctx.prims, ∀ a x, (p.split a x).1.Numeric ∧ (p.split a x).2.Numeric) :
    CutCovers ctx.prims W n r ∧ NumericRefs r.view := by
  have low : ∀ {x y : Ref F}, x.aabb.Numeric → lowPart ctx.prims plane.axis plane.position x y → y.aabb.Numeric := by
    rintro x y hx ⟨q, hq, _, e, _⟩
    rw [e]; exact (shrink_within (hs q (List.mem_of_getElem? hq) _ _).1 hx).num_left
  have high : ∀ {x y : Ref F}, x.aabb.Numeric → highPart ctx.prims plane.axis plane.position x y → y.aabb.Numeric := by
    rintro x y hx ⟨q, hq, _, e, _⟩
    rw [e]; exact (shrink_within (hs q (List.mem_of_getElem? hq) _ _).2 hx).num_left
  have hWa : ∀ x ∈ (W.get plane.axis).take n, x.aabb.Numeric := fun x hx => hW _ x (List.mem_of_mem_take hx)
  -- every reference goes somewhere, and the results are numbers
  have key : (∀ x ∈ (W.get plane.axis).take n, x ∈ (r.view.get plane.axis).take r.mid ∨
      x ∈ ((r.view.get plane.axis).take r.stop).drop r.mid ∨
      ∃ lo ∈ (r.view.get plane.axis).take r.mid, ∃ hi ∈ ((r.view.get plane.axis).take r.stop).drop r.mid,
        lowPart ctx.prims plane.axis plane.position x lo ∧ highPart ctx.prims plane.axis plane.position x hi) ∧
      ∀ x ∈ (r.view.get plane.axis).take r.stop, x.aabb.Numeric := by
    have tk : (r.view.get plane.axis).take r.stop = (r.view.get plane.axis).take r.mid ++
        ((r.view.get plane.axis).take r.stop).drop r.mid := by
      conv => lhs; rw [← List.take_append_drop r.mid ((r.view.get plane.axis).take r.stop)]
      rw [List.take_take, Nat.min_eq_left h.le.1]
    rcases h.parts with ⟨_, _, lo, hi, wl, wh, cut, hp, _, _, _, hc, _, _, _, hL, hR⟩ | ⟨e, hp, _⟩
    · have mem : ∀ x, x ∈ (W.get plane.axis).take n ↔ x ∈ lo ∨ x ∈ hi ∨ x ∈ wl ∨ x ∈ wh ∨ x ∈ cut.map Prod.fst := by
        intro x; rw [hp.mem_iff]; simp only [List.mem_append, or_assoc]
      have inL : ∀ x, x ∈ (r.view.get plane.axis).take r.mid ↔ x ∈ lo ∨ x ∈ wl ∨ x ∈ cut.map fun c => c.2.1 := by
        intro x; rw [hL.mem_iff]; simp only [List.mem_append, or_assoc]
      have inR : ∀ x, x ∈ ((r.view.get plane.axis).take r.stop).drop r.mid ↔
          x ∈ hi ∨ x ∈ wh ∨ x ∈ cut.map fun c => c.2.2 := by
        intro x; rw [hR.mem_iff]; simp only [List.mem_append, or_assoc]
      refine ⟨fun x hx => ?_, fun x hx => ?_⟩
      · rcases (mem x).1 hx with h | h | h | h | h
        · exact .inl ((inL x).2 (.inl h))
        · exact .inr (.inl ((inR x).2 (.inl h)))
        · exact .inl ((inL x).2 (.inr (.inl h)))
        · exact .inr (.inl ((inR x).2 (.inr (.inl h))))
        · obtain ⟨c, hcm, rfl⟩ := List.mem_map.1 h
          exact .inr (.inr ⟨c.2.1, (inL _).2 (.inr (.inr (List.mem_map.2 ⟨c, hcm, rfl⟩))), c.2.2,
            (inR _).2 (.inr (.inr (List.mem_map.2 ⟨c, hcm, rfl⟩))), hc c hcm⟩)
      · rw [tk, List.mem_append] at hx
        rcases hx with hx | hx
        · rcases (inL x).1 hx with h | h | h
          · exact hWa x ((mem x).2 (.inl h))
          · exact hWa x ((mem x).2 (.inr (.inr (.inl h))))
          · obtain ⟨c, hcm, rfl⟩ := List.mem_map.1 h
            exact low (hWa _ ((mem _).2 (.inr (.inr (.inr (.inr (List.mem_map.2 ⟨c, hcm, rfl⟩))))))) (hc c hcm).1
        · rcases (inR x).1 hx with h | h | h
          · exact hWa x ((mem x).2 (.inr (.inl h)))
          · exact hWa x ((mem x).2 (.inr (.inr (.inr (.inl h)))))
          · obtain ⟨c, hcm, rfl⟩ := List.mem_map.1 h
            exact high (hWa _ ((mem _).2 (.inr (.inr (.inr (.inr (List.mem_map.2 ⟨c, hcm, rfl⟩))))))) (hc c hcm).2
    · refine ⟨fun x hx => ?_, fun x hx => ?_⟩
      · rw [← hp.mem_iff, ← e, tk, List.mem_append] at hx
        rcases hx with hx | hx
        · exact .inl hx
        · exact .inr (.inl hx)
      · rw [e] at hx; exact hWa x (hp.mem_iff.1 hx)
  obtain ⟨left, right, hl, hr, el, er⟩ := h.boxes
  refine ⟨⟨plane.axis, plane.position, key.1, fun x hx => ?_, fun x hx => ?_⟩, fun b x hx => ?_⟩
  · rw [el]
    refine boxFront_contains (fun y hy => key.2 y ?_) x (hl.mem_iff.2 hx)
    exact List.take_subset_take_left _ h.le.1 (hl.mem_iff.1 hy)
  · rw [er]
    exact boxFront_contains (fun y hy => key.2 y (List.mem_of_mem_drop (hr.mem_iff.1 hy))) x (hr.mem_iff.2 hx)
  · obtain ⟨e1, e2⟩ := h.others b
    rw [← List.take_append_drop r.stop (r.view.get b), e1, e2, List.mem_append] at hx
    rcases hx with hx | hx
    · exact key.2 x hx
    · exact hW b x (List.mem_of_mem_drop hx)

/-- One cut. -/
theorem SpatialCut.covers {ctx : SpatialCtx F} {thr : F} {B : Aabb F} {W : RefView F} {begin n : Nat}
    {r : SplitResult F} (h : SpatialCut ctx thr B W begin n r) (hW : NumericRefs W)
    (hs : ∀ p ∈ ctx.prims, ∀ a x, (p.split a x).1.Numeric ∧ (p.split a x).2.Numeric) :
    CutCovers ctx.prims W n r ∧ NumericRefs r.view := by
  have sub : ∀ a k, (∀ x ∈ (W.get a).take k, x.aabb.Numeric) ∧ ∀ x ∈ ((W.get a).take n).drop k, x.aabb.Numeric :=
    fun a k => ⟨fun x hx => hW a x (List.mem_of_mem_take hx),
      fun x hx => hW a x (List.mem_of_mem_take (List.mem_of_mem_drop hx))⟩
  obtain ⟨best, cost, plane, _, ⟨_, _, hc, el, er⟩ | ⟨_, _, hc⟩ | ⟨_, _, a, k, _, hc, el, er⟩⟩ := h
  · exact ⟨hc.covers (by rw [el]; exact boxFront_contains (sub _ _).1) (by rw [er]; exact boxFront_contains (sub _ _).2),
      hc.numeric hW⟩
  · exact hc.covers hW hs
  · exact ⟨hc.covers (by rw [el]; exact boxFront_contains (sub _ _).1) (by rw [er]; exact boxBack_contains (sub _ _).2),
      hc.numeric hW⟩

omit [LawfulFloat F] in
theorem InOrder.numeric {ctx : SpatialCtx F} {V W : RefView F} {n : Nat} {sorted : Bool} (h : InOrder ctx V n sorted W)
    (hs : ∀ a l l', ctx.sort a l = some l' → l'.Perm l) (hV : NumericRefs V) : NumericRefs W := by
  rcases h with ⟨_, rfl⟩ | ⟨_, h⟩
  · exact hV
  · intro a x hx
    obtain ⟨s, e, hw⟩ := h a
    rw [hw, List.mem_append] at hx
    rcases hx with hx | hx
    · exact hV a x (List.mem_of_mem_take ((hs a _ _ e).mem_iff.1 hx))
    · exact hV a x (List.mem_of_mem_drop hx)

omit [FloatOps F] [LawfulFloat F] in
theorem Shifted.mem {mid stop s : Nat} {l l' : List (Ref F)} (h : Shifted mid stop s l l') {x : Ref F} (hx : x ∈ l') :
    x ∈ l := by
  obtain ⟨i, hi⟩ := List.mem_iff_getElem?.1 hx
  rw [h.2.2 i] at hi
  split at hi <;> exact List.mem_of_getElem? hi

omit [LawfulFloat F] in
theorem NumericRefs.slice {V : RefView F} (h : NumericRefs V) (b e : Nat) : NumericRefs (V.slice b e) := by
  intro a x hx
  have : (V.slice b e).get a = sliceOf (V.get a) b e := by
    match a with
    | 0 => rfl
    | 1 => rfl
    | 2 => rfl
  rw [this] at hx
  exact h a x (List.mem_of_mem_drop (List.mem_of_mem_take hx))

/-- If all boxes are numbers, every cut of a tree covers its node. -/
theorem SpatialRule.covers {ctx : SpatialCtx F} {thr : F} (hso : ∀ a l l', ctx.sort a l = some l' → l'.Perm l)
    (hsp : ∀ p ∈ ctx.prims, ∀ a x, (p.split a x).1.Numeric ∧ (p.split a x).2.Numeric)
    {P : RefView F → Nat → SplitResult F → Prop} {d : Nat} {B : Aabb F} {V : RefView F} {begin n : Nat} {sorted : Bool}
    {T : IdTree F} (h : SpatialRule ctx thr P d B V begin n sorted T) (hV : NumericRefs V) :
    SpatialRule ctx thr (fun W n r => CutCovers ctx.prims W n r) d B V begin n sorted T := by
  induction h with
  | bottom h => exact .bottom h
  | leaf hn hd ho hl => exact .leaf hn hd ho hl
  | node hn hd ho hc he hp hs hl hr ihl ihr =>
    obtain ⟨c1, c2⟩ := hc.covers (ho.numeric hso hV) hsp
    have hV' : NumericRefs _ := fun a x hx => c2 a x ((hs a).mem hx)
    exact .node hn hd ho hc he c1 hs (ihl (hV'.slice _ _)) (ihr (hV'.slice _ _))

/-- C76, the part that holds.  In every BVH that `construct_spatial_sah` returns, for scenes and provided `split`s without
NaN, every cut covers the node it cuts (`CutCovers`): each reference of the node goes to one side or is clipped into two
parts, one for each side, and each side's box, which the child gets as its bounds, contains the boxes of the references on
that side.  Missing: after the cut the right part is moved to make room, and the right child reads the place it was moved
from, so it need not get the references its bounds were made for (`C76_leaf_elsewhere`, `C76_child_sticks_out`). -/
theorem C76_cuts_cover_partial {b : Builder F} {split : Nat → Fin 3 → F → Aabb F × Aabb F}
    {sort : Fin 3 → List (Ref F) → Option (List (Ref F))} {order ks : List Nat} (h : b.LegalSpatial order sort)
    (hb : ∀ x ∈ b.boxes order, x.Numeric) (hsp : ∀ i a x, (split i a x).1.Numeric ∧ (split i a x).2.Numeric)
    {bvh : Bvh F} (e : b.constructSpatialSah split sort order ks = .ok (.ok (some bvh))) :
    ∃ (T : BTree F) (ctx : SpatialCtx F) (V : RefView F), Unfolds bvh.nodes 0 T ∧ SpatialParams b split sort order ctx ∧
      SpatialStart b order V ∧
      SpatialRule ctx (lit 1 (-5) *. lit 2 0 *. (Aabb.unionOfList (b.boxes order)).halfArea)
        (fun W n r => CutCovers ctx.prims W n r) 0
        (Aabb.unionOfList (b.boxes order)) V 0 b.primitives.length false (T.withIds bvh.indices) := by
  obtain ⟨T, hU, hT, _⟩ := spatial_built h e
  obtain ⟨hs, _, _⟩ := h.setting (split := split)
  refine ⟨T, _, _, hU, spatialCtx_params, spatial_start h, (spatialRootTree_rule hs hT).covers h.sorts ?_ ?_⟩
  · intro p hp a x
    obtain ⟨i, hi⟩ := List.mem_iff_getElem?.1 hp
    simp [Builder.spatialCtx, SpatialCtx.new, List.getElem?_zipIdx] at hi
    obtain ⟨q, _, rfl⟩ := hi
    exact hsp i a x
  · intro a x hx
    rw [RefView.get_ofFn] at hx
    unfold initialRefs at hx
    rw [List.mem_append] at hx
    rcases hx with hx | hx
    · simp only [List.mem_map, Prod.exists] at hx
      obtain ⟨bx, p, i, hm, rfl⟩ := hx
      have := List.mem_iff_getElem?.1 hm
      obtain ⟨j, hj⟩ := this
      rw [List.getElem?_zipIdx, Option.map_eq_some_iff] at hj
      obtain ⟨y, hy, e⟩ := hj
      cases e
      rw [List.getElem?_zip_eq_some] at hy
      exact hb bx (List.mem_of_getElem? hy.1)
    · rw [List.eq_of_mem_replicate hx]
      exact Aabb.new_numeric

/-- Not vacuous: three triangles whose `split` returns the whole box for both sides; the root is an interior node. -/
example : ∃ (bvh : Bvh F32) (T : BTree F32) (ctx : SpatialCtx F32) (V : RefView F32), Unfolds bvh.nodes 0 T ∧
    T.ids bvh.indices = [0, 1, 2] ∧
    SpatialRule ctx (lit 1 (-5) *. lit 2 0 *. (Aabb.unionOfList ((triScene keptScene).boxes [0, 1, 2])).halfArea)
      (fun W n r => CutCovers ctx.prims W n r) 0
      (Aabb.unionOfList ((triScene keptScene).boxes [0, 1, 2])) V 0 3 false (T.withIds bvh.indices) := by
  let split : Nat → Fin 3 → F32 → Aabb F32 × Aabb F32 := fun i _ _ =>
    (((triScene keptScene).boxes [0, 1, 2]).getD i Aabb.empty, ((triScene keptScene).boxes [0, 1, 2]).getD i Aabb.empty)
  have key : (spatialBuilt ((triScene keptScene).constructSpatialSah split refSort [0, 1, 2]
      (List.replicate 10 0))).map (fun x => x.2.ids x.1.indices) = some [0, 1, 2] := by decide +kernel
  have hb : ∀ x ∈ (triScene keptScene).boxes [0, 1, 2], x.Numeric := by
    unfold Aabb.Numeric Vec3.Numeric Num; decide +kernel
  rw [Option.map_eq_some_iff] at key
  obtain ⟨⟨bvh, T⟩, h1, h2⟩ := key
  obtain ⟨e, hU⟩ := spatialBuilt_some h1
  obtain ⟨T', ctx, V, hU', _, _, hR⟩ := C76_cuts_cover_partial
    (triScene_legal keptScene [0, 1, 2] (by decide) (by decide) (by decide) (by decide +kernel)) hb
    (fun i _ _ => by
      have : (((triScene keptScene).boxes [0, 1, 2]).getD i Aabb.empty).Numeric := by
        rw [List.getD_eq_getElem?_getD]
        cases e : ((triScene keptScene).boxes [0, 1, 2])[i]? with
        | none => exact Aabb.new_numeric
        | some y => exact hb y (List.mem_of_getElem? e)
      exact ⟨this, this⟩) e
  rw [hU'.det hU] at hR
  exact ⟨bvh, T, ctx, V, hU, h2, hR⟩

/-- A triangle with box `[a, d] × [b, e] × [c, f]`. -/
def boxTri (a b c d e f : Int) : Triangle F32 := ⟨pt a b c, pt d e c, pt a b f⟩
/-- Four triangles; see `C76_leaf_elsewhere`. -/
def elsewhereScene : List (Triangle F32) :=
  [boxTri 6 6 0 7 11 1, boxTri 2 14 0 5 17 1, boxTri 10 8 0 15 15 1, boxTri 12 6 0 15 7 1]
/-- Four triangles; see `C76_child_sticks_out`. -/
def sticksScene : List (Triangle F32) :=
  [boxTri 12 2 0 13 7 1, boxTri 6 8 0 13 13 1, boxTri 10 6 0 11 7 1, boxTri 10 0 0 13 7 1]

/-- The left leaf of the right child of the root: its box and ids. -/
def rightLeftLeaf (idx : List Nat) : BTree F → Option (Aabb F × List Nat)
  | .node _ _ (.node _ (.leaf B f c) _) => some (B, BTree.rangeIds idx f c)
  | _ => none
/-- The boxes of the left child of the right child of the root and of its children. -/
def rightBoxes : BTree F → Option (Aabb F × Aabb F × Aabb F)
  | .node _ _ (.node _ (.node B l r) _) => some (B, l.bounds, r.bounds)
  | _ => none

/-- C76 is false for leaves: of four small triangles, triangle 2 ends up in a leaf whose bounds lie entirely below it in y
(its box starts at y = 8, the leaf's ends at y = 7), so a ray that hits the triangle misses the leaf. -/
theorem C76_leaf_elsewhere : ∃ (bvh : Bvh F32) (T : BTree F32) (B : Aabb F32) (x : Aabb F32),
    (triScene elsewhereScene).LegalSpatial (List.range 4) refSort ∧
    (triScene elsewhereScene).constructSpatialSah (triSplit elsewhereScene) refSort (List.range 4) (List.replicate 60 0) =
      .ok (.ok (some bvh)) ∧
    Unfolds bvh.nodes 0 T ∧ rightLeftLeaf bvh.indices T = some (B, [2]) ∧
    (elsewhereScene.map triBox)[2]? = some x ∧ (B.max.y <. x.min.y) = true := by
  have key : (spatialBuilt ((triScene elsewhereScene).constructSpatialSah (triSplit elsewhereScene) refSort (List.range 4)
      (List.replicate 60 0))).bind (fun x => (rightLeftLeaf x.1.indices x.2).map fun y =>
        (y.2, y.1.max.y <. ((elsewhereScene.map triBox).getD 2 Aabb.empty).min.y)) = some ([2], true) := by decide +kernel
  rw [Option.bind_eq_some_iff] at key
  obtain ⟨⟨bvh, T⟩, h1, h2⟩ := key
  rw [Option.map_eq_some_iff] at h2
  obtain ⟨⟨B, l⟩, h2, h3⟩ := h2
  obtain ⟨e, hU⟩ := spatialBuilt_some h1
  simp only [Prod.mk.injEq] at h3
  obtain ⟨rfl, h3⟩ := h3
  exact ⟨bvh, T, B, _, triScene_legal _ _ (by decide) (by decide) (by decide) (by decide +kernel), e, hU, h2, rfl, h3⟩

/-- C76 is false for interior nodes: of four small triangles, a node below the right child of the root starts at x > 11.9
and its two children end at x = 11: a ray that hits a child misses its parent. -/
theorem C76_child_sticks_out : ∃ (bvh : Bvh F32) (T : BTree F32) (B l r : Aabb F32),
    (triScene sticksScene).LegalSpatial (List.range 4) refSort ∧
    (triScene sticksScene).constructSpatialSah (triSplit sticksScene) refSort (List.range 4) (List.replicate 60 0) =
      .ok (.ok (some bvh)) ∧
    Unfolds bvh.nodes 0 T ∧ rightBoxes T = some (B, l, r) ∧
    (l.max.x <. B.min.x) = true ∧ (r.max.x <. B.min.x) = true := by
  have key : (spatialBuilt ((triScene sticksScene).constructSpatialSah (triSplit sticksScene) refSort (List.range 4)
      (List.replicate 60 0))).bind (fun x => (rightBoxes x.2).map fun y =>
        ((y.2.1.max.x <. y.1.min.x) && (y.2.2.max.x <. y.1.min.x))) = some true := by decide +kernel
  rw [Option.bind_eq_some_iff] at key
  obtain ⟨⟨bvh, T⟩, h1, h2⟩ := key
  rw [Option.map_eq_some_iff] at h2
  obtain ⟨⟨B, l, r⟩, h2, h3⟩ := h2
  obtain ⟨e, hU⟩ := spatialBuilt_some h1
  simp only [Bool.and_eq_true] at h3
  exact ⟨bvh, T, B, l, r, triScene_legal _ _ (by decide) (by decide) (by decide) (by decide +kernel), e, hU, h2, h3⟩

end Rtbvh
