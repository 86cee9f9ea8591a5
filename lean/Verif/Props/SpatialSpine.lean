import Verif.Proofs.SpatialSpine
import Verif.Props.SpatialMove
import Verif.Props.SpatialRule
/- C100: the left half of a spatial BVH is an ordinary one.  Also C42, C76 for scenes of at most two primitives. -/
namespace Rtbvh
open FloatOps
variable {F : Type} [FloatOps F] [LawfulFloat F]

/-- The cut of the root, and which primitives have a part on its right side. -/
structure RootCut (b : Builder F) (split : Nat → Fin 3 → F → Aabb F × Aabb F)
    (sort : Fin 3 → List (Ref F) → Option (List (Ref F))) (order : List Nat) (left right : List Nat) : Prop where
  cut : ∃ ctx V W r, SpatialParams b split sort order ctx ∧ SpatialStart b order V ∧
    InOrder ctx V b.primitives.length false W ∧
    SpatialCut ctx (lit 1 (-5) *. lit 2 0 *. (Aabb.unionOfList (b.boxes order)).halfArea)
      (Aabb.unionOfList (b.boxes order)) W 0 b.primitives.length r ∧
    left = (r.view.x.take r.mid).map Ref.primId ∧ right = ((r.view.x.take r.stop).drop r.mid).map Ref.primId
  /-- Every primitive has a part on one of the sides. -/
  all : ∀ p < b.primitives.length, p ∈ left ∨ p ∈ right

/-- C100.  In every BVH that `construct_spatial_sah` returns, whatever the scene, the provided `split`, the sort and the
schedule, if the root is an interior node: the leaves below its left child list exactly the primitives with a part on the
left of the root's cut, each once (so nothing is ever clipped there, the room for clipped references all goes to the right);
and every primitive without a part on the right of that cut is spared by all moves, so it is listed, and C76, C92 and C97
hold for it. -/
theorem C100_left_half {b : Builder F} {split : Nat → Fin 3 → F → Aabb F × Aabb F}
    {sort : Fin 3 → List (Ref F) → Option (List (Ref F))} {order ks : List Nat} (h : b.LegalSpatial order sort)
    {bvh : Bvh F} (e : b.constructSpatialSah split sort order ks = .ok (.ok (some bvh))) {B : Aabb F} {L R : BTree F}
    (hU : Unfolds bvh.nodes 0 (.node B L R)) :
    (L.ids bvh.indices).Nodup ∧ ∃ left right, RootCut b split sort order left right ∧ (L.ids bvh.indices).Perm left ∧
      ∀ p < b.primitives.length, p ∉ right → p ∈ L.ids bvh.indices ∧
        b.SparesSpatial split sort order ((BTree.node B L R).withIds bvh.indices) p := by
  obtain ⟨T', ctx, V, hU', hc, hV, hR⟩ := C75_spatial_rule h e
  have := hU.det hU'; subst this
  have hso : ∀ a l l', ctx.sort a l = some l' → l'.Perm l := by rw [hc.sort]; exact h.sorts
  have hal := hV.aligned h
  generalize hT : (BTree.node B L R).withIds bvh.indices = T at hR
  cases hR with
  | bottom _ => cases hT
  | leaf _ _ _ _ => cases hT
  | @node _ _ _ _ _ _ W r left right V' hn hd ho hcut he hp hs hl hr =>
    rw [BTree.withIds] at hT
    cases hT
    obtain ⟨hW, hper, hca, e1, aL, hRR⟩ := node_setup hso hal ho hcut he hs
    have hlen : ∀ a, (r.view.get a).length = r.view.x.length := fun a => by
      rw [he a, hal.len, ← hal.len 0]; exact (he 0).symm
    obtain ⟨_, _, hx⟩ := left_get hca hlen hs
    have hfull : ∀ a, ((V'.slice 0 r.mid).get a).length = r.mid := fun a => by rw [aL.len, hx]
    have hl' := hl.no_room hso hfull
    have hids := hl'.ids_no_room hso aL hx
    rw [BTree.withIds_ids] at hids
    have q1 : (V'.slice 0 r.mid).x.take r.mid = r.view.x.take r.mid := e1 0
    rw [q1] at hids
    have hnd : (L.ids bvh.indices).Nodup := hids.nodup_iff.2 (hca.nodupL 0)
    have all : ∀ p < b.primitives.length, p ∈ (r.view.x.take r.mid).map Ref.primId ∨
        p ∈ ((r.view.x.take r.stop).drop r.mid).map Ref.primId := by
      intro p hp
      obtain ⟨a, hsides⟩ := hcut.ids
      have hm : (⟨boxAt (b.boxes order) p, (b.primitives[p]).center, p⟩ : Ref F) ∈ (W.get a).take b.primitives.length := by
        rw [(hper a).mem_iff, hV.take h a]
        exact List.mem_map.2 ⟨(b.primitives[p], p), List.mk_mem_zipIdx_iff_getElem?.2 (List.getElem?_eq_getElem hp), rfl⟩
      rcases hsides _ hm with k | k
      · exact .inl (((hca.left a 0).map _).mem_iff.1 k)
      · exact .inr (((hca.right a 0).map _).mem_iff.1 k)
    refine ⟨hnd, _, _, ⟨⟨ctx, V, W, r, hc, hV, ho, hcut, rfl, rfl⟩, all⟩, hids, fun p hp hr' => ⟨?_, ctx, V, hc, hV, ?_⟩⟩
    · rcases all p hp with k | k
      · exact hids.mem_iff.2 k
      · exact absurd k hr'
    · have hnot : ∀ a, p ∉ (((r.view.get a).take r.stop).drop r.mid).map Ref.primId := fun a hm =>
        hr' (((hca.right a 0).map _).mem_iff.1 hm)
      have hV'l : ∀ a, (V'.get a).length = V.x.length := fun a => by rw [(hs a).1, he a, hal.len]
      have hV'x : V'.x.length = V.x.length := hV'l 0
      have hst : r.stop ≤ V.x.length := by
        have := hca.le.2
        have : r.view.x.length = V.x.length := he 0
        omega
      refine .node hn hd ho hcut he (.inr hnot) hs (hl'.mono fun _ _ _ => .inl) (hr.absent hso (len := V.x.length - r.mid)
        (by omega) (fun a => ?_) fun a hm => ?_)
      · rw [RefView.slice_get_one, sliceOf, List.length_take, List.length_drop, hV'l]; omega
      · obtain ⟨x, hx', ex⟩ := List.mem_map.1 hm
        rw [RefView.slice_get_one, sliceOf, List.take_take, Nat.min_eq_left (by omega), ← List.drop_take] at hx'
        exact hnot a (ex ▸ List.mem_map_of_mem ((hs a).right_from hx'))

/-- Not vacuous: the build of `lostScene` (which loses triangle 2) has an interior root, triangle 0 is below its left child
and spared. -/
example : ∃ (bvh : Bvh F32) (B : Aabb F32) (L R : BTree F32),
    (triScene lostScene).LegalSpatial [0, 1, 2] refSort ∧
    (triScene lostScene).constructSpatialSah (triSplit lostScene) refSort [0, 1, 2] (List.replicate 10 0) =
      .ok (.ok (some bvh)) ∧ Unfolds bvh.nodes 0 (.node B L R) ∧ L.ids bvh.indices = [0] := by
  have key : (spatialBuilt ((triScene lostScene).constructSpatialSah (triSplit lostScene) refSort [0, 1, 2]
      (List.replicate 10 0))).bind (fun x => match x.2 with
        | .node _ l _ => some (l.ids x.1.indices)
        | .leaf _ _ _ => none) = some [0] := by decide +kernel
  rw [Option.bind_eq_some_iff] at key
  obtain ⟨⟨bvh, T⟩, h1, h2⟩ := key
  obtain ⟨e, hU⟩ := spatialBuilt_some h1
  cases T with
  | leaf => cases h2
  | node B L R =>
    exact ⟨bvh, B, L, R, triScene_legal _ _ (by decide) (by decide) (by decide) (by decide +kernel), e, hU, by simpa using h2⟩

omit [LawfulFloat F] in
/-- A cut of two references with room for one more leaves nothing that a move could overwrite. -/
theorem SpatialCut.two {ctx : SpatialCtx F} {thr : F} {B : Aabb F} {W : RefView F} {r : SplitResult F}
    (h : SpatialCut ctx thr B W 0 2 r) (hW : ∀ a, (W.get a).length = 3)
    (hL : ∀ a, (r.view.get a).length = 3) : Harmless W 2 r ∧ (r.stop = 3 ∨ r.stop = 2 ∧ r.mid = 1) := by
  have hx : W.x.length = 3 := hW 0
  have key : r.stop = 3 ∨ r.stop = 2 ∧ r.mid = 1 := by
    obtain ⟨best, cost, plane, hcand, ⟨_, _, hc, _⟩ | ⟨_, _, hc⟩ | ⟨_, _, a, k, hb, hc, _⟩⟩ := h
    · exact .inr ⟨hc.stop, hc.mid⟩
    · have h1 := hc.le
      rcases hc.parts with ⟨n1, n2, lo, hi, wl, wh, cut, hp, hlo, hhi, hst, _, hcut, _, _, hL', hR'⟩ | ⟨e, _, ⟨_, _, e2⟩ | ⟨_, e2⟩⟩
      · have l0 := hp.length_eq
        have l1 := hL'.length_eq
        have l2 := hR'.length_eq
        simp only [List.length_append, List.length_map, List.length_take, List.length_drop, hW, hL] at l0 l1 l2 hcut
        by_cases hc0 : cut.length = 0
        · right
          have w0 : wl.length = 0 ∧ wh.length = 0 := by omega
          have e1 : wl = [] := List.eq_nil_of_length_eq_zero w0.1
          have e2 : wh = [] := List.eq_nil_of_length_eq_zero w0.2
          have e3 : cut = [] := List.eq_nil_of_length_eq_zero hc0
          subst e1 e2 e3
          simp only [List.map_nil, List.append_nil, List.length_nil] at *
          have a1 : hi ≠ [] := by
            rintro rfl
            exact n1 fun x hx => hlo x (by simpa using hp.mem_iff.1 hx)
          have a2 : lo ≠ [] := by
            rintro rfl
            exact n2 fun x hx => hhi x (by simpa using hp.mem_iff.1 hx)
          have := List.length_pos_of_ne_nil a1
          have := List.length_pos_of_ne_nil a2
          omega
        · left; omega
      · exact .inr ⟨e, by omega⟩
      · exact .inr ⟨e, by omega⟩
    · obtain ⟨k1, _⟩ : 1 ≤ k ∧ k < 2 := by
        have := hcand.object
        rw [hb] at this
        exact ⟨this.1, this.2.1⟩
      exact .inr ⟨hc.stop, by have := hc.mid; have := hc.lt; omega⟩
  refine ⟨?_, key⟩
  rcases key with k | ⟨k1, k2⟩
  · left; unfold leftShare; rw [if_pos (by omega)]
  · by_cases hs : leftShare W.x.length r.mid r.stop r.leftBox r.rightBox = 0
    · exact .inl hs
    · right; omega

theorem referenceLimit_small : referenceLimit F32 1 = 1 ∧ referenceLimit F32 2 = 3 := by decide +kernel

/-- C42, C76 for one or two primitives, binary32: no build makes a harmful move, so nothing is lost (C42, C92, C97 hold for
every primitive).  Three is the smallest number for which a build loses a primitive (`C42_primitive_lost`). -/
theorem C42_two_quiet_partial {b : Builder F32} {split : Nat → Fin 3 → F32 → Aabb F32 × Aabb F32}
    {sort : Fin 3 → List (Ref F32) → Option (List (Ref F32))} {order ks : List Nat} (h : b.LegalSpatial order sort)
    (hn : b.primitives.length ≤ 2) {bvh : Bvh F32}
    (e : b.constructSpatialSah split sort order ks = .ok (.ok (some bvh))) {T : BTree F32} (hU : Unfolds bvh.nodes 0 T) :
    b.QuietSpatial split sort order (T.withIds bvh.indices) ∧ ∀ p < b.primitives.length, p ∈ T.ids bvh.indices := by
  suffices hq : b.QuietSpatial split sort order (T.withIds bvh.indices) from ⟨hq, C42_no_harm_keeps_partial h hq⟩
  obtain ⟨T', ctx, V, hU', hc, hV, hR⟩ := C75_spatial_rule h e
  have := hU.det hU'; subst this
  refine ⟨ctx, V, hc, hV, ?_⟩
  have hso : ∀ a l l', ctx.sort a l = some l' → l'.Perm l := by rw [hc.sort]; exact h.sorts
  have hlen := hV.room
  generalize b.primitives.length = n at *
  generalize T.withIds bvh.indices = T' at hR ⊢
  cases hR with
  | bottom h => exact .bottom h
  | leaf hn hd ho hl => exact .leaf hn hd ho hl
  | @node _ _ _ _ _ _ W r left right V' hn1 hd ho hcut he hp hs hl hr =>
    have hn2 : n = 2 := by omega
    subst hn2
    rw [referenceLimit_small.2] at hlen
    have hW : ∀ a, (W.get a).length = 3 := fun a =>
      (ho.perm hso (fun a => by rw [hlen a]; omega) a).2.trans (hlen a)
    obtain ⟨hh, hk⟩ := hcut.two hW fun a => (he a).trans (hlen a)
    have hV' : ∀ a, (V'.get a).length = 3 := fun a => ((hs a).1.trans (he a)).trans (hlen a)
    have hx : V'.x.length = 3 := hV' 0
    have hm := hcut.sizes (len := 3) (by omega) (hW 0)
    refine .node hn1 hd ho hcut he hh hs (hl.no_room hso fun a => ?_) ?_
    · rw [RefView.slice_get_one, sliceOf, List.length_take, List.length_drop, hV']; omega
    · rcases hk with k | ⟨k1, k2⟩
      · refine hr.no_room hso fun a => ?_
        rw [RefView.slice_get_one, sliceOf, List.length_take, List.length_drop, hV']; omega
      · have h1 : r.stop - r.mid = 1 := by omega
        rw [h1] at hr ⊢
        cases hr with
        | bottom h => exact .bottom h
        | leaf hn _ _ _ => omega
        | node hn _ _ _ _ _ _ _ _ => omega

/-- Not vacuous: a build of two triangles. -/
example : ∃ (bvh : Bvh F32) (T : BTree F32), (triScene (lostScene.take 2)).LegalSpatial [0, 1] refSort ∧
    (triScene (lostScene.take 2)).constructSpatialSah (triSplit (lostScene.take 2)) refSort [0, 1] (List.replicate 10 0) =
      .ok (.ok (some bvh)) ∧ Unfolds bvh.nodes 0 T ∧ T.ids bvh.indices = [0, 1] := by
  have key : (spatialBuilt ((triScene (lostScene.take 2)).constructSpatialSah (triSplit (lostScene.take 2)) refSort [0, 1]
      (List.replicate 10 0))).map (fun x => x.2.ids x.1.indices) = some [0, 1] := by decide +kernel
  rw [Option.map_eq_some_iff] at key
  obtain ⟨⟨bvh, T⟩, h1, h2⟩ := key
  obtain ⟨e, hU⟩ := spatialBuilt_some h1
  exact ⟨bvh, T, triScene_legal _ _ (by decide) (by decide) (by decide) (by decide +kernel), e, hU, h2⟩

end Rtbvh
