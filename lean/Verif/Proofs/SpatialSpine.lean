import Verif.Proofs.SpatialMove
/- Where a spatial build can lose references: only on the way right from the root.  The left child of a cut gets a range
without free room, so below it nothing is clipped and nothing moved. -/
namespace Rtbvh
open FloatOps
variable {F : Type} [FloatOps F]

/-- A node without free room: its cut neither clips nor leaves room, so nothing is moved. -/
theorem SpatialCut.no_room {ctx : SpatialCtx F} {thr : F} {B : Aabb F} {W : RefView F} {begin n : Nat}
    {r : SplitResult F} (h : SpatialCut ctx thr B W begin n r) (hW : ∀ a, (W.get a).length = n) : r.stop = n := by
  have hx : W.x.length = n := hW 0
  obtain ⟨best, cost, plane, _, ⟨_, _, hc, _⟩ | ⟨_, _, hc⟩ | ⟨_, _, a, k, _, hc, _⟩⟩ := h
  · exact hc.stop
  · rcases hc.parts with ⟨_, _, lo, hi, wl, wh, cut, hp, _, _, _, _, hcut, _, _, hL, hR⟩ | ⟨e, _⟩
    · have l0 := hp.length_eq
      have l1 := hL.length_eq
      have l2 := hR.length_eq
      have := hc.le.2
      have := hc.le.1
      simp only [List.length_append, List.length_map, List.length_take, List.length_drop, hW] at l0 l1 l2
      omega
    · exact e
  · exact hc.stop

theorem SpatialCut.no_move {ctx : SpatialCtx F} {thr : F} {B : Aabb F} {W : RefView F} {begin n : Nat}
    {r : SplitResult F} (h : SpatialCut ctx thr B W begin n r) (hW : ∀ a, (W.get a).length = n) : Harmless W n r := by
  left
  unfold leftShare
  rw [if_pos (by rw [h.no_room hW]; exact hW 0)]

/-- What the cut of a node puts into the first `stop` places has ids of the node. -/
theorem SpatialCut.from {ctx : SpatialCtx F} {thr : F} {B : Aabb F} {W : RefView F} {begin n : Nat}
    {r : SplitResult F} (h : SpatialCut ctx thr B W begin n r) (hW : ∀ a, n ≤ (W.get a).length) (b : Fin 3) :
    ∀ x ∈ (r.view.get b).take r.stop, ∃ a, x.primId ∈ ((W.get a).take n).map Ref.primId := by
  have obj : ∀ {a k}, ObjectCut W n a k r → ∀ x ∈ (r.view.get b).take r.stop, ∃ a, x.primId ∈ ((W.get a).take n).map Ref.primId := by
    intro a k hc x hx
    by_cases hb : b = a
    · subst hb; rw [hc.same, hc.stop] at hx; exact ⟨_, List.mem_map_of_mem hx⟩
    · obtain ⟨front, back, e, hp, _⟩ := hc.others b hb
      have hl : (front ++ back).length = n := by rw [← hp.length_eq, List.length_take, Nat.min_eq_left (hW b)]
      rw [e, hc.stop, List.take_left' hl] at hx
      exact ⟨b, List.mem_map_of_mem (hp.mem_iff.2 hx)⟩
  obtain ⟨best, cost, plane, _, ⟨_, _, hc, _⟩ | ⟨_, _, hc⟩ | ⟨_, _, a, k, _, hc, _⟩⟩ := h
  · exact obj hc
  · intro x hx
    refine ⟨plane.axis, ?_⟩
    rw [(hc.others b).1] at hx
    rcases hc.parts with ⟨_, _, lo, hi, wl, wh, cut, hp, _, _, _, hcut, _, _, _, hL, hR⟩ | ⟨e, hp, _⟩
    · rw [(hp.map _).mem_iff]
      have hx' : x ∈ (r.view.get plane.axis).take r.mid ∨ x ∈ ((r.view.get plane.axis).take r.stop).drop r.mid := by
        rw [← List.take_append_drop r.mid ((r.view.get plane.axis).take r.stop), List.mem_append, List.take_take,
          Nat.min_eq_left hc.le.1] at hx
        exact hx
      simp only [List.map_append, List.mem_append]
      rcases hx' with hx' | hx'
      · rw [hL.mem_iff] at hx'
        simp only [List.mem_append] at hx'
        rcases hx' with (h | h) | h
        · simp [List.mem_map_of_mem (f := Ref.primId) h]
        · simp [List.mem_map_of_mem (f := Ref.primId) h]
        · right
          obtain ⟨c, hcm, rfl⟩ := List.mem_map.1 h
          obtain ⟨q, _, e, _⟩ := (hcut c hcm).1
          rw [e]; exact List.mem_map_of_mem (List.mem_map_of_mem hcm)
      · rw [hR.mem_iff] at hx'
        simp only [List.mem_append] at hx'
        rcases hx' with (h | h) | h
        · simp [List.mem_map_of_mem (f := Ref.primId) h]
        · simp [List.mem_map_of_mem (f := Ref.primId) h]
        · right
          obtain ⟨c, hcm, rfl⟩ := List.mem_map.1 h
          obtain ⟨q, _, e, _⟩ := (hcut c hcm).2
          rw [e]; exact List.mem_map_of_mem (List.mem_map_of_mem hcm)
    · rw [e] at hx
      exact List.mem_map_of_mem (hp.mem_iff.1 hx)
  · exact obj hc

/-- What the right child finds in its first places was in the right part. -/
theorem Shifted.right_from {mid stop s : Nat} {l l' : List (Ref F)} (h : Shifted mid stop s l l') {x : Ref F}
    (hx : x ∈ (l'.take stop).drop mid) : x ∈ (l.take stop).drop mid := by
  obtain ⟨i, hi⟩ := List.mem_iff_getElem?.1 hx
  rw [List.getElem?_drop, List.getElem?_take] at hi
  split at hi
  · rename_i hlt
    rw [h.2.2] at hi
    split at hi
    · rename_i hm
      refine List.mem_iff_getElem?.2 ⟨mid + i - s - mid, ?_⟩
      rw [List.getElem?_drop, List.getElem?_take, if_pos (by omega)]
      rw [← hi]; congr 1; omega
    · exact List.mem_iff_getElem?.2 ⟨i, by rw [List.getElem?_drop, List.getElem?_take, if_pos hlt]; exact hi⟩
  · cases hi

theorem Shifted.left_from {mid stop s : Nat} {l l' : List (Ref F)} (h : Shifted mid stop s l l') (hm : mid ≤ stop) :
    l'.take mid = l.take mid := by
  refine List.ext_getElem? fun i => ?_
  rw [List.getElem?_take, List.getElem?_take, h.2.2 i]
  by_cases hi : i < mid
  · rw [if_pos hi, if_pos hi, if_neg (by omega)]
  · rw [if_neg hi, if_neg hi]

/-- The sizes at a node. -/
theorem SpatialCut.sizes {ctx : SpatialCtx F} {thr : F} {B : Aabb F} {W : RefView F} {begin n : Nat}
    {r : SplitResult F} (h : SpatialCut ctx thr B W begin n r) {len : Nat} (hn : n ≤ len) (hW : W.x.length = len) :
    r.mid ≤ r.stop ∧ r.stop ≤ len := by
  obtain ⟨best, cost, plane, _, ⟨_, _, hc, _⟩ | ⟨_, _, hc⟩ | ⟨_, _, a, k, _, hc, _⟩⟩ := h
  · have := hc.mid; have := hc.stop; have := hc.lt; omega
  · have := hc.le; omega
  · have := hc.mid; have := hc.stop; have := hc.lt; omega

/-- Below a node without free room nothing is moved. -/
theorem SpatialRule.no_room {ctx : SpatialCtx F} {thr : F} (hso : ∀ a l l', ctx.sort a l = some l' → l'.Perm l)
    {P : RefView F → Nat → SplitResult F → Prop}
    {d : Nat} {B : Aabb F} {V : RefView F} {begin n : Nat} {sorted : Bool}
    {T : IdTree F} (h : SpatialRule ctx thr P d B V begin n sorted T) (hV : ∀ a, (V.get a).length = n) :
    SpatialRule ctx thr Harmless d B V begin n sorted T := by
  induction h with
  | bottom h => exact .bottom h
  | leaf hn hd ho hl => exact .leaf hn hd ho hl
  | @node d B V begin n sorted W r left right V' hn hd ho hc he hp hs hl hr ihl ihr =>
    have hW : ∀ a, (W.get a).length = n := fun a =>
      (ho.perm hso (fun a => by rw [hV a]) a).2.trans (hV a)
    have hst := hc.no_room hW
    have hV' : ∀ a, (V'.get a).length = n := fun a => ((hs a).1.trans (he a)).trans (hV a)
    have hx : V'.x.length = n := hV' 0
    have hm : r.mid ≤ r.stop := (hc.sizes (Nat.le_refl n) (hW 0)).1
    refine .node hn hd ho hc he (hc.no_move hW) hs (ihl fun a => ?_) (ihr fun a => ?_)
    · rw [RefView.slice_get_one, sliceOf, List.length_take, List.length_drop, hV']; omega
    · rw [RefView.slice_get_one, sliceOf, List.length_take, List.length_drop, hV']; omega

/-- An id that a node does not have is spared below it. -/
theorem SpatialRule.absent {ctx : SpatialCtx F} {thr : F} (hso : ∀ a l l', ctx.sort a l = some l' → l'.Perm l)
    {P : RefView F → Nat → SplitResult F → Prop} {p : Nat}
    {d : Nat} {B : Aabb F} {V : RefView F} {begin n : Nat} {sorted : Bool}
    {T : IdTree F} (h : SpatialRule ctx thr P d B V begin n sorted T) {len : Nat} (hn : n ≤ len)
    (hV : ∀ a, (V.get a).length = len) (hp : ∀ a, p ∉ ((V.get a).take n).map Ref.primId) :
    SpatialRule ctx thr (Spares p) d B V begin n sorted T := by
  induction h generalizing len with
  | bottom h => exact .bottom h
  | leaf hn1 hd ho hl => exact .leaf hn1 hd ho hl
  | @node d B V begin n sorted W r left right V' hn1 hd ho hc he hp1 hs hl hr ihl ihr =>
    have hper := ho.perm hso (fun a => by rw [hV a]; exact hn)
    have hWl : ∀ a, (W.get a).length = len := fun a => (hper a).2.trans (hV a)
    have hWp : ∀ a, p ∉ ((W.get a).take n).map Ref.primId := fun a hm => hp a (((hper a).1.map _).mem_iff.1 hm)
    have no : ∀ b, ∀ x ∈ (r.view.get b).take r.stop, x.primId ≠ p := by
      intro b x hx e
      obtain ⟨a, ha⟩ := hc.from (fun a => by rw [hWl a]; exact hn) b x hx
      exact hWp a (e ▸ ha)
    obtain ⟨hm, hst⟩ := hc.sizes hn (hWl 0)
    have hV' : ∀ a, (V'.get a).length = len := fun a => ((hs a).1.trans (he a)).trans (hV a)
    have hx : V'.x.length = len := hV' 0
    refine .node hn1 hd ho hc he (.inr fun a hmem => ?_) hs (ihl (len := r.mid) (Nat.le_refl _) (fun a => ?_) fun a hmem => ?_)
      (ihr (len := len - r.mid) (by omega) (fun a => ?_) fun a hmem => ?_)
    · obtain ⟨x, hx, e⟩ := List.mem_map.1 hmem
      exact no a x (List.mem_of_mem_drop hx) e
    · rw [RefView.slice_get_one, sliceOf, List.length_take, List.length_drop, hV']; omega
    · obtain ⟨x, hx, e⟩ := List.mem_map.1 hmem
      rw [RefView.slice_get_one, sliceOf, List.drop_zero, Nat.sub_zero, List.take_take, Nat.min_self,
        (hs a).left_from hm] at hx
      refine no a x ?_ e
      have : (r.view.get a).take r.mid = ((r.view.get a).take r.stop).take r.mid := by
        rw [List.take_take, Nat.min_eq_left hm]
      rw [this] at hx
      exact List.mem_of_mem_take hx
    · rw [RefView.slice_get_one, sliceOf, List.length_take, List.length_drop, hV']; omega
    · obtain ⟨x, hx', e⟩ := List.mem_map.1 hmem
      rw [RefView.slice_get_one, sliceOf, List.take_take, hx, Nat.min_eq_left (by omega), ← List.drop_take] at hx'
      exact no a x (List.mem_of_mem_drop ((hs a).right_from hx')) e

/-- Below a node without free room the leaves list the references of the node, each once. -/
theorem SpatialRule.ids_no_room {ctx : SpatialCtx F} {thr : F} (hso : ∀ a l l', ctx.sort a l = some l' → l'.Perm l)
    {d : Nat} {B : Aabb F} {V : RefView F} {begin n : Nat} {sorted : Bool}
    {T : IdTree F} (h : SpatialRule ctx thr Harmless d B V begin n sorted T) (hV : Aligned V n) (hx : V.x.length = n) :
    T.ids.Perm ((V.x.take n).map Ref.primId) := by
  induction h with
  | bottom h => exact .refl _
  | leaf hn hd ho hl => exact (ho.perm hso (fun a => by rw [hV.len]; exact hV.le) 0).1.map _
  | @node d B V begin n sorted W r left right V' hn hd ho hc he hp hs hl hr ihl ihr =>
    obtain ⟨hW, hper, hca, e1, aL, hR⟩ := node_setup hso hV ho hc he hs
    obtain ⟨e2, aR⟩ := hR hp
    have hWl : ∀ a, (W.get a).length = n := fun a => by
      rw [(ho.perm hso (fun a => by rw [hV.len]; exact hV.le) a).2, hV.len, hx]
    have hst := hc.no_room hWl
    have hV' : ∀ a, (V'.get a).length = n := fun a => by rw [(hs a).1, he a, hV.len, hx]
    have hVx : V'.x.length = n := hV' 0
    have hm := hca.le.1
    have lL : (V'.slice 0 r.mid).x.length = r.mid := by
      show ((V'.slice 0 r.mid).get 0).length = _
      rw [RefView.slice_get_one, sliceOf, List.length_take, List.length_drop, hV']; omega
    have lR : (V'.slice r.mid V'.x.length).x.length = r.stop - r.mid := by
      show ((V'.slice r.mid V'.x.length).get 0).length = _
      rw [RefView.slice_get_one, sliceOf, List.length_take, List.length_drop, hV']; omega
    have pL := ihl aL lL
    have pR := ihr aR lR
    have q1 : (V'.slice 0 r.mid).x.take r.mid = (r.view.get 0).take r.mid := e1 0
    have q2 : (V'.slice r.mid V'.x.length).x.take (r.stop - r.mid) = ((r.view.get 0).take r.stop).drop r.mid := e2 0
    rw [q1] at pL
    rw [q2] at pR
    have all : ((r.view.get 0).take r.stop).Perm ((V.get 0).take n) ∨
        (((r.view.get 0).take r.stop).map Ref.primId).Perm (((V.get 0).take n).map Ref.primId) := by
      have back : ∀ a, ((r.view.get a).take r.stop).Perm ((r.view.get 0).take r.stop) := by
        intro a
        have s1 := hca.left a 0
        have s2 := hca.right a 0
        have t : ∀ a, (r.view.get a).take r.stop = (r.view.get a).take r.mid ++ ((r.view.get a).take r.stop).drop r.mid := by
          intro a
          conv => lhs; rw [← List.take_append_drop r.mid ((r.view.get a).take r.stop)]
          rw [List.take_take, Nat.min_eq_left hm]
        rw [t a, t 0]
        exact s1.append s2
      obtain ⟨best, cost, plane, _, ⟨_, _, hc, _⟩ | ⟨_, _, hc⟩ | ⟨_, _, a, k, _, hc, _⟩⟩ := hc
      · left
        refine (back B.longestAxis).symm.trans ?_
        rw [hc.same, hc.stop]
        exact (hper _).trans (hV.perm _ 0)
      · right
        refine ((back plane.axis).symm.map _).trans ?_
        refine List.Perm.trans ?_ (((hper plane.axis).trans (hV.perm _ 0)).map _)
        rcases hc.parts with ⟨_, _, lo, hi, wl, wh, cut, hp, _, _, _, hcut, hroom, _, _, hL, hR⟩ | ⟨e, hp, _⟩
        · have c0 : cut = [] := by
            have : W.x.length = n := hWl 0
            refine List.eq_nil_of_length_eq_zero ?_
            omega
          subst c0
          simp only [List.map_nil, List.append_nil] at hp hL hR
          refine (List.Perm.trans ?_ hp.symm).map _
          rw [← List.take_append_drop r.mid ((r.view.get plane.axis).take r.stop), List.take_take, Nat.min_eq_left hm]
          refine (hL.append hR).trans ?_
          refine (List.append_assoc lo wl _).symm ▸ ?_
          rw [List.append_assoc, List.append_assoc]
          refine List.Perm.append_left lo ?_
          rw [← List.append_assoc, ← List.append_assoc]
          exact List.Perm.append_right wh List.perm_append_comm
        · rw [e]; exact hp.map _
      · left
        refine (back a).symm.trans ?_
        rw [hc.same, hc.stop]
        exact (hper _).trans (hV.perm _ 0)
    have all' : (((r.view.get 0).take r.stop).map Ref.primId).Perm (((V.get 0).take n).map Ref.primId) := by
      rcases all with h | h
      · exact h.map _
      · exact h
    show (left.ids ++ right.ids).Perm (((V.get 0).take n).map Ref.primId)
    refine (pL.append pR).trans (List.Perm.trans ?_ all')
    rw [← List.map_append]
    refine List.Perm.map _ ?_
    have : (r.view.get 0).take r.mid = ((r.view.get 0).take r.stop).take r.mid := by
      rw [List.take_take, Nat.min_eq_left hm]
    rw [this, List.take_append_drop]

end Rtbvh
