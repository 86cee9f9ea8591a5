import Verif.Props.SpatialBounds
import Verif.Spec.Reach
/- What a spatial build keeps when no move after a cut overwrites references. -/
namespace Rtbvh
open FloatOps
variable {F : Type} [FloatOps F] [LawfulFloat F]

/-- The three orders of a node list the same references, no primitive twice. -/
structure Aligned (V : RefView F) (n : Nat) : Prop where
  len : ∀ a, (V.get a).length = V.x.length
  le : n ≤ V.x.length
  perm : ∀ a b, ((V.get a).take n).Perm ((V.get b).take n)
  nodup : ∀ a, (((V.get a).take n).map Ref.primId).Nodup

omit [LawfulFloat F] [FloatOps F] in
theorem RefView.slice_get_one (V : RefView F) (b e : Nat) (a : Fin 3) : (V.slice b e).get a = sliceOf (V.get a) b e := by
  match a with
  | 0 => rfl
  | 1 => rfl
  | 2 => rfl

omit [LawfulFloat F] in
theorem InOrder.perm {ctx : SpatialCtx F} {V W : RefView F} {n : Nat} {sorted : Bool} (h : InOrder ctx V n sorted W)
    (hs : ∀ a l l', ctx.sort a l = some l' → l'.Perm l) (hn : ∀ a, n ≤ (V.get a).length) (a : Fin 3) :
    ((W.get a).take n).Perm ((V.get a).take n) ∧ (W.get a).length = (V.get a).length := by
  rcases h with ⟨_, rfl⟩ | ⟨_, h⟩
  · exact ⟨.refl _, rfl⟩
  · obtain ⟨s, e, hw⟩ := h a
    have hp := hs a _ _ e
    have hl : s.length = n := by rw [hp.length_eq, List.length_take, Nat.min_eq_left (hn a)]
    rw [hw]
    refine ⟨?_, ?_⟩
    · rw [List.take_left' hl]; exact hp
    · have := hn a
      rw [List.length_append, List.length_drop, hl]; omega

omit [LawfulFloat F] in
theorem InOrder.aligned {ctx : SpatialCtx F} {V W : RefView F} {n : Nat} {sorted : Bool} (h : InOrder ctx V n sorted W)
    (hs : ∀ a l l', ctx.sort a l = some l' → l'.Perm l) (hV : Aligned V n) : Aligned W n := by
  have hp := h.perm hs (fun a => by rw [hV.len]; exact hV.le)
  have hx : W.x.length = V.x.length := (hp 0).2
  refine ⟨fun a => ?_, ?_, fun a b => ?_, fun a => ?_⟩
  · rw [(hp a).2, hV.len, hx]
  · rw [hx]; exact hV.le
  · exact ((hp a).1.trans (hV.perm a b)).trans (hp b).1.symm
  · exact ((hp a).1.map _).nodup_iff.2 (hV.nodup a)

/-- After a cut: the two parts of the three orders agree, and in each part no primitive occurs twice. -/
structure CutAligned (r : SplitResult F) : Prop where
  le : r.mid ≤ r.stop ∧ r.stop ≤ r.view.x.length
  left : ∀ a b, ((r.view.get a).take r.mid).Perm ((r.view.get b).take r.mid)
  right : ∀ a b, (((r.view.get a).take r.stop).drop r.mid).Perm (((r.view.get b).take r.stop).drop r.mid)
  nodupL : ∀ a, (((r.view.get a).take r.mid).map Ref.primId).Nodup
  nodupR : ∀ a, ((((r.view.get a).take r.stop).drop r.mid).map Ref.primId).Nodup

omit [LawfulFloat F] [FloatOps F] in
theorem CutAligned.of {r : SplitResult F} (a : Fin 3) (le : r.mid ≤ r.stop ∧ r.stop ≤ r.view.x.length)
    (hl : ∀ b, ((r.view.get b).take r.mid).Perm ((r.view.get a).take r.mid))
    (hr : ∀ b, (((r.view.get b).take r.stop).drop r.mid).Perm (((r.view.get a).take r.stop).drop r.mid))
    (nl : (((r.view.get a).take r.mid).map Ref.primId).Nodup)
    (nr : ((((r.view.get a).take r.stop).drop r.mid).map Ref.primId).Nodup) : CutAligned r :=
  ⟨le, fun b c => (hl b).trans (hl c).symm, fun b c => (hr b).trans (hr c).symm,
    fun b => ((hl b).map _).nodup_iff.2 nl, fun b => ((hr b).map _).nodup_iff.2 nr⟩

omit [LawfulFloat F] in
theorem ObjectCut.aligned {W : RefView F} {n k : Nat} {a : Fin 3} {r : SplitResult F} (h : ObjectCut W n a k r)
    (hW : Aligned W n) (hx : r.view.x.length = W.x.length) : CutAligned r := by
  obtain ⟨e1, e2⟩ := h.split
  have hk : ((W.get a).take n).take k = (W.get a).take k := by rw [List.take_take, Nat.min_eq_left (Nat.le_of_lt h.lt)]
  have hlt := h.lt
  have hnd := hW.nodup a
  have tk : (W.get a).take n = (W.get a).take k ++ ((W.get a).take n).drop k := by
    conv => lhs; rw [← List.take_append_drop k ((W.get a).take n), hk]
  have hnd' := hnd
  rw [tk, List.map_append, List.nodup_append] at hnd'
  obtain ⟨nl, nr, dis⟩ := hnd'
  have hlen : ((W.get a).take k).length = k := by
    rw [List.length_take, hW.len]; have := hW.le; omega
  have key : ∀ b, ((r.view.get b).take r.mid).Perm ((W.get a).take k) ∧
      (((r.view.get b).take r.stop).drop r.mid).Perm (((W.get a).take n).drop k) := by
    intro b
    by_cases hb : b = a
    · subst hb; rw [e1, e2]; exact ⟨.refl _, .refl _⟩
    · obtain ⟨front, back, e, hp, hf, hbk, h1, h2⟩ := h.others b hb
      have hpa : ((W.get a).take n).Perm (front ++ back) := (hW.perm a b).trans hp
      have nd : (front ++ back).Nodup := hpa.nodup_iff.1 (List.Nodup.of_map _ hnd)
      rw [List.nodup_append] at nd
      have pf : front.Perm ((W.get a).take k) := by
        refine (List.perm_ext_iff_of_nodup nd.1 (List.Nodup.of_map _ nl)).2 fun x => ⟨fun hxf => ?_, fun hxk => ?_⟩
        · have := hpa.mem_iff.2 (List.mem_append_left _ hxf)
          rw [tk, List.mem_append] at this
          rcases this with h | h
          · exact h
          · exact absurd (List.mem_map_of_mem h) (h1 x hxf).2
        · have : x ∈ front ++ back := hpa.mem_iff.1 (by rw [tk]; exact List.mem_append_left _ hxk)
          rcases List.mem_append.1 this with h | h
          · exact h
          · rcases h2 x h with h' | h'
            · exact absurd (List.mem_map_of_mem hxk) h'
            · exact absurd rfl (dis _ (List.mem_map_of_mem hxk) _ h')
      have pb : back.Perm (((W.get a).take n).drop k) := by
        have : (front ++ back).Perm (front ++ ((W.get a).take n).drop k) :=
          hpa.symm.trans (by conv => lhs; rw [tk]
                             exact pf.symm.append_right _)
        exact (List.perm_append_left_iff front).1 this
      have lf : front.length = k := by rw [pf.length_eq, hlen]
      have lt : (front ++ back).length = n := by
        rw [← hpa.length_eq, List.length_take, hW.len]; have := hW.le; omega
      rw [e, h.mid, h.stop, List.take_left' lt, List.drop_left' lf, List.append_assoc, List.take_left' lf]
      exact ⟨pf, pb⟩
  have := hW.le
  refine .of a ⟨by rw [h.mid, h.stop]; omega, by rw [h.stop, hx]; exact hW.le⟩ (fun b => ?_) (fun b => ?_) ?_ ?_
  · rw [e1]; exact (key b).1
  · rw [e2]; exact (key b).2
  · rw [e1]; exact nl
  · rw [e2]; exact nr

omit [LawfulFloat F] in
theorem ClipCut.aligned {ctx : SpatialCtx F} {W : RefView F} {begin n : Nat} {plane : SpatialSplit F} {r : SplitResult F}
    (h : ClipCut ctx W begin n plane r) (hW : Aligned W n) (hx : r.view.x.length = W.x.length) : CutAligned r := by
  have tk : ∀ b, (r.view.get b).take r.mid = (r.view.get plane.axis).take r.mid := by
    intro b
    have := congrArg (List.take r.mid) (h.others b).1
    rwa [List.take_take, List.take_take, Nat.min_eq_left h.le.1] at this
  have nd := hW.nodup plane.axis
  have both : (((r.view.get plane.axis).take r.mid).map Ref.primId).Nodup ∧
      ((((r.view.get plane.axis).take r.stop).drop r.mid).map Ref.primId).Nodup := by
    rcases h.parts with ⟨_, _, lo, hi, wl, wh, cut, hp, _, _, _, hc, _, _, _, hL, hR⟩ | ⟨e, hp, _⟩
    · have ids := (hp.map Ref.primId).nodup_iff.1 nd
      have e1 : (cut.map fun c => c.2.1).map Ref.primId = (cut.map Prod.fst).map Ref.primId := by
        rw [List.map_map, List.map_map]
        refine List.map_congr_left fun c hcm => ?_
        obtain ⟨q, _, e, _⟩ := (hc c hcm).1
        exact e
      have e2 : (cut.map fun c => c.2.2).map Ref.primId = (cut.map Prod.fst).map Ref.primId := by
        rw [List.map_map, List.map_map]
        refine List.map_congr_left fun c hcm => ?_
        obtain ⟨q, _, e, _⟩ := (hc c hcm).2
        exact e
      constructor
      · rw [(hL.map _).nodup_iff, List.map_append, e1, ← List.map_append]
        refine ids.sublist (List.Sublist.map _ ?_)
        refine List.Sublist.append ?_ (List.Sublist.refl _)
        rw [List.append_assoc lo hi, List.append_assoc lo]
        refine List.Sublist.append (List.Sublist.refl _) ?_
        exact ((List.Sublist.refl wl).trans (List.sublist_append_right hi wl)).trans (List.sublist_append_left _ wh)
      · rw [(hR.map _).nodup_iff, List.map_append, e2, ← List.map_append]
        refine ids.sublist (List.Sublist.map _ ?_)
        refine List.Sublist.append ?_ (List.Sublist.refl _)
        refine List.Sublist.append ?_ (List.Sublist.refl _)
        exact (List.sublist_append_right lo hi).trans (List.sublist_append_left _ wl)
    · have ids := (hp.map Ref.primId).nodup_iff.2 nd
      rw [← e] at ids
      constructor
      · refine ids.sublist (List.Sublist.map _ ?_)
        have : (r.view.get plane.axis).take r.mid = ((r.view.get plane.axis).take r.stop).take r.mid := by
          rw [List.take_take, Nat.min_eq_left h.le.1]
        rw [this]
        exact List.take_sublist _ _
      · exact ids.sublist (List.Sublist.map _ (List.drop_sublist _ _))
  refine .of plane.axis ⟨h.le.1, by rw [hx]; exact h.le.2⟩ (fun b => by rw [tk b]) (fun b => by rw [(h.others b).1]) both.1 both.2

omit [LawfulFloat F] in
theorem SpatialCut.aligned {ctx : SpatialCtx F} {thr : F} {B : Aabb F} {W : RefView F} {begin n : Nat}
    {r : SplitResult F} (h : SpatialCut ctx thr B W begin n r) (hW : Aligned W n)
    (hx : r.view.x.length = W.x.length) : CutAligned r := by
  obtain ⟨best, cost, plane, _, ⟨_, _, hc, _⟩ | ⟨_, _, hc⟩ | ⟨_, _, a, k, _, hc, _⟩⟩ := h
  · exact hc.aligned hW hx
  · exact hc.aligned hW hx
  · exact hc.aligned hW hx

omit [FloatOps F] [LawfulFloat F] in
theorem Shifted.quiet {mid stop s : Nat} {l l' : List (Ref F)} (h : Shifted mid stop s l l')
    (hs : s = 0 ∨ stop - mid ≤ s) (hm : mid ≤ stop) : l'.take stop = l.take stop := by
  refine List.ext_getElem? fun i => ?_
  rw [List.getElem?_take, List.getElem?_take, h.2.2 i]
  by_cases hi : i < stop
  · rw [if_pos hi, if_pos hi]
    rcases hs with rfl | hs
    · simp
    · rw [if_neg (by omega)]
  · rw [if_neg hi, if_neg hi]

omit [FloatOps F] [LawfulFloat F] in
/-- What the children get after a harmless move: the parts of the cut. -/
theorem children_get {r : SplitResult F} {V' : RefView F} (h : CutAligned r)
    (hlen : ∀ a, (r.view.get a).length = r.view.x.length)
    (hs : ∀ a, (V'.get a).length = (r.view.get a).length ∧ (V'.get a).take r.stop = (r.view.get a).take r.stop) :
    (∀ a, ((V'.slice 0 r.mid).get a).take r.mid = (r.view.get a).take r.mid) ∧
    (∀ a, ((V'.slice r.mid V'.x.length).get a).take (r.stop - r.mid) = ((r.view.get a).take r.stop).drop r.mid) ∧
    Aligned (V'.slice 0 r.mid) r.mid ∧ Aligned (V'.slice r.mid V'.x.length) (r.stop - r.mid) := by
  obtain ⟨h1, h2⟩ := h.le
  have hx : V'.x.length = r.view.x.length := (hs 0).1
  have gl : ∀ a, (V'.slice 0 r.mid).get a = (r.view.get a).take r.mid := by
    intro a
    rw [RefView.slice_get_one, sliceOf, List.drop_zero, Nat.sub_zero]
    have := congrArg (List.take r.mid) (hs a).2
    rwa [List.take_take, List.take_take, Nat.min_eq_left h1] at this
  have gr : ∀ a, (V'.slice r.mid V'.x.length).get a = (V'.get a).drop r.mid := by
    intro a
    rw [RefView.slice_get_one, sliceOf]
    refine List.take_of_length_le ?_
    rw [List.length_drop, (hs a).1, hlen, hx]
  have e1 : ∀ a, ((V'.slice 0 r.mid).get a).take r.mid = (r.view.get a).take r.mid := by
    intro a; rw [gl, List.take_take, Nat.min_self]
  have e2 : ∀ a, ((V'.slice r.mid V'.x.length).get a).take (r.stop - r.mid) = ((r.view.get a).take r.stop).drop r.mid := by
    intro a
    rw [gr, ← (hs a).2, List.drop_take]
  have ll : ∀ a, ((V'.slice 0 r.mid).get a).length = r.mid := by
    intro a; rw [gl, List.length_take, hlen]; omega
  have lr : ∀ a, ((V'.slice r.mid V'.x.length).get a).length = r.view.x.length - r.mid := by
    intro a; rw [gr, List.length_drop, (hs a).1, hlen]
  refine ⟨e1, e2, ⟨fun a => ?_, ?_, fun a b => ?_, fun a => ?_⟩, ⟨fun a => ?_, ?_, fun a b => ?_, fun a => ?_⟩⟩
  · rw [ll a]; exact (ll 0).symm
  · exact Nat.le_of_eq (ll 0).symm
  · rw [e1, e1]; exact h.left a b
  · rw [e1]; exact h.nodupL a
  · rw [lr a]; exact (lr 0).symm
  · have : (V'.slice r.mid V'.x.length).x.length = r.view.x.length - r.mid := lr 0
    rw [this]; omega
  · rw [e2, e2]; exact h.right a b
  · rw [e2]; exact h.nodupR a

omit [LawfulFloat F] in
/-- Every id of a node is on one side of its cut. -/
theorem SpatialCut.ids {ctx : SpatialCtx F} {thr : F} {B : Aabb F} {W : RefView F} {begin n : Nat}
    {r : SplitResult F} (h : SpatialCut ctx thr B W begin n r) : ∃ a, ∀ x ∈ (W.get a).take n,
      x.primId ∈ ((r.view.get a).take r.mid).map Ref.primId ∨
      x.primId ∈ (((r.view.get a).take r.stop).drop r.mid).map Ref.primId := by
  have obj : ∀ {a k}, ObjectCut W n a k r → ∀ x ∈ (W.get a).take n,
      x.primId ∈ ((r.view.get a).take r.mid).map Ref.primId ∨
      x.primId ∈ (((r.view.get a).take r.stop).drop r.mid).map Ref.primId := by
    intro a k hc x hx
    rw [hc.split.1, hc.split.2]
    rw [← List.take_append_drop k ((W.get a).take n), List.take_take, Nat.min_eq_left (Nat.le_of_lt hc.lt),
      List.mem_append] at hx
    exact hx.imp List.mem_map_of_mem List.mem_map_of_mem
  obtain ⟨best, cost, plane, _, ⟨_, _, hc, _⟩ | ⟨_, _, hc⟩ | ⟨_, _, a, k, _, hc, _⟩⟩ := h
  · exact ⟨_, obj hc⟩
  · refine ⟨plane.axis, fun x hx => ?_⟩
    rcases hc.parts with ⟨_, _, lo, hi, wl, wh, cut, hp, _, _, _, hcut, _, _, _, hL, hR⟩ | ⟨e, hp, _⟩
    · rw [hp.mem_iff] at hx
      simp only [List.mem_append, or_assoc] at hx
      rw [(hL.map _).mem_iff, (hR.map _).mem_iff]
      rcases hx with h | h | h | h | h
      · left; exact List.mem_map_of_mem (by simp [h])
      · right; exact List.mem_map_of_mem (by simp [h])
      · left; exact List.mem_map_of_mem (by simp [h])
      · right; exact List.mem_map_of_mem (by simp [h])
      · left
        obtain ⟨c, hcm, rfl⟩ := List.mem_map.1 h
        obtain ⟨q, _, e, _⟩ := (hcut c hcm).1
        rw [← e]
        refine List.mem_map_of_mem (List.mem_append_right _ ?_)
        exact List.mem_map.2 ⟨c, hcm, rfl⟩
    · rw [← hp.mem_iff, ← e, ← List.take_append_drop r.mid ((r.view.get plane.axis).take r.stop), List.take_take,
        Nat.min_eq_left hc.le.1, List.mem_append] at hx
      exact hx.imp List.mem_map_of_mem List.mem_map_of_mem
  · exact ⟨_, obj hc⟩

omit [LawfulFloat F] in
/-- What the left child gets after any move: the left part of the cut. -/
theorem left_get {r : SplitResult F} {V' : RefView F} {s : Nat} (h : CutAligned r)
    (hlen : ∀ a, (r.view.get a).length = r.view.x.length)
    (hs : ∀ a, Shifted r.mid r.stop s (r.view.get a) (V'.get a)) :
    (∀ a, ((V'.slice 0 r.mid).get a).take r.mid = (r.view.get a).take r.mid) ∧ Aligned (V'.slice 0 r.mid) r.mid ∧
      (V'.slice 0 r.mid).x.length = r.mid := by
  obtain ⟨h1, h2⟩ := h.le
  have gl : ∀ a, (V'.slice 0 r.mid).get a = (r.view.get a).take r.mid := by
    intro a
    rw [RefView.slice_get_one, sliceOf, List.drop_zero, Nat.sub_zero]
    refine List.ext_getElem? fun i => ?_
    rw [List.getElem?_take, List.getElem?_take, (hs a).2.2 i]
    by_cases hi : i < r.mid
    · rw [if_pos hi, if_pos hi, if_neg (by omega)]
    · rw [if_neg hi, if_neg hi]
  have e1 : ∀ a, ((V'.slice 0 r.mid).get a).take r.mid = (r.view.get a).take r.mid := by
    intro a; rw [gl, List.take_take, Nat.min_self]
  have ll : ∀ a, ((V'.slice 0 r.mid).get a).length = r.mid := by
    intro a; rw [gl, List.length_take, hlen]; omega
  refine ⟨e1, ⟨fun a => ?_, ?_, fun a b => ?_, fun a => ?_⟩, ll 0⟩
  · rw [ll a]; exact (ll 0).symm
  · exact Nat.le_of_eq (ll 0).symm
  · rw [e1, e1]; exact h.left a b
  · rw [e1]; exact h.nodupL a

omit [LawfulFloat F] in
/-- The lengths and orders at a node, unpacked for induction. -/
theorem node_setup {ctx : SpatialCtx F} {thr : F} (hso : ∀ a l l', ctx.sort a l = some l' → l'.Perm l) {B : Aabb F}
    {V W V' : RefView F} {begin n : Nat} {sorted : Bool} {r : SplitResult F} (hV : Aligned V n)
    (ho : InOrder ctx V n sorted W) (hc : SpatialCut ctx thr B W begin n r)
    (he : ∀ a, (r.view.get a).length = (V.get a).length)
    (hs : ∀ a, Shifted r.mid r.stop (leftShare W.x.length r.mid r.stop r.leftBox r.rightBox) (r.view.get a) (V'.get a)) :
    Aligned W n ∧ (∀ a, ((W.get a).take n).Perm ((V.get a).take n)) ∧ CutAligned r ∧
    (∀ a, ((V'.slice 0 r.mid).get a).take r.mid = (r.view.get a).take r.mid) ∧ Aligned (V'.slice 0 r.mid) r.mid ∧
    (Harmless W n r →
      (∀ a, ((V'.slice r.mid V'.x.length).get a).take (r.stop - r.mid) = ((r.view.get a).take r.stop).drop r.mid) ∧
      Aligned (V'.slice r.mid V'.x.length) (r.stop - r.mid)) := by
  have hW := ho.aligned hso hV
  have hper := ho.perm hso (fun a => by rw [hV.len]; exact hV.le)
  have hl : ∀ a, (r.view.get a).length = r.view.x.length := fun a => by
    rw [he a, hV.len, ← hV.len 0]; exact (he 0).symm
  have hx : r.view.x.length = W.x.length := (he 0).trans (hper 0).2.symm
  have hca := hc.aligned hW hx
  obtain ⟨e1, e2, _⟩ := left_get hca hl hs
  refine ⟨hW, fun a => (hper a).1, hca, e1, e2, fun hp => ?_⟩
  obtain ⟨_, e2, _, e4⟩ := children_get hca hl fun a => ⟨(hs a).1, (hs a).quiet hp hca.le.1⟩
  exact ⟨e2, e4⟩

/-- An id that every move spares is not lost. -/
theorem SpatialRule.keeps {ctx : SpatialCtx F} {thr : F} (hso : ∀ a l l', ctx.sort a l = some l' → l'.Perm l) {p : Nat}
    {d : Nat} {B : Aabb F} {V : RefView F} {begin n : Nat} {sorted : Bool}
    {T : IdTree F} (h : SpatialRule ctx thr (Spares p) d B V begin n sorted T) (hV : Aligned V n) :
    ∀ x ∈ V.x.take n, x.primId = p → p ∈ T.ids := by
  induction h with
  | bottom h => intro x hx e; exact e ▸ List.mem_map_of_mem hx
  | leaf hn hd ho hl =>
    intro x hx e
    have := (ho.perm hso (fun a => by rw [hV.len]; exact hV.le) 0).1
    exact e ▸ List.mem_map_of_mem (this.mem_iff.2 hx)
  | @node d B V begin n sorted W r left right V' hn hd ho hc he hp hs hl hr ihl ihr =>
    obtain ⟨hW, hper, hca, e1, aL, hR⟩ := node_setup hso hV ho hc he hs
    obtain ⟨a, hids⟩ := hc.ids
    intro x hx hxp
    have hxa : x ∈ (W.get a).take n := (hper a).mem_iff.2 ((hV.perm a 0).mem_iff.2 hx)
    rw [IdTree.ids, List.mem_append]
    rcases hids x hxa with h | h
    · left
      obtain ⟨y, hy, ey⟩ := List.mem_map.1 h
      refine ihl aL y ?_ (ey.trans hxp)
      have := (hca.left a 0).mem_iff.1 hy
      rw [← e1 0] at this; exact this
    · right
      rcases hp with hp | hp
      · obtain ⟨e2, aR⟩ := hR hp
        obtain ⟨y, hy, ey⟩ := List.mem_map.1 h
        refine ihr aR y ?_ (ey.trans hxp)
        have := (hca.right a 0).mem_iff.1 hy
        rw [← e2 0] at this; exact this
      · exact absurd (hxp ▸ h) (hp a)

theorem shrink_has {a b : Aabb F} {v : Vec3 F} (ha : a.Has v) (hb : b.Has v) : (a.shrink b).Has v :=
  ⟨Vec3.max_le ha.1 hb.1, Vec3.le_min ha.2 hb.2⟩

theorem hasFilter (v : Vec3 F) : BoxFilter fun a : Aabb F => a.Has v :=
  ⟨fun h hv => h.has hv, shrink_has⟩

theorem withinFilter {box : Aabb F} : BoxFilter fun a : Aabb F => box.Within a :=
  ⟨fun h hv => hv.trans h, fun ha hb => ⟨Vec3.max_le ha.1 hb.1, Vec3.le_min ha.2 hb.2⟩⟩

/-- A property of a reference's box that the provided `split` keeps is handed down a path to a leaf that lists the
reference's primitive, if every move spares that primitive; and whatever the `split` does, if the primitive is listed only
once: then it was never cut in two. -/
theorem SpatialRule.reaches {ctx : SpatialCtx F} {thr : F} (hso : ∀ a l l', ctx.sort a l = some l' → l'.Perm l)
    (hsp : ∀ p ∈ ctx.prims, ∀ a x, (p.split a x).1.Numeric ∧ (p.split a x).2.Numeric) {P : Aabb F → Prop} (hP : BoxFilter P)
    {p : Nat} {d : Nat} {B : Aabb F} {V : RefView F} {begin n : Nat} {sorted : Bool}
    {T : IdTree F} (h : SpatialRule ctx thr (Spares p) d B V begin n sorted T) (hV : Aligned V n) (hN : NumericRefs V)
    (hB : ∀ x ∈ V.x.take n, x.aabb.Within B) :
    ∀ x ∈ V.x.take n, x.primId = p → P x.aabb →
      (∀ q, ctx.prims[p]? = some q → SplitKeeps q.split P) ∨ T.ids.count p ≤ 1 → T.Reaches p P := by
  induction h with
  | bottom h => intro x hx e hv _; exact ⟨hP.mono (hB x hx) hv, e ▸ List.mem_map_of_mem hx⟩
  | leaf hn hd ho hl =>
    intro x hx e hv _
    have := (ho.perm hso (fun a => by rw [hV.len]; exact hV.le) 0).1
    exact ⟨hP.mono (hB x hx) hv, e ▸ List.mem_map_of_mem (this.mem_iff.2 hx)⟩
  | @node d B V begin n sorted W r left right V' hn hd ho hc he hp hs hl hr ihl ihr =>
    obtain ⟨hW, hper, hca, e1, aL, hR⟩ := node_setup hso hV ho hc he hs
    obtain ⟨⟨a, pos, hcov, hbl, hbr⟩, c2⟩ := hc.covers (ho.numeric hso hN) hsp
    have hV' : NumericRefs V' := fun a x hx => c2 a x ((hs a).mem hx)
    intro x hx hxp hv hk
    have toL : ∀ y ∈ (r.view.get a).take r.mid, y ∈ (V'.slice 0 r.mid).x.take r.mid := fun y hy => by
      have := (hca.left a 0).mem_iff.1 hy
      rw [← e1 0] at this; exact this
    have ofL : ∀ y ∈ (V'.slice 0 r.mid).x.take r.mid, y.aabb.Within r.leftBox := fun y hy => by
      have hy' : y ∈ ((V'.slice 0 r.mid).get 0).take r.mid := hy
      rw [e1 0] at hy'
      exact hbl y ((hca.left 0 a).mem_iff.1 hy')
    have IL := ihl aL (hV'.slice _ _) ofL
    have KL : ∀ y ∈ (r.view.get a).take r.mid, y.primId = p → p ∈ left.ids := fun y hy => hl.keeps hso aL y (toL y hy)
    have KR : ∀ y ∈ ((r.view.get a).take r.stop).drop r.mid, y.primId = p → p ∈ right.ids := by
      intro y hy ey
      rcases hp with hp | hp
      · obtain ⟨e2, aR⟩ := hR hp
        refine hr.keeps hso aR y ?_ ey
        have := (hca.right a 0).mem_iff.1 hy
        rw [← e2 0] at this; exact this
      · exact absurd (ey ▸ List.mem_map_of_mem hy) (hp a)
    have kL : (∀ q, ctx.prims[p]? = some q → SplitKeeps q.split P) ∨ left.ids.count p ≤ 1 := hk.imp id fun hk => by
      rw [IdTree.ids, List.count_append] at hk; omega
    have kR : (∀ q, ctx.prims[p]? = some q → SplitKeeps q.split P) ∨ right.ids.count p ≤ 1 := hk.imp id fun hk => by
      rw [IdTree.ids, List.count_append] at hk; omega
    have IR : ∀ y ∈ ((r.view.get a).take r.stop).drop r.mid, y.primId = p → P y.aabb →
        (∀ q, ctx.prims[p]? = some q → SplitKeeps q.split P) ∨ right.ids.count p ≤ 1 → right.Reaches p P := by
      intro y hy ey
      rcases hp with hp | hp
      · obtain ⟨e2, aR⟩ := hR hp
        have ofR : ∀ y ∈ (V'.slice r.mid V'.x.length).x.take (r.stop - r.mid), y.aabb.Within r.rightBox := fun y hy => by
          have hy' : y ∈ ((V'.slice r.mid V'.x.length).get 0).take (r.stop - r.mid) := hy
          rw [e2 0] at hy'
          exact hbr y ((hca.right 0 a).mem_iff.1 hy')
        refine ihr aR (hV'.slice _ _) ofR y ?_ ey
        have := (hca.right a 0).mem_iff.1 hy
        rw [← e2 0] at this; exact this
      · exact absurd (ey ▸ List.mem_map_of_mem hy) (hp a)
    have hxB := hP.mono (hB x hx) hv
    have hBn : B.Numeric := (hB x hx).num_right
    refine ⟨hP.mono (Aabb.within_offset_lit hBn (by decide) (by decide) (by decide) (by decide)) hxB, ?_⟩
    have hxa : x ∈ (W.get a).take n := (hper a).mem_iff.2 ((hV.perm a 0).mem_iff.2 hx)
    rcases hcov x hxa with h | h | ⟨lo, hlo, hi, hhi, ⟨q, hq, el, bl, _⟩, ⟨q', hq', er, br, _⟩⟩
    · exact .inl (IL x (toL x h) hxp hv kL)
    · exact .inr (IR x h hxp hv kR)
    · rw [hq] at hq'; cases hq'
      rcases hk with hk | hk
      · rcases hk q (hxp ▸ hq) a pos with hh | hh
        · left
          exact IL lo (toL lo hlo) (el.trans hxp) (by rw [bl]; exact hP.inter hh hv) (.inl hk)
        · right
          exact IR hi hhi (er.trans hxp) (by rw [br]; exact hP.inter hh hv) (.inl hk)
      · have c1 := List.count_pos_iff.2 (KL lo hlo (el.trans hxp))
        have c2 := List.count_pos_iff.2 (KR hi hhi (er.trans hxp))
        rw [IdTree.ids, List.count_append] at hk
        omega

omit [LawfulFloat F] in
/-- The statement about every cut can be weakened. -/
theorem SpatialRule.mono {ctx : SpatialCtx F} {thr : F} {P Q : RefView F → Nat → SplitResult F → Prop}
    (hPQ : ∀ W n r, P W n r → Q W n r) {d : Nat} {B : Aabb F} {V : RefView F} {begin n : Nat} {sorted : Bool}
    {T : IdTree F} (h : SpatialRule ctx thr P d B V begin n sorted T) :
    SpatialRule ctx thr Q d B V begin n sorted T := by
  induction h with
  | bottom h => exact .bottom h
  | leaf hn hd ho hl => exact .leaf hn hd ho hl
  | node hn hd ho hc he hp hs _ _ ihl ihr => exact .node hn hd ho hc he (hPQ _ _ _ hp) hs ihl ihr

end Rtbvh
