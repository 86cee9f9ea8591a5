import Verif.Proofs.SpatialMove
import Verif.Proofs.SpatialMain
import Verif.Props.Mbvh
/- C42, C76: what a spatial build keeps, and why it loses the rest.  The only cause is the move after a cut
(src/builders/spatial_sah.rs 365-445): the right part is moved to make room for the left child, but the right child reads
the old place. -/
namespace Rtbvh
open FloatOps
variable {F : Type} [FloatOps F] [LawfulFloat F]

/-- The tree is cut by the spatial rule (`SpatialRule`), and no move on the way overwrites references (`Harmless`). -/
def Builder.QuietSpatial (b : Builder F) (split : Nat → Fin 3 → F → Aabb F × Aabb F)
    (sort : Fin 3 → List (Ref F) → Option (List (Ref F))) (order : List Nat) (T : IdTree F) : Prop :=
  ∃ ctx V, SpatialParams b split sort order ctx ∧ SpatialStart b order V ∧
    SpatialRule ctx (lit 1 (-5) *. lit 2 0 *. (Aabb.unionOfList (b.boxes order)).halfArea) Harmless 0
      (Aabb.unionOfList (b.boxes order)) V 0 b.primitives.length false T

/-- The tree is cut by the spatial rule, and every move on the way spares primitive `p` (`Spares`): at each node either the
move overwrites nothing or no reference to `p` is in the part it moves. -/
def Builder.SparesSpatial (b : Builder F) (split : Nat → Fin 3 → F → Aabb F × Aabb F)
    (sort : Fin 3 → List (Ref F) → Option (List (Ref F))) (order : List Nat) (T : IdTree F) (p : Nat) : Prop :=
  ∃ ctx V, SpatialParams b split sort order ctx ∧ SpatialStart b order V ∧
    SpatialRule ctx (lit 1 (-5) *. lit 2 0 *. (Aabb.unionOfList (b.boxes order)).halfArea) (Spares p) 0
      (Aabb.unionOfList (b.boxes order)) V 0 b.primitives.length false T

omit [LawfulFloat F] in
theorem Builder.QuietSpatial.spares {b : Builder F} {split : Nat → Fin 3 → F → Aabb F × Aabb F}
    {sort : Fin 3 → List (Ref F) → Option (List (Ref F))} {order : List Nat} {T : IdTree F}
    (h : b.QuietSpatial split sort order T) (p : Nat) : b.SparesSpatial split sort order T p := by
  obtain ⟨ctx, V, h1, h2, h3⟩ := h
  exact ⟨ctx, V, h1, h2, h3.mono fun _ _ _ => .inl⟩

theorem SpatialStart.take {b : Builder F} {order : List Nat} {sort : Fin 3 → List (Ref F) → Option (List (Ref F))}
    (h : b.LegalSpatial order sort) {V : RefView F} (hV : SpatialStart b order V) (a : Fin 3) :
    (V.get a).take b.primitives.length = (b.primitives.zipIdx.map fun x => ⟨boxAt (b.boxes order) x.2, x.1.center, x.2⟩) := by
  refine List.ext_getElem? fun i => ?_
  rw [List.getElem?_take, List.getElem?_map, List.getElem?_zipIdx]
  by_cases hi : i < b.primitives.length
  · rw [if_pos hi]
    obtain ⟨box, h1, h2⟩ := hV.refs a i _ (List.getElem?_eq_getElem hi)
    rw [h2, List.getElem?_eq_getElem hi]
    simp [boxAt, List.getD_eq_getElem?_getD, h1]
  · rw [if_neg hi, List.getElem?_eq_none (by omega)]; rfl

theorem SpatialStart.aligned {b : Builder F} {order : List Nat} {sort : Fin 3 → List (Ref F) → Option (List (Ref F))}
    (h : b.LegalSpatial order sort) {V : RefView F} (hV : SpatialStart b order V) : Aligned V b.primitives.length := by
  have hx : V.x.length = referenceLimit F b.primitives.length := hV.room 0
  refine ⟨fun a => by rw [hx, hV.room a], ?_, fun a c => ?_, fun a => ?_⟩
  · rw [hx]; unfold referenceLimit; omega
  · rw [hV.take h a, hV.take h c]
  · rw [hV.take h a, List.map_map]
    exact (show _ = _ from List.zipIdx_map_snd _ _) ▸ List.nodup_range'

/-- C42, the part that holds, and with it the only cause of losses.  Whatever the scene, the schedule, the sort and the
provided `split`: a primitive that every move spares is listed by a leaf.  (So a primitive missing from the tree means that
some node moved a right part with a reference to that primitive, by less than that part's length.)
Missing: primitives that a move overwrites, see `C42_primitive_lost`. -/
theorem C42_spared_kept_partial {b : Builder F} {split : Nat → Fin 3 → F → Aabb F × Aabb F}
    {sort : Fin 3 → List (Ref F) → Option (List (Ref F))} {order : List Nat} (h : b.LegalSpatial order sort)
    {T : BTree F} {idx : List Nat} {p : Nat} (hp : p < b.primitives.length)
    (hq : b.SparesSpatial split sort order (T.withIds idx) p) : p ∈ T.ids idx := by
  obtain ⟨ctx, V, hc, hV, hR⟩ := hq
  rw [← BTree.withIds_ids]
  exact hR.keeps (by rw [hc.sort]; exact h.sorts) (hV.aligned h)
    ⟨boxAt (b.boxes order) p, (b.primitives[p]).center, p⟩ (by
      show _ ∈ (V.get 0).take _
      rw [hV.take h 0]
      exact List.mem_map.2 ⟨(b.primitives[p], p), List.mk_mem_zipIdx_iff_getElem?.2 (List.getElem?_eq_getElem hp), rfl⟩) rfl

/-- C42: in particular, if no move after a cut overwrites references, every primitive is listed by a leaf. -/
theorem C42_no_harm_keeps_partial {b : Builder F} {split : Nat → Fin 3 → F → Aabb F × Aabb F}
    {sort : Fin 3 → List (Ref F) → Option (List (Ref F))} {order : List Nat} (h : b.LegalSpatial order sort)
    {T : BTree F} {idx : List Nat} (hq : b.QuietSpatial split sort order (T.withIds idx)) :
    ∀ p < b.primitives.length, p ∈ T.ids idx :=
  fun p hp => C42_spared_kept_partial h hp (hq.spares p)

/-- C09 for the spatial builder: without a harmful move `validate` returns true. -/
theorem C09_spatial_no_harm_partial {b : Builder F} {split : Nat → Fin 3 → F → Aabb F × Aabb F}
    {sort : Fin 3 → List (Ref F) → Option (List (Ref F))} {order ks : List Nat} (h : b.LegalSpatial order sort)
    {bvh : Bvh F} (e : b.constructSpatialSah split sort order ks = .ok (.ok (some bvh))) {T : BTree F}
    (hU : Unfolds bvh.nodes 0 T) (hq : b.QuietSpatial split sort order (T.withIds bvh.indices)) (fuel : Nat)
    (hf : 64 < fuel) : bvh.validate fuel b.primitives.length = some true := by
  obtain ⟨r, h1, h2⟩ := C09_spatial_validate_partial b split sort order ks h bvh e T hU fuel hf
  rw [h1, h2.2 (C42_no_harm_keeps_partial h hq)]

/-- C76 with any property of boxes that larger boxes inherit and common parts keep, instead of containing a point. -/
theorem spared_covers {b : Builder F} {split : Nat → Fin 3 → F → Aabb F × Aabb F}
    {sort : Fin 3 → List (Ref F) → Option (List (Ref F))} {order : List Nat} (h : b.LegalSpatial order sort)
    (hb : ∀ x ∈ b.boxes order, x.Numeric) (hsp : ∀ i a x, (split i a x).1.Numeric ∧ (split i a x).2.Numeric)
    {T : BTree F} {idx : List Nat} {P : Aabb F → Prop} (hP : BoxFilter P) :
    ∀ p < b.primitives.length, b.SparesSpatial split sort order (T.withIds idx) p → 
      P (boxAt (b.boxes order) p) → SplitKeeps (split p) P ∨ (T.ids idx).count p ≤ 1 → T.Reaches idx p P := by
  intro p hp ⟨ctx, V, hc, hV, hR⟩ hv hk
  have hlen := Builder.boxes_length h.toLegal
  have boxNum : ∀ p < b.primitives.length, (boxAt (b.boxes order) p).Numeric := fun p hp =>
    hb _ (boxAt_mem (by omega))
  have mem : ∀ p (hp : p < b.primitives.length) a,
      (⟨boxAt (b.boxes order) p, (b.primitives[p]).center, p⟩ : Ref F) ∈ (V.get a).take b.primitives.length := by
    intro p hp a
    rw [hV.take h a]
    exact List.mem_map.2 ⟨(b.primitives[p], p), List.mk_mem_zipIdx_iff_getElem?.2 (List.getElem?_eq_getElem hp), rfl⟩
  have of : ∀ a, ∀ x ∈ (V.get a).take b.primitives.length, ∃ p, ∃ hp : p < b.primitives.length,
      x = ⟨boxAt (b.boxes order) p, (b.primitives[p]).center, p⟩ := by
    intro a x hx
    rw [hV.take h a, List.mem_map] at hx
    obtain ⟨⟨pr, i⟩, hm, rfl⟩ := hx
    have hi := List.mk_mem_zipIdx_iff_getElem?.1 hm
    obtain ⟨hp, e⟩ := List.getElem?_eq_some_iff.1 hi
    exact ⟨i, hp, by rw [← e]⟩
  have hN : NumericRefs V := by
    intro a x hx
    rw [← List.take_append_drop b.primitives.length (V.get a), List.mem_append] at hx
    rcases hx with hx | hx
    · obtain ⟨p, hp, rfl⟩ := of a x hx
      exact boxNum p hp
    · rw [hV.rest a x hx]
      exact Aabb.new_numeric
  have splitNum : ∀ p ∈ ctx.prims, ∀ a x, (p.split a x).1.Numeric ∧ (p.split a x).2.Numeric := by
    intro q hqm a x
    obtain ⟨i, hi⟩ := List.mem_iff_getElem?.1 hqm
    obtain ⟨hil, _⟩ := List.getElem?_eq_some_iff.1 hi
    rw [hc.count] at hil
    rw [hc.prims i _ (List.getElem?_eq_getElem hil)] at hi
    cases hi
    exact hsp i a x
  have root : ∀ x ∈ V.x.take b.primitives.length, x.aabb.Within (Aabb.unionOfList (b.boxes order)) := by
    intro x hx
    obtain ⟨p, hp, rfl⟩ := of 0 x hx
    exact unionOfList_contains hb _ (boxAt_mem (p := p) (l := b.boxes order) (by rw [hlen]; exact hp))
  have key := hR.reaches (by rw [hc.sort]; exact h.sorts) splitNum hP (hV.aligned h) hN root
    ⟨boxAt (b.boxes order) p, (b.primitives[p]).center, p⟩ (mem p hp 0) rfl hv (hk.imp (fun hk q hq => by
      rw [hc.prims p _ (List.getElem?_eq_getElem hp)] at hq
      cases hq
      exact hk) fun hk => by rw [BTree.withIds_ids]; exact hk)
  have conv : ∀ T : BTree F, (T.withIds idx).Reaches p P → T.Reaches idx p P := by
    intro T
    induction T with
    | leaf => exact id
    | node b l r ihl ihr => exact fun h => ⟨h.1, h.2.imp ihl ihr⟩
  exact conv T key

/-- C76, the part that holds.  For scenes and provided `split`s without NaN: every point `v` of the box of a primitive that
every move spares, if the provided `split` never loses it (`SplitKeeps`) or the primitive is listed only once, is covered by a path from the root to a leaf that
lists the primitive: the leaf's box and all boxes above it contain `v`.
Missing: primitives that a move overwrites, see `C76_leaf_elsewhere`, `C76_child_sticks_out`. -/
theorem C76_spared_covered_partial {b : Builder F} {split : Nat → Fin 3 → F → Aabb F × Aabb F}
    {sort : Fin 3 → List (Ref F) → Option (List (Ref F))} {order : List Nat} (h : b.LegalSpatial order sort)
    (hb : ∀ x ∈ b.boxes order, x.Numeric) (hsp : ∀ i a x, (split i a x).1.Numeric ∧ (split i a x).2.Numeric)
    {T : BTree F} {idx : List Nat} :
    ∀ p < b.primitives.length, b.SparesSpatial split sort order (T.withIds idx) p →
      ∀ v, (boxAt (b.boxes order) p).Has v → SplitKeeps (split p) (fun a => a.Has v) ∨ (T.ids idx).count p ≤ 1 →
      T.Reaches idx p fun a => a.Has v :=
  fun p hp hq v => spared_covers h hb hsp (hasFilter v) p hp hq

/-- C76: in particular for all primitives if no move after a cut overwrites references. -/
theorem C76_no_harm_covers_partial {b : Builder F} {split : Nat → Fin 3 → F → Aabb F × Aabb F}
    {sort : Fin 3 → List (Ref F) → Option (List (Ref F))} {order : List Nat} (h : b.LegalSpatial order sort)
    (hb : ∀ x ∈ b.boxes order, x.Numeric) (hsp : ∀ i a x, (split i a x).1.Numeric ∧ (split i a x).2.Numeric)
    {T : BTree F} {idx : List Nat} (hq : b.QuietSpatial split sort order (T.withIds idx)) :
    ∀ p < b.primitives.length, ∀ v, (boxAt (b.boxes order) p).Has v → SplitKeeps (split p) (fun a => a.Has v) →
      T.Reaches idx p fun a => a.Has v :=
  fun p hp v hv hk => C76_spared_covered_partial h hb hsp p hp (hq.spares p) v hv (.inl hk)

/-- C76 for primitives that are listed only once, whatever the provided `split` returns (the one for triangles loses points,
C41): if every move spares such a primitive, then it was never cut in two, and its whole box is inside its leaf's box and
inside all boxes above. -/
theorem C76_once_within_partial {b : Builder F} {split : Nat → Fin 3 → F → Aabb F × Aabb F}
    {sort : Fin 3 → List (Ref F) → Option (List (Ref F))} {order : List Nat} (h : b.LegalSpatial order sort)
    (hb : ∀ x ∈ b.boxes order, x.Numeric) (hsp : ∀ i a x, (split i a x).1.Numeric ∧ (split i a x).2.Numeric)
    {T : BTree F} {idx : List Nat} :
    ∀ p < b.primitives.length, b.SparesSpatial split sort order (T.withIds idx) p → (T.ids idx).count p ≤ 1 →
      T.Reaches idx p fun a => (boxAt (b.boxes order) p).Within a := by
  intro p hp hq hc
  refine spared_covers h hb hsp withinFilter p hp hq ?_ (.inr hc)
  exact Aabb.Within.refl (hb _ (boxAt_mem (by rw [Builder.boxes_length h.toLegal]; exact hp)))

/-! A check, used for the examples: run the decisions of a build and look at every move. -/

/-- Every cut of the build, after its move, passes the check `ok`. -/
def movesTree (ctx : SpatialCtx F) (thr : F) (M : Nat) (ok : SplitResult F → Bool) :
    (d : Nat) → Aabb F → RefView F → (begin n : Nat) → Bool → Bool
  | 0, _, _, _, _, _ => true
  | d + 1, bounds, v, begin, n, srt =>
    match spatialDecide ctx thr M bounds v begin n (ctx.maxDepth - (d + 1)) srt with
    | .ok (.split r) => ok r &&
      movesTree ctx thr M ok d r.leftBox (r.view.slice 0 r.mid) begin r.mid r.sorted &&
      movesTree ctx thr M ok d r.rightBox (r.view.slice r.mid r.view.x.length) (begin + r.mid) (r.stop - r.mid) r.sorted
    | _ => true

theorem spatialTree_moves {N M : Nat} {ctx : SpatialCtx F} (hsort : ctx.Sorts) (hN : ctx.prims.length = N) {thr : F}
    {ok : SplitResult F → Bool} {P : RefView F → Nat → SplitResult F → Prop}
    (hok : ∀ (W : RefView F) n (r : SplitResult F) V', V'.x.length = W.x.length →
      (∀ a, Shifted r.mid r.stop (leftShare W.x.length r.mid r.stop r.leftBox r.rightBox) (r.view.get a) (V'.get a)) →
      ok { r with view := V' } = true → P W n r) :
    ∀ (d : Nat) {bounds : Aabb F} {v : RefView F} {begin n len : Nat} {srt : Bool} {T : IdTree F}, d ≤ ctx.maxDepth →
    v.Len len → v.All (fun r => r.primId < N) → n ≤ len → spatialTree ctx thr M d bounds v begin n srt = .ok T →
    movesTree ctx thr M ok d bounds v begin n srt = true →
    SpatialRule ctx thr P (ctx.maxDepth - d) bounds v begin n srt T
  | 0, bounds, v, begin, n, len, srt, T, hd, hl, ha, hn, h, _ => by
    rw [spatialTree] at h
    split at h
    · cases h
    · rename_i v' hdec
      rcases spatialDecide_rule hsort hN hl ha hn hdec with ⟨h1, h2⟩ | ⟨_, h2, _⟩
      · cases h2
        cases h
        exact .bottom (.inr (by omega))
      · omega
    · cases h
  | d + 1, bounds, v, begin, n, len, srt, T, hd, hl, ha, hn, h, hq => by
    rw [spatialTree] at h
    rw [movesTree] at hq
    split at h
    · cases h
    · rename_i v' hdec
      rcases spatialDecide_rule hsort hN hl ha hn hdec with ⟨h1, h2⟩ | ⟨h1, h2, W, hW, ⟨h3, h4⟩ | ⟨_, _, h3, _⟩⟩
      · cases h2
        cases h
        exact .bottom h1
      · cases h3
        cases h
        exact .leaf h1 h2 hW h4
      · cases h3
    · rename_i r hdec
      simp only [hdec, Bool.and_eq_true] at hq
      obtain ⟨⟨hharm, hqL⟩, hqR⟩ := hq
      obtain ⟨L, R, hL, hR, rfl⟩ := combine_ok h
      rcases spatialDecide_rule hsort hN hl ha hn hdec with ⟨_, h2⟩ | ⟨h1, h2, W, hW, ⟨h3, h4⟩ | ⟨r0, V', h3, h4, h5⟩⟩
      · cases h2
      · cases h3
      · rcases spatialDecide_ok hsort hN hl ha hn hdec with ⟨_, h6, _⟩ | ⟨r', h6, okk, _⟩
        · cases h6
        cases h6
        cases h3
        have hx : V'.x.length = len := okk.len.get 0
        have hWx : W.x.length = len := by
          have := (hW.perm hsort (fun a => by rw [hl.get a]; exact hn) 0).2
          exact this.trans (hl.get 0)
        have hm : r0.mid ≤ len := Nat.le_trans okk.mid okk.stop
        obtain ⟨_, lenL, lenR⟩ := RefView.split_append okk.len hm
        simp only at lenL lenR hL hR hqL hqR
        rw [← hx] at lenR
        have e : ctx.maxDepth - (d + 1) + 1 = ctx.maxDepth - d := by omega
        refine .node h1 h2 hW h4 (fun a => by rw [hl.get a, ← okk.len.get a]; exact ((h5 a).1).symm)
          (hok W n r0 V' (by rw [hx, hWx]) h5 hharm) h5 ?_ ?_
        · rw [e]
          exact spatialTree_moves hsort hN hok d (by omega) lenL (okk.all.slice _ _) (Nat.le_refl _) hL hqL
        · rw [e]
          have := okk.stop
          exact spatialTree_moves hsort hN hok d (by omega) lenR (okk.all.slice _ _) (by simp only at *; omega) hR hqR

/-- The check for a whole build. -/
def Builder.moves (b : Builder F) (split : Nat → Fin 3 → F → Aabb F × Aabb F)
    (sort : Fin 3 → List (Ref F) → Option (List (Ref F))) (order : List Nat) (ok : SplitResult F → Bool) : Bool :=
  let ctx := b.spatialCtx split sort order
  movesTree ctx (spatialThreshold ctx) (maxReferenceCount ctx) ok ctx.maxDepth (Aabb.unionOfList ctx.aabbs)
    (.ofFn fun _ => initialRefs ctx) 0 ctx.aabbs.length false

/-- If the check passes, the build makes only moves as wanted. -/
theorem moves_spatial {b : Builder F} {split : Nat → Fin 3 → F → Aabb F × Aabb F}
    {sort : Fin 3 → List (Ref F) → Option (List (Ref F))} {order ks : List Nat} (h : b.LegalSpatial order sort)
    {bvh : Bvh F} (e : b.constructSpatialSah split sort order ks = .ok (.ok (some bvh))) {T : BTree F}
    (hU : Unfolds bvh.nodes 0 T) {ok : SplitResult F → Bool} {P : RefView F → Nat → SplitResult F → Prop}
    (hok : ∀ (W : RefView F) n (r : SplitResult F) V', V'.x.length = W.x.length →
      (∀ a, Shifted r.mid r.stop (leftShare W.x.length r.mid r.stop r.leftBox r.rightBox) (r.view.get a) (V'.get a)) →
      ok { r with view := V' } = true → P W n r) (hq : b.moves split sort order ok = true) :
    ∃ ctx V, SpatialParams b split sort order ctx ∧ SpatialStart b order V ∧
      SpatialRule ctx (lit 1 (-5) *. lit 2 0 *. (Aabb.unionOfList (b.boxes order)).halfArea) P 0
        (Aabb.unionOfList (b.boxes order)) V 0 b.primitives.length false (T.withIds bvh.indices) := by
  obtain ⟨T', hU', hT, _⟩ := spatial_built h e
  have := hU.det hU'; subst this
  obtain ⟨hs, _, _⟩ := h.setting (split := split)
  refine ⟨_, _, spatialCtx_params, spatial_start (split := split) h, ?_⟩
  have hM : b.primitives.length ≤ maxReferenceCount (b.spatialCtx split sort order) := by
    unfold maxReferenceCount; rw [hs.aabbs]; omega
  have hl := initialRefs_length (ctx := b.spatialCtx split sort order) (by rw [hs.prims, hs.aabbs])
  have hi := initialRefs_ids hs
  have hlen : (RefView.ofFn fun _ => initialRefs (b.spatialCtx split sort order)).Len
      (maxReferenceCount (b.spatialCtx split sort order)) := by
    refine ⟨?_, ?_, ?_⟩ <;> simpa [RefView.ofFn] using hl
  have hall : (RefView.ofFn fun _ => initialRefs (b.spatialCtx split sort order)).All
      fun r => r.primId < b.primitives.length := by
    refine ⟨?_, ?_, ?_⟩ <;> simpa [RefView.ofFn] using hi
  unfold spatialRootTree at hT
  unfold Builder.moves at hq
  rw [hs.aabbs] at hT
  simp only [hs.aabbs] at hq
  have := spatialTree_moves hs.sorts hs.prims hok _ (Nat.le_refl _) hlen hall hM hT hq
  rwa [Nat.sub_self] at this

/-- No harmful move. -/
def quietMove (r : SplitResult F) : Bool :=
  leftShare r.view.x.length r.mid r.stop r.leftBox r.rightBox == 0 ||
    decide (r.stop - r.mid ≤ leftShare r.view.x.length r.mid r.stop r.leftBox r.rightBox)

/-- The check that a build makes no harmful move. -/
def Builder.quiet (b : Builder F) (split : Nat → Fin 3 → F → Aabb F × Aabb F)
    (sort : Fin 3 → List (Ref F) → Option (List (Ref F))) (order : List Nat) : Bool := b.moves split sort order quietMove

omit [LawfulFloat F] in
theorem quietMove_sound {W V' : RefView F} {n : Nat} {r : SplitResult F} (hx : V'.x.length = W.x.length)
    (h : quietMove { r with view := V' } = true) : Harmless W n r := by
  unfold quietMove at h
  simp only [Bool.or_eq_true, beq_iff_eq, decide_eq_true_eq, hx] at h
  exact h

/-- If the check passes, the build makes no harmful move. -/
theorem quiet_spatial {b : Builder F} {split : Nat → Fin 3 → F → Aabb F × Aabb F}
    {sort : Fin 3 → List (Ref F) → Option (List (Ref F))} {order ks : List Nat} (h : b.LegalSpatial order sort)
    {bvh : Bvh F} (e : b.constructSpatialSah split sort order ks = .ok (.ok (some bvh))) {T : BTree F}
    (hU : Unfolds bvh.nodes 0 T) (hq : b.quiet split sort order = true) :
    b.QuietSpatial split sort order (T.withIds bvh.indices) :=
  moves_spatial h e hU (fun _ _ _ _ hx _ hk => quietMove_sound hx hk) hq

/-- No harmful move of references to `p`; after the move they are `share` places further on. -/
def sparingMove (p : Nat) (r : SplitResult F) : Bool :=
  quietMove r || (List.finRange 3).all fun a => !(((r.view.get a).drop
    (r.mid + leftShare r.view.x.length r.mid r.stop r.leftBox r.rightBox)).take (r.stop - r.mid)).any (·.primId == p)

omit [FloatOps F] [LawfulFloat F] in
theorem Shifted.moved {mid stop s : Nat} {l l' : List (Ref F)} (h : Shifted mid stop s l l') :
    (l'.drop (mid + s)).take (stop - mid) = (l.take stop).drop mid := by
  refine List.ext_getElem? fun i => ?_
  rw [List.getElem?_take, List.getElem?_drop, List.getElem?_drop, List.getElem?_take]
  by_cases hi : i < stop - mid
  · rw [if_pos hi, if_pos (by omega), h.2.2, if_pos (by omega)]
    congr 1; omega
  · rw [if_neg hi, if_neg (by omega)]

/-- If the check passes, the build spares primitive `p`. -/
theorem sparing_spatial {b : Builder F} {split : Nat → Fin 3 → F → Aabb F × Aabb F}
    {sort : Fin 3 → List (Ref F) → Option (List (Ref F))} {order ks : List Nat} (h : b.LegalSpatial order sort)
    {bvh : Bvh F} (e : b.constructSpatialSah split sort order ks = .ok (.ok (some bvh))) {T : BTree F}
    (hU : Unfolds bvh.nodes 0 T) {p : Nat} (hq : b.moves split sort order (sparingMove p) = true) :
    b.SparesSpatial split sort order (T.withIds bvh.indices) p := by
  refine moves_spatial h e hU (fun W n r V' hx hs hk => ?_) hq
  unfold sparingMove at hk
  rw [Bool.or_eq_true] at hk
  rcases hk with hk | hk
  · exact .inl (quietMove_sound hx hk)
  · right
    intro a hm
    rw [List.all_eq_true] at hk
    have := hk a (List.mem_finRange a)
    rw [Bool.not_eq_true', List.any_eq_false] at this
    obtain ⟨x, hxm, ex⟩ := List.mem_map.1 hm
    simp only [hx] at this
    rw [(hs a).moved] at this
    exact this x hxm (by simpa using ex)

/-- Not vacuous: three triangles with the provided `split`: no harmful move, so all are kept. -/
example : ∃ (bvh : Bvh F32) (T : BTree F32), Unfolds bvh.nodes 0 T ∧ 1 < T.leaves ∧
    (triScene keptScene).QuietSpatial (triSplit keptScene) refSort [0, 1, 2] (T.withIds bvh.indices) ∧
    ∀ p < 3, p ∈ T.ids bvh.indices := by
  have key : (spatialBuilt ((triScene keptScene).constructSpatialSah (triSplit keptScene) refSort [0, 1, 2]
      (List.replicate 10 0))).map (fun x => decide (1 < x.2.leaves)) = some true := by decide +kernel
  rw [Option.map_eq_some_iff] at key
  obtain ⟨⟨bvh, T⟩, h1, h2⟩ := key
  obtain ⟨e, hU⟩ := spatialBuilt_some h1
  have hl := triScene_legal keptScene [0, 1, 2] (by decide) (by decide) (by decide) (by decide +kernel)
  have hq := quiet_spatial hl e hU (by decide +kernel)
  exact ⟨bvh, T, hU, by simpa using h2, hq, C42_no_harm_keeps_partial hl hq⟩

/-- Not vacuous where a move does harm: of the three triangles of `lostScene` the build loses triangle 2
(`C42_primitive_lost`), but it spares triangle 0, which is kept, and its corners are covered. -/
example : ∃ (bvh : Bvh F32) (T : BTree F32),
    (triScene lostScene).constructSpatialSah (triSplit lostScene) refSort [0, 1, 2] (List.replicate 10 0) =
      .ok (.ok (some bvh)) ∧ Unfolds bvh.nodes 0 T ∧ 2 ∉ T.ids bvh.indices ∧
    ¬ (triScene lostScene).QuietSpatial (triSplit lostScene) refSort [0, 1, 2] (T.withIds bvh.indices) ∧
    (triScene lostScene).SparesSpatial (triSplit lostScene) refSort [0, 1, 2] (T.withIds bvh.indices) 0 ∧
    0 ∈ T.ids bvh.indices := by
  obtain ⟨bvh, T, hl, e, hU, _, h2, _⟩ := C42_primitive_lost
  have hs := sparing_spatial (p := 0) hl e hU (by decide +kernel)
  exact ⟨bvh, T, e, hU, h2, fun hq => h2 (C42_no_harm_keeps_partial hl hq 2 (by decide)), hs,
    C42_spared_kept_partial hl (by decide) hs⟩

end Rtbvh
