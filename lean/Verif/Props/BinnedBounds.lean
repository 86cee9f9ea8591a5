import Verif.Proofs.BinnedBounds
import Verif.Props.Slab
import Verif.Props.Exact
/- Properties C06, C07, C55 (binned part) and C57: what the boxes and leaf sizes of a binned SAH build guarantee. -/
namespace Rtbvh
open Aabb FloatOps
variable {F : Type} [FloatOps F]

instance decForall (idx : List Nat) (P : Aabb F → List Nat → Prop) [∀ a ids, Decidable (P a ids)] :
    ∀ T : BTree F, Decidable (T.Forall idx P)
  | .leaf _ _ _ => by unfold BTree.Forall; infer_instance
  | .node _ l r => by
    have := decForall idx P l
    have := decForall idx P r
    unfold BTree.Forall; infer_instance
instance (T : BTree F32) (idx : List Nat) (boxes : Nat → Aabb F32) : Decidable (T.Bounds idx boxes) := by
  unfold BTree.Bounds; infer_instance

/-- A cube of half-width `r` around `(x, 0, 0)`, in any float type. -/
def cubePrim (x r : Int) : Prim F :=
  { center := ⟨lit x 0, zero, zero⟩
    aabb := ofPoints2 ⟨lit (x - r) 0, lit (-r) 0, lit (-r) 0⟩ ⟨lit (x + r) 0, lit r 0, lit r 0⟩ }

/-- A scene of cubes given as (position, half-width), with explicit boxes. -/
def cubeScene (l : List (Int × Int)) (ppl : Option Nat) : Builder F :=
  { aabbs := some (l.map fun p => (cubePrim p.1 p.2).aabb), primitives := l.map fun p => cubePrim p.1 p.2
    primitivesPerLeaf := ppl }

theorem cubeScene_legal (l : List (Int × Int)) (ppl : Option Nat) (h : l ≠ []) (hl : l.length ≤ 2 ^ 30) :
    (cubeScene l ppl : Builder F).Legal (List.range l.length) :=
  ⟨by simpa [cubeScene] using h, by simp [cubeScene], by simp [cubeScene], by simpa [cubeScene] using hl⟩

/-- The tree of a finished build, computed. -/
def builtTree (r : Except BuildError (Option (Option (Bvh F)))) : Option (Bvh F × BTree F) :=
  match built r with
  | some bvh => (unfold? bvh.nodes 100 0).map fun T => (bvh, T)
  | none => none

omit [FloatOps F] in
theorem builtTree_some {r : Except BuildError (Option (Option (Bvh F)))} {bvh : Bvh F} {T : BTree F}
    (h : builtTree r = some (bvh, T)) : r = .ok (some (some bvh)) ∧ Unfolds bvh.nodes 0 T := by
  unfold builtTree at h
  cases e : built r with
  | none => rw [e] at h; cases h
  | some b =>
    rw [e] at h
    simp only [Option.map_eq_some_iff, Prod.mk.injEq] at h
    obtain ⟨T', h1, rfl, rfl⟩ := h
    exact ⟨built_some e, unfold?_sound h1⟩

/-- Everything needed to talk about a finished binned build: it denotes the sequential tree. -/
theorem built_tree {b : Builder F} {order ks : List Nat} (h : b.Legal order) {bvh : Bvh F} {T : BTree F}
    (e : b.constructBinnedSah order ks = .ok (some (some bvh))) (hU : Unfolds bvh.nodes 0 T) :
    buildTree (b.ctx order) 64 (Aabb.unionOfList (b.boxes order)) (List.range b.primitives.length) 0 =
      some (T, bvh.indices) ∧ TreeOf T (List.range b.primitives.length) bvh.indices 0 64 := by
  obtain ⟨T', P, hb, hT, H⟩ := builder_main h
  obtain ⟨s, _, _, h3, h4⟩ := H ks
  have hp : s.pending = [] := by
    by_cases hp : s.pending = []
    · exact hp
    · rw [h4 hp] at e; cases e
  obtain ⟨e', hP, hU', hn⟩ := h3 hp
  rw [e'] at e; cases e
  have := hU.det hU'
  subst this
  rw [show (binnedFinish s).indices = P from hP]
  exact ⟨hb, hT⟩

section lawful
variable [LawfulFloat F]

theorem unionOfList_contains {bs : List (Aabb F)} (hn : ∀ b ∈ bs, b.Numeric) :
    ∀ b ∈ bs, b.Within (Aabb.unionOfList bs) := by
  intro b hb
  have h := (foldl_growBB hn new_numeric).2 b hb
  exact h.trans (within_offset_lit h.num_right (by decide) (by decide) (by decide) (by decide))

omit [LawfulFloat F] in
theorem inScene_range {b : Builder F} {order : List Nat} (h : b.Legal order) :
    InScene (b.ctx order) (List.range b.primitives.length) := by
  intro p hp
  have := List.mem_range.1 hp
  simp [Builder.ctx, BinnedCtx.new, Builder.boxes_length h, this]

omit [LawfulFloat F] in
theorem boxAt_mem {l : List (Aabb F)} {p : Nat} (h : p < l.length) : boxAt l p ∈ l := by
  simp [boxAt, List.getD, h]

theorem bounds_mono {idx : List Nat} {f g : Nat → Aabb F} (T : BTree F) (hw : ∀ p ∈ T.ids idx, (f p).Within (g p))
    (h : T.Bounds idx g) : T.Bounds idx f := by
  unfold BTree.Bounds at h ⊢
  induction T with
  | leaf b x c => exact fun p hp => (hw p hp).trans (h p hp)
  | node b l r i1 i2 =>
    exact ⟨fun p hp => (hw p hp).trans (h.1 p hp), i1 (fun p hp => hw p (List.mem_append_left _ hp)) h.2.1,
      i2 (fun p hp => hw p (List.mem_append_right _ hp)) h.2.2⟩

theorem rightBounds_mono {idx : List Nat} {f g : Nat → Aabb F} (T : BTree F) (hw : ∀ p ∈ T.ids idx, (f p).Within (g p))
    (h : T.RightBounds idx g) : T.RightBounds idx f := by
  induction T with
  | leaf b x c => trivial
  | node b l r i1 i2 =>
    exact ⟨fun p hp => (hw p (List.mem_append_right _ hp)).trans (h.1 p hp),
      i1 (fun p hp => hw p (List.mem_append_left _ hp)) h.2.1, i2 (fun p hp => hw p (List.mem_append_right _ hp)) h.2.2⟩

/-- C07, the part that holds, for boxes padded by 1e-4 (any lawful float type, in particular binary32 with rounding;
numeric boxes): the root's box contains the padded box of every primitive, every right child's box contains the padded
boxes of all primitives below it, and if `primitives_per_leaf` is at least the number of primitives then *every* node's
box contains the padded boxes of the primitives below it.  Missing: left children when the median fallback runs, where
even the unpadded claim is false (`C07_left_child_misses`). -/
theorem C07_binned_padded_partial (b : Builder F) (order ks : List Nat) (h : b.Legal order) (bvh : Bvh F) (T : BTree F)
    (e : b.constructBinnedSah order ks = .ok (some (some bvh))) (hU : Unfolds bvh.nodes 0 T)
    (hn : ∀ a ∈ b.boxes order, a.Numeric) :
    (∀ p < b.primitives.length, (padAt (b.boxes order) p).Within T.bounds) ∧
    T.RightBounds bvh.indices (padAt (b.boxes order)) ∧
    (b.primitives.length ≤ b.primitivesPerLeaf.getD 1 → T.Bounds bvh.indices (padAt (b.boxes order))) := by
  obtain ⟨hb, hT⟩ := built_tree h e hU
  have hne : List.range b.primitives.length ≠ [] := by
    have := List.length_pos_iff.2 h.nonempty
    intro hh; have := congrArg List.length hh; simp at this; exact h.nonempty this
  have key := buildTree_bounds (ctx := b.ctx order) hn (by simp [Builder.ctx, BinnedCtx.new]) 64
    (by simp [Builder.ctx, BinnedCtx.new]) _ _ 0 (inScene_range h) hne T bvh.indices hb [] [] rfl
  simp only [List.nil_append, List.append_nil] at key
  obtain ⟨k1, k2⟩ := key
  have hroot : ∀ p ∈ List.range b.primitives.length, (boxAt (b.boxes order) p).Within (unionOfList (b.boxes order)) := by
    intro p hp
    refine unionOfList_contains hn _ (boxAt_mem ?_)
    rw [Builder.boxes_length h]; exact List.mem_range.1 hp
  obtain ⟨k3, k4⟩ := k2 hroot
  exact ⟨fun p hp => k3 p (List.mem_range.2 hp), k1, fun hs => k4 (by simpa [Builder.ctx, BinnedCtx.new] using hs)⟩

/-- C07, the part that holds (any lawful float type, in particular binary32 with rounding; numeric boxes):
the root's box contains the box of every primitive, every right child's box contains the boxes of all primitives below
it, and if `primitives_per_leaf` is at least the number of primitives then *every* node's box contains the boxes of the
primitives below it.  Missing: left children when the median fallback runs, where the claim is false
(`C07_left_child_misses`). -/
theorem C07_binned_bounds_partial (b : Builder F) (order ks : List Nat) (h : b.Legal order) (bvh : Bvh F) (T : BTree F)
    (e : b.constructBinnedSah order ks = .ok (some (some bvh))) (hU : Unfolds bvh.nodes 0 T)
    (hn : ∀ a ∈ b.boxes order, a.Numeric) :
    (∀ p < b.primitives.length, (boxAt (b.boxes order) p).Within T.bounds) ∧
    T.RightBounds bvh.indices (boxAt (b.boxes order)) ∧
    (b.primitives.length ≤ b.primitivesPerLeaf.getD 1 → T.Bounds bvh.indices (boxAt (b.boxes order))) := by
  obtain ⟨h1, h2, h3⟩ := C07_binned_padded_partial b order ks h bvh T e hU hn
  obtain ⟨_, hT⟩ := built_tree h e hU
  have hids := hT.ids [] [] rfl
  simp only [List.nil_append, List.append_nil] at hids
  have hmem : ∀ p, p ∈ T.ids bvh.indices ↔ p < b.primitives.length := by
    intro p; rw [hids, hT.perm.mem_iff, List.mem_range]
  have hw : ∀ p ∈ T.ids bvh.indices, (boxAt (b.boxes order) p).Within (padAt (b.boxes order) p) := by
    intro p hp
    exact within_offset_lit (hn _ (boxAt_mem (by rw [Builder.boxes_length h]; exact (hmem p).1 hp)))
      (by decide) (by decide) (by decide) (by decide)
  refine ⟨fun p hp => (hw p ((hmem p).2 hp)).trans (h1 p hp), rightBounds_mono T hw h2, fun hs => bounds_mono T hw (h3 hs)⟩

end lawful

/-- Four overlapping cubes; the smallest is centred left of the other three. -/
def fallbackScene : Builder F32 := cubeScene [(0, 20), (50, 100), (51, 100), (52, 100)] none

/-- A vertical ray at `x = 100`. -/
def fallbackRay : Ray F32 := Ray.new ⟨lit 100 0, lit 1 (-3), lit (-500) 0⟩ ⟨lit 1 (-3), lit 1 (-3), lit 1 0⟩

/-- C07 is false, in binary32: on `fallbackScene` (finite valid boxes, explicit boxes, default settings) the finished
BVH has a node whose box does not contain the box of a primitive below it, and the ray `fallbackRay`, which hits the box
of primitive 1, is never offered primitive 1 by the traversal. -/
theorem C07_left_child_misses : ∃ (bvh : Bvh F32) (T : BTree F32),
    fallbackScene.Legal (List.range 4) ∧
    fallbackScene.constructBinnedSah (List.range 4) (List.replicate 10 0) = .ok (some (some bvh)) ∧
    Unfolds bvh.nodes 0 T ∧ (∀ p < 4, (boxAt (fallbackScene.boxes (List.range 4)) p).Valid) ∧
    ¬ T.Bounds bvh.indices (boxAt (fallbackScene.boxes (List.range 4))) ∧
    ((boxAt (fallbackScene.boxes (List.range 4)) 1).intersect fallbackRay).isSome = true ∧
    (bvh.forIndices (fun r _ => (r, false)) 100 fallbackRay).ending = .finished ∧
    1 ∉ (bvh.forIndices (fun r _ => (r, false)) 100 fallbackRay).items := by
  have key : (builtTree (fallbackScene.constructBinnedSah (List.range 4) (List.replicate 10 0))).map (fun x =>
      (decide (x.2.Bounds x.1.indices (boxAt (fallbackScene.boxes (List.range 4)))),
        (x.1.forIndices (fun r _ => (r, false)) 100 fallbackRay).ending,
        (x.1.forIndices (fun r _ => (r, false)) 100 fallbackRay).items)) = some (false, .finished, [3]) := by
    decide +kernel
  rw [Option.map_eq_some_iff] at key
  obtain ⟨⟨bvh, T⟩, h1, h2⟩ := key
  obtain ⟨e, hU⟩ := builtTree_some h1
  simp only [Prod.mk.injEq, decide_eq_false_iff_not] at h2
  refine ⟨bvh, T, ?_, e, hU, by decide +kernel, h2.1, by decide +kernel, h2.2.1, by rw [h2.2.2]; decide⟩
  exact cubeScene_legal _ _ (by decide) (by decide)

/-- Non-vacuity of `C07_binned_bounds_partial`: the demo scene splits into a tree of 7 nodes. -/
example : (builtTree ((cubeScene [(20, 1), (0, 1), (30, 1), (10, 1)] (some 4) : Builder F32).constructBinnedSah
    (List.range 4) (List.replicate 10 0))).map (fun x => (x.1.nodes.length, x.1.indices)) = some (7, [1, 3, 0, 2]) := by
  decide +kernel

/-! C06 -/

/-- C06, the part that holds, per task: the decision to make a leaf is taken only for a slice of at most
`primitives_per_leaf` primitives (1 by default), at the depth limit 64, or when the chosen split (axis and bin index)
leaves one side empty.  Missing: the documented bound itself, which is false (`C06_oversized_leaf`). -/
theorem C06_leaf_size_partial (b : Builder F) (order : List Nat) (bounds : Aabb F) (sl sl' : List Nat)
    (depth : Nat) (e : binnedDecide (b.ctx order) bounds sl depth = some (.leaf sl')) :
    sl'.length ≤ Nat.max 1 (b.primitivesPerLeaf.getD 1) ∨ 64 ≤ depth ∨
    ∃ bins axis si lc, fillBins (b.ctx order) (binOffset (b.ctx order) (pad bounds))
        (centerToBin (b.ctx order) (pad bounds)) sl = some bins ∧
      chooseSplit (b.ctx order) (pad bounds) sl.length bins = some (axis, si, lc) ∧
      ((∀ p ∈ sl, goesLeft (b.ctx order) (pad bounds) axis si p = true) ∨
        ∀ p ∈ sl, goesLeft (b.ctx order) (pad bounds) axis si p = false) := by
  unfold binnedDecide at e
  split at e
  · rename_i hc
    simp only [Option.some.injEq, BinnedOutcome.leaf.injEq] at e
    subst e
    rcases hc with hc | hc
    · exact .inl (Nat.le_trans hc (Nat.le_max_left _ _))
    · exact .inr (.inl hc)
  split at e
  · cases e
  rename_i bins hbins
  split at e
  · rename_i hch
    simp only [Option.some.injEq, BinnedOutcome.leaf.injEq] at e
    subst e
    left
    unfold chooseSplit at hch
    simp only at hch
    split at hch
    · split at hch
      · cases hch
      · rename_i hle
        exact Nat.le_trans (Nat.not_lt.1 hle) (Nat.le_max_right _ _)
    · cases hch
  · rename_i axis si lc hch
    obtain ⟨c, l', e', p, hc, q1, q2⟩ := partition_spec (goesLeft (b.ctx order) (pad bounds) axis si) sl
    rw [e'] at e
    simp only at e
    split at e
    · cases e
    · rename_i hm
      right; right
      refine ⟨bins, axis, si, lc, hbins, hch, ?_⟩
      have hl := p.length_eq
      by_cases h0 : 0 < c
      · left
        intro q hq
        refine q1 q ?_
        rw [List.take_of_length_le (by omega)]
        exact p.mem_iff.2 hq
      · right
        intro q hq
        refine q2 q ?_
        rw [show c = 0 by omega]
        simpa using p.mem_iff.2 hq

/-- Five cubes of different sizes around one centre. -/
def concentricScene (ppl : Nat) : Builder F32 := cubeScene [(0, 1), (0, 2), (0, 3), (0, 4), (0, 5)] (some ppl)

/-- C06 is false: with `primitives_per_leaf = 1` (and also 2), five concentric cubes end up in a single leaf. -/
theorem C06_oversized_leaf (ppl : Nat) (hp : ppl = 1 ∨ ppl = 2) : ∃ (bvh : Bvh F32) (bd : Aabb F32),
    (concentricScene ppl).Legal (List.range 5) ∧
    (concentricScene ppl).constructBinnedSah (List.range 5) [0] = .ok (some (some bvh)) ∧
    Unfolds bvh.nodes 0 (.leaf bd 0 5) := by
  have key : ((builtTree ((concentricScene ppl).constructBinnedSah (List.range 5) [0])).map fun x =>
      match x.2 with | .leaf _ f c => some (f, c) | _ => none) = some (some (0, 5)) := by
    rcases hp with rfl | rfl <;> decide +kernel
  rw [Option.map_eq_some_iff] at key
  obtain ⟨⟨bvh, T⟩, h1, h2⟩ := key
  obtain ⟨e, hU⟩ := builtTree_some h1
  cases T with
  | leaf bd f c =>
    simp only [Option.some.injEq, Prod.mk.injEq] at h2
    obtain ⟨rfl, rfl⟩ := h2
    exact ⟨bvh, bd, cubeScene_legal _ _ (by decide) (by decide), e, hU⟩
  | node => cases h2

/-! C57: boxes gathered with `par_bridge`. -/

omit [FloatOps F] in
/-- C57, the part that holds: when the boxes are gathered in the order of the primitives (or are given explicitly),
the boxes the build works on are the primitives' own. -/
theorem C57_boxes_in_order_partial (b : Builder F) (hb : b.aabbs = none) :
    b.boxes (List.range b.primitives.length) = b.primitives.map Prim.aabb := by
  unfold Builder.boxes
  rw [hb]
  simp only [Option.getD_none]
  unfold collectAabbs
  apply List.ext_getElem?
  intro i
  have : (List.range b.primitives.length).filterMap (fun i => (b.primitives[i]?).map Prim.aabb) =
      (List.range b.primitives.length).pmap (fun i h => (b.primitives[i]'h).aabb) (by simp) := by
    rw [List.pmap_eq_map_attach]
    rw [← List.filterMap_eq_map, ]
    conv_lhs => rw [← List.attach_map_subtype_val (List.range b.primitives.length), List.filterMap_map]
    apply List.filterMap_congr
    rintro ⟨x, hx⟩ _
    have hx' := List.mem_range.1 hx
    simp [hx']
  rw [this]
  by_cases hi : i < b.primitives.length <;> simp [hi]

/-- Two unit cubes 10 apart, boxes to be computed by the builder. -/
def twoCubes : Builder F32 := { aabbs := none, primitives := [cubePrim 0 1, cubePrim 10 1], primitivesPerLeaf := some 2 }

/-- C57 is false: for the arrival order `[1, 0]` of the boxes the finished BVH has a node whose box does not contain the
box of a primitive below it, and it differs from the BVH built with arrival order `[0, 1]` (which is correct). -/
theorem C57_arrival_order_matters : ∃ (bvh bvh' : Bvh F32) (T T' : BTree F32),
    twoCubes.Legal [1, 0] ∧ twoCubes.Legal [0, 1] ∧
    twoCubes.constructBinnedSah [1, 0] (List.replicate 4 0) = .ok (some (some bvh)) ∧ Unfolds bvh.nodes 0 T ∧
    twoCubes.constructBinnedSah [0, 1] (List.replicate 4 0) = .ok (some (some bvh')) ∧ Unfolds bvh'.nodes 0 T' ∧
    ¬ T.Bounds bvh.indices (boxAt (twoCubes.primitives.map Prim.aabb)) ∧
    T'.Bounds bvh'.indices (boxAt (twoCubes.primitives.map Prim.aabb)) ∧ T ≠ T' := by
  have key : ((builtTree (twoCubes.constructBinnedSah [1, 0] (List.replicate 4 0))).bind fun x =>
      (builtTree (twoCubes.constructBinnedSah [0, 1] (List.replicate 4 0))).map fun y =>
      (decide (x.2.Bounds x.1.indices (boxAt (twoCubes.primitives.map Prim.aabb))),
       decide (y.2.Bounds y.1.indices (boxAt (twoCubes.primitives.map Prim.aabb))), decide (x.2 = y.2))) =
      some (false, true, false) := by decide +kernel
  rw [Option.bind_eq_some_iff] at key
  obtain ⟨⟨bvh, T⟩, h1, h2⟩ := key
  rw [Option.map_eq_some_iff] at h2
  obtain ⟨⟨bvh', T'⟩, h2, h3⟩ := h2
  obtain ⟨e, hU⟩ := builtTree_some h1
  obtain ⟨e', hU'⟩ := builtTree_some h2
  simp only [Prod.mk.injEq, decide_eq_false_iff_not, decide_eq_true_eq] at h3
  refine ⟨bvh, bvh', T, T', ⟨by decide, by simp [twoCubes], by decide, by decide⟩,
    ⟨by decide, by simp [twoCubes], by decide, by decide⟩, e, hU, e', hU', h3.1, h3.2.1, h3.2.2⟩

end Rtbvh
