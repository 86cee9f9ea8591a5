import Verif.Props.SahChoice
import Mathlib.Data.List.Permutation
/- Property C07, exactly: which boxes of a binned build can miss which primitives. -/
namespace Rtbvh
open FloatOps LawfulFloat Aabb
variable {F : Type} [FloatOps F] [LawfulFloat F]

/-- Left child boxes: a primitive is contained in the left box unless it is misplaced. -/
theorem binnedDecide_left {ctx : BinnedCtx F} (hn : ∀ b ∈ ctx.aabbs, b.Numeric) (h0 : 0 < ctx.binCount)
    {bounds : Aabb F} {sl sl' : List Nat} {depth mid : Nat} {lb rb : Aabb F} (hin : InScene ctx sl)
    (e : binnedDecide ctx bounds sl depth = some (.split sl' mid lb rb)) :
    ∀ p ∈ sl'.take mid, ¬ Misplaced ctx (pad bounds) sl p → ∀ bb, ctx.aabbs[p]? = some bb → bb.Within lb := by
  unfold binnedDecide at e
  split at e
  · cases e
  rename_i hc
  split at e
  · cases e
  rename_i bins hbins
  have hs := chooseSplit_spec ctx h0 (pad bounds) sl (by omega) bins hbins
  split at e
  · cases e
  rename_i axis si lc hch
  rw [hch] at hs
  simp only at hs
  obtain ⟨c, l', e', p, _, q1, q2⟩ := partition_spec (goesLeft ctx (pad bounds) axis si) sl
  rw [e'] at e
  simp only at e
  split at e
  · simp only [Option.some.injEq, BinnedOutcome.split.injEq] at e
    obtain ⟨rfl, rfl, rfl, rfl⟩ := e
    have ok := fillBins_ok hn h0 hbins
    intro q hq hmis bb hbb
    have hg := q1 q hq
    have hq' : q ∈ sl := p.subset (List.mem_of_mem_take hq)
    have hcen := (hin _ hq').1
    have hlt : binOf ctx (pad bounds) axis q < lc := by
      rw [goesLeft_binOf hcen] at hg
      have hg := of_decide_eq_true hg
      rcases hs.2 with h | ⟨h1, h2, h3, h4⟩
      · omega
      · by_contra hle
        obtain ⟨ha, h5⟩ := h3
        subst ha
        exact hmis ⟨h1, h2, si, lc, ⟨rfl, h5⟩, h4, by omega, hg⟩
    obtain ⟨b, hb, hw⟩ := ok.has _ hq' _ bb (List.getElem?_eq_getElem hcen) hbb axis
    have hlt' : computeBinIndex ctx.centers[q] ctx.binCount (binOffset ctx (pad bounds)) (centerToBin ctx (pad bounds)) axis
        < lc := by
      unfold binOf at hlt
      rw [List.getElem?_eq_getElem hcen] at hlt
      exact hlt
    refine hw.trans (binsBox_contains (fun b hb => ok.num axis b (List.mem_of_mem_take hb)) ?_)
    rw [List.mem_iff_getElem?]
    exact ⟨_, by rw [List.getElem?_take_of_lt hlt']; exact hb⟩
  · cases e

/-- Along the sequential tree: a primitive that is never misplaced lies in every box above it. -/
theorem buildTree_miss {ctx : BinnedCtx F} (hn : ∀ b ∈ ctx.aabbs, b.Numeric) (h0 : 0 < ctx.binCount) (q : Nat) (d : Nat)
    (hd : d ≤ ctx.maxDepth) : ∀ (bounds : Aabb F) (sl : List Nat) (b : Nat), InScene ctx sl → sl ≠ [] → ∀ T P,
      buildTree ctx d bounds sl b = some (T, P) → ∀ pre post : List Nat, pre.length = b →
      (q ∈ sl → (boxAt ctx.aabbs q).Within bounds) → ¬ T.Misplaces ctx (pre ++ P ++ post) q →
      T.Forall (pre ++ P ++ post) fun a ids => q ∈ ids → (padAt ctx.aabbs q).Within a := by
  have leafCase : ∀ (bounds : Aabb F) (sl sl' pre post : List Nat) (b : Nat), sl'.Perm sl → pre.length = b →
      (q ∈ sl → (boxAt ctx.aabbs q).Within bounds) →
      (BTree.leaf (pad (pad bounds)).clean b sl'.length).Forall (pre ++ sl' ++ post)
        fun a ids => q ∈ ids → (padAt ctx.aabbs q).Within a := by
    intro bounds sl sl' pre post b hp hb h
    intro hp'
    simp [BTree.rangeIds, ← hb] at hp'
    exact within_pad (pad_within (h (hp.mem_iff.1 hp')))
  induction d with
  | zero =>
    intro bounds sl b h hne T P e pre post hpre hq _
    unfold buildTree at e
    rcases binnedDecide_total (bounds := bounds) ctx.maxDepth h with ⟨sl', e', p⟩ | ⟨_, _, _, _, _, _, _, _, hl, _⟩
    · rw [e'] at e
      simp only [Option.some.injEq, Prod.mk.injEq] at e
      obtain ⟨rfl, rfl⟩ := e
      exact leafCase _ _ _ _ _ _ p hpre hq
    · omega
  | succ d ih =>
    intro bounds sl b h hne T P e pre post hpre hq hmis
    unfold buildTree at e
    rcases binnedDecide_total (bounds := bounds) (ctx.maxDepth - (d + 1)) h with
      ⟨sl', e', p⟩ | ⟨sl', mid, lb, rb, e', p, m0, m1, _⟩
    · rw [e'] at e
      simp only [Option.some.injEq, Prod.mk.injEq] at e
      obtain ⟨rfl, rfl⟩ := e
      exact leafCase _ _ _ _ _ _ p hpre hq
    · obtain ⟨hlb, hrb, hR, _⟩ := binnedDecide_boxes hn h0 h e'
      have hL := binnedDecide_left hn h0 h e'
      rw [e'] at e
      simp only at e
      have h' := h.perm p
      have hl := p.length_eq
      have hLs : InScene ctx (sl'.take mid) := fun q hq => h' q (List.mem_of_mem_take hq)
      have hRs : InScene ctx (sl'.drop mid) := fun q hq => h' q (List.mem_of_mem_drop hq)
      have neL : sl'.take mid ≠ [] := by
        intro hh; have := congrArg List.length hh; rw [List.length_take, List.length_nil] at this; omega
      have neR : sl'.drop mid ≠ [] := by
        intro hh; have := congrArg List.length hh; rw [List.length_drop, List.length_nil] at this; omega
      obtain ⟨L, PL, e1⟩ := buildTree_total d (by omega) lb (sl'.take mid) b hLs
      obtain ⟨R, PR, e2⟩ := buildTree_total d (by omega) rb (sl'.drop mid) (b + mid) hRs
      rw [e1, e2] at e
      simp only [Option.some.injEq, Prod.mk.injEq] at e
      obtain ⟨rfl, rfl⟩ := e
      have tl := buildTree_treeOf d (by omega) lb _ b hLs neL L PL e1
      have tr := buildTree_treeOf d (by omega) rb _ (b + mid) hRs neR R PR e2
      have hlL : PL.length = mid := by rw [tl.perm.length_eq, List.length_take]; omega
      have i1 := ih (by omega) lb _ b hLs neL L PL e1 pre (PR ++ post) hpre
      have i2 := ih (by omega) rb _ (b + mid) hRs neR R PR e2 (pre ++ PL) post (by simp [hpre, hlL])
      have idL := tl.ids pre (PR ++ post) hpre
      have idR := tr.ids (pre ++ PL) post (by simp [hpre, hlL])
      simp only [List.append_assoc] at i1 i2 idL idR hmis ⊢
      have ext : ∀ q ∈ sl', ∃ bb, ctx.aabbs[q]? = some bb ∧ boxAt ctx.aabbs q = bb := by
        intro q hq
        have := (h' q hq).2
        exact ⟨_, List.getElem?_eq_getElem this, by simp [boxAt, List.getD, this]⟩
      unfold BTree.Misplaces at hmis
      rw [not_or, not_or] at hmis
      obtain ⟨hm, hmL, hmR⟩ := hmis
      have hperm : sl.Perm (L.ids (pre ++ (PL ++ (PR ++ post))) ++ R.ids (pre ++ (PL ++ (PR ++ post)))) := by
        rw [idL, idR]
        refine List.Perm.trans p.symm ?_
        conv => lhs; rw [← List.take_append_drop mid sl']
        exact (tl.perm.append tr.perm).symm
      refine ⟨fun hq' => pad_within (hq (hperm.mem_iff.2 hq')), i1 (fun hqL => ?_) hmL, i2 (fun hqR => ?_) hmR⟩
      · obtain ⟨bb, h1, h2⟩ := ext q (List.mem_of_mem_take hqL)
        rw [h2]
        refine hL q hqL (fun hmp => hm ⟨?_, sl, hperm, hmp⟩) bb h1
        rw [idL]; exact tl.perm.mem_iff.2 hqL
      · obtain ⟨bb, h1, h2⟩ := ext q (List.mem_of_mem_drop hqR)
        rw [h2]; exact hR q hqR bb h1

omit [LawfulFloat F] in
theorem forall_all {idx : List Nat} {boxes : Nat → Aabb F} : ∀ T : BTree F,
    (∀ q ∈ T.ids idx, T.Forall idx fun a ids => q ∈ ids → (boxes q).Within a) → T.Bounds idx boxes := by
  intro T
  induction T with
  | leaf b f c => intro h p hp; exact h p hp hp
  | node b l r i1 i2 =>
    intro h
    exact ⟨fun p hp => (h p hp).1 hp, i1 fun q hq => (h q (List.mem_append_left _ hq)).2.1,
      i2 fun q hq => (h q (List.mem_append_right _ hq)).2.2⟩

/-- C07, the cause of every miss (any lawful float type, in particular binary32 with rounding; numeric boxes): in the tree
of a finished binned build, a primitive that no node misplaces lies, padded, in the box of every node above it.  A node
misplaces a primitive only if no cut of the node pays off, the node has more than `primitives_per_leaf` primitives, and
along the node's longest axis the primitive's bin is at or past the cheapest cut and before the median cut
(`Spec/Sah.lean`). -/
theorem C07_miss_cause_partial (b : Builder F) (order ks : List Nat) (h : b.Legal order) (bvh : Bvh F) (T : BTree F)
    (e : b.constructBinnedSah order ks = .ok (some (some bvh))) (hU : Unfolds bvh.nodes 0 T)
    (hn : ∀ a ∈ b.boxes order, a.Numeric) (p : Nat) (hp : p < b.primitives.length)
    (hm : ¬ T.Misplaces (b.ctx order) bvh.indices p) :
    T.Forall bvh.indices fun a ids => p ∈ ids → (padAt (b.boxes order) p).Within a := by
  obtain ⟨hb, hT⟩ := built_tree h e hU
  have hne : List.range b.primitives.length ≠ [] := by
    have := List.length_pos_iff.2 h.nonempty
    intro hh; have := congrArg List.length hh; simp at this; exact h.nonempty this
  have key := buildTree_miss (ctx := b.ctx order) hn (by simp [Builder.ctx, BinnedCtx.new]) p 64
    (by simp [Builder.ctx, BinnedCtx.new]) _ _ 0 (inScene_range h) hne T bvh.indices hb [] [] rfl
  simp only [List.nil_append, List.append_nil] at key
  refine key (fun hp' => ?_) hm
  refine unionOfList_contains hn _ (boxAt_mem ?_)
  rw [Builder.boxes_length h]; exact hp

theorem within_box {b : Builder F} {order : List Nat} (h : b.Legal order) (hn : ∀ a ∈ b.boxes order, a.Numeric) {p : Nat}
    (hp : p < b.primitives.length) : (boxAt (b.boxes order) p).Within (padAt (b.boxes order) p) :=
  within_offset_lit (hn _ (boxAt_mem (by rw [Builder.boxes_length h]; exact hp)))
    (by decide) (by decide) (by decide) (by decide)

/-- C07 for whole trees: if no node misplaces a primitive, every node's box contains the (padded) boxes of the primitives
below it. -/
theorem C07_no_misplaced_partial (b : Builder F) (order ks : List Nat) (h : b.Legal order) (bvh : Bvh F) (T : BTree F)
    (e : b.constructBinnedSah order ks = .ok (some (some bvh))) (hU : Unfolds bvh.nodes 0 T)
    (hn : ∀ a ∈ b.boxes order, a.Numeric)
    (hm : ∀ p < b.primitives.length, ¬ T.Misplaces (b.ctx order) bvh.indices p) :
    T.Bounds bvh.indices (padAt (b.boxes order)) ∧ T.Bounds bvh.indices (boxAt (b.boxes order)) := by
  obtain ⟨_, hT⟩ := built_tree h e hU
  have hids := hT.ids [] [] rfl
  simp only [List.nil_append, List.append_nil] at hids
  have hmem : ∀ p, p ∈ T.ids bvh.indices ↔ p < b.primitives.length := by
    intro p; rw [hids, hT.perm.mem_iff, List.mem_range]
  have h1 : T.Bounds bvh.indices (padAt (b.boxes order)) := forall_all T fun q hq =>
    C07_miss_cause_partial b order ks h bvh T e hU hn q ((hmem q).1 hq) (hm q ((hmem q).1 hq))
  refine ⟨h1, bounds_mono T (fun p hp => ?_) h1⟩
  exact within_box h hn ((hmem p).1 hp)

omit [LawfulFloat F] in
theorem ids_length_small {ctx : BinnedCtx F} {idx : List Nat} {p : Nat} : ∀ T : BTree F,
    (T.ids idx).length ≤ ctx.maxLeafSize → ¬ T.Misplaces ctx idx p := by
  intro T
  induction T with
  | leaf b f c => intro _ h; exact h
  | node b l r i1 i2 =>
    intro h hm
    have hl : (l.ids idx ++ r.ids idx).length ≤ ctx.maxLeafSize := h
    rw [List.length_append] at hl
    rcases hm with ⟨_, slice, hp, _, hbig, _⟩ | hm | hm
    · have := hp.length_eq; rw [List.length_append] at this; omega
    · exact i1 (by omega) hm
    · exact i2 (by omega) hm

omit [LawfulFloat F] in
/-- Nothing is misplaced when all primitives fit into one leaf. -/
theorem not_misplaced_small (b : Builder F) (order ks : List Nat) (h : b.Legal order) (bvh : Bvh F) (T : BTree F)
    (e : b.constructBinnedSah order ks = .ok (some (some bvh))) (hU : Unfolds bvh.nodes 0 T)
    (hs : b.primitives.length ≤ b.primitivesPerLeaf.getD 1) (p : Nat) : ¬ T.Misplaces (b.ctx order) bvh.indices p := by
  obtain ⟨_, hT⟩ := built_tree h e hU
  have hids := hT.ids [] [] rfl
  simp only [List.nil_append, List.append_nil] at hids
  refine ids_length_small T ?_
  rw [hids, hT.perm.length_eq, List.length_range]
  simpa [Builder.ctx, BinnedCtx.new] using hs

/-- Checks that at every interior node one of the cuts in `cands` pays off, in whatever order the boxes are united. -/
def payCheck (ctx : BinnedCtx F) (idx : List Nat) (cands : List (Fin 3 × Nat)) : BTree F → Bool
  | .leaf _ _ _ => true
  | .node b l r => ((l.ids idx ++ r.ids idx).permutations'.all fun s => cands.any fun (a, k) =>
      decide (1 ≤ k) && decide (k < ctx.binCount) && (sahCost ctx b s a k <. maxFinite) &&
        !(leafCost ctx b s.length <=. sahCost ctx b s a k)) && payCheck ctx idx cands l && payCheck ctx idx cands r

omit [LawfulFloat F] in
theorem payCheck_sound {ctx : BinnedCtx F} {idx : List Nat} {cands : List (Fin 3 × Nat)} {p : Nat} : ∀ T : BTree F,
    payCheck ctx idx cands T = true → ¬ T.Misplaces ctx idx p := by
  intro T
  induction T with
  | leaf b f c => intro _ h; exact h
  | node b l r i1 i2 =>
    intro h hm
    simp only [payCheck, Bool.and_eq_true] at h
    obtain ⟨⟨h1, h2⟩, h3⟩ := h
    rcases hm with ⟨_, slice, hp, hno, _⟩ | hm | hm
    · have := List.all_eq_true.1 h1 slice (List.mem_permutations'.2 hp)
      obtain ⟨⟨a, k⟩, _, hk⟩ := List.any_eq_true.1 this
      simp only [Bool.and_eq_true, decide_eq_true_eq, Bool.not_eq_true'] at hk
      exact hno a k ⟨hk.1.1.1, hk.1.1.2, hk.1.2, hk.2⟩
    · exact i1 h2 hm
    · exact i2 h3 hm

/-- Non-vacuity, binary32 and default settings (one primitive per leaf): four cubes apart, none misplaced, so every box of
the tree of 7 nodes contains its primitives. -/
def apartCubes : Builder F32 := cubeScene [(20, 1), (0, 1), (30, 1), (10, 1)] none

theorem apartCubes_built : ∃ bvh T, apartCubes.constructBinnedSah (List.range 4) (List.replicate 10 0) = .ok (some (some bvh)) ∧
    Unfolds bvh.nodes 0 T ∧ bvh.nodes.length = 7 ∧ ∀ p, ¬ T.Misplaces (apartCubes.ctx (List.range 4)) bvh.indices p := by
  have key : (builtTree (apartCubes.constructBinnedSah (List.range 4) (List.replicate 10 0))).map (fun x =>
      (x.1.nodes.length, payCheck (apartCubes.ctx (List.range 4)) x.1.indices [(0, 8), (0, 16)] x.2)) = some (7, true) := by
    decide +kernel
  obtain ⟨⟨bvh, T⟩, e, h2⟩ := Option.map_eq_some_iff.1 key
  obtain ⟨e1, e2⟩ := builtTree_some e
  simp only [Prod.mk.injEq] at h2
  exact ⟨bvh, T, e1, e2, h2.1, fun p => payCheck_sound T h2.2⟩

/-- Checks `Misplaced` for given median cut `k` and cheapest cut `lc`. -/
def misplacedCheck (ctx : BinnedCtx F) (b : Aabb F) (slice : List Nat) (p k lc : Nat) : Bool :=
  ((List.finRange 3).all fun a => (List.range ctx.binCount).all fun k =>
    !(decide (1 ≤ k) && (sahCost ctx b slice a k <. maxFinite) && !(leafCost ctx b slice.length <=. sahCost ctx b slice a k))) &&
  decide (ctx.maxLeafSize < slice.length) &&
  (decide (1 ≤ k) && decide (k < ctx.binCount) && decide (slice.length * 2 / 5 < below ctx b slice b.longestAxis k) &&
    decide (below ctx b slice b.longestAxis (k - 1) ≤ slice.length * 2 / 5)) &&
  (decide (1 ≤ lc) && decide (lc < ctx.binCount) && (sahCost ctx b slice b.longestAxis lc <. maxFinite) &&
    (List.range ctx.binCount).all fun k => !decide (1 ≤ k) ||
      !(sahCost ctx b slice b.longestAxis k <. sahCost ctx b slice b.longestAxis lc)) &&
  decide (lc ≤ binOf ctx b b.longestAxis p) && decide (binOf ctx b b.longestAxis p < k)

omit [LawfulFloat F] in
theorem misplacedCheck_sound {ctx : BinnedCtx F} {b : Aabb F} {slice : List Nat} {p k lc : Nat}
    (h : misplacedCheck ctx b slice p k lc = true) : Misplaced ctx b slice p := by
  simp only [misplacedCheck, Bool.and_eq_true, decide_eq_true_eq, List.all_eq_true] at h
  obtain ⟨⟨⟨⟨⟨h1, h2⟩, ⟨⟨h3, h4⟩, h5⟩, h6⟩, ⟨⟨h7, h8⟩, h9⟩, h10⟩, h11⟩, h12⟩ := h
  refine ⟨?_, h2, k, lc, ⟨rfl, .inl ⟨h3, h4, h5, h6⟩⟩, .inr ⟨h7, h8, h9, fun k' k1 k2 => ?_⟩, h11, h12⟩
  · rintro a j ⟨j1, j2, j3, j4⟩
    have := h1 a (List.mem_finRange a) j (List.mem_range.2 j2)
    rw [j3, j4] at this
    simp [j1] at this
  · have := h10 k' (List.mem_range.2 k2)
    simpa [k1] using this

/-- Checks that the root misplaces `p`, for some cuts. -/
def rootCheck (ctx : BinnedCtx F) (idx slice : List Nat) (p : Nat) : BTree F → Bool
  | .node b l r => decide (p ∈ l.ids idx) && decide (slice.Perm (l.ids idx ++ r.ids idx)) &&
      (List.range 16).any fun k => (List.range 16).any fun lc => misplacedCheck ctx b slice p k lc
  | .leaf _ _ _ => false

omit [LawfulFloat F] in
theorem rootCheck_sound {ctx : BinnedCtx F} {idx slice : List Nat} {p : Nat} : ∀ {T : BTree F},
    rootCheck ctx idx slice p T = true → T.Misplaces ctx idx p
  | .node b l r, h => by
    simp only [rootCheck, Bool.and_eq_true, decide_eq_true_eq, List.any_eq_true] at h
    obtain ⟨⟨h3, h4⟩, k, _, lc, _, h5⟩ := h
    exact .inl ⟨h3, slice, h4, misplacedCheck_sound h5⟩

/-- In the scene of `C07_left_child_misses` the root misplaces primitive 1, the one the ray then misses. -/
theorem C07_misplaced_there : ∃ (bvh : Bvh F32) (T : BTree F32),
    fallbackScene.constructBinnedSah (List.range 4) (List.replicate 10 0) = .ok (some (some bvh)) ∧
    Unfolds bvh.nodes 0 T ∧ T.Misplaces (fallbackScene.ctx (List.range 4)) bvh.indices 1 := by
  have key : (builtTree (fallbackScene.constructBinnedSah (List.range 4) (List.replicate 10 0))).map (fun x =>
      rootCheck (fallbackScene.ctx (List.range 4)) x.1.indices (List.range 4) 1 x.2) = some true := by
    decide +kernel
  obtain ⟨⟨bvh, T⟩, e, h2⟩ := Option.map_eq_some_iff.1 key
  obtain ⟨e1, e2⟩ := builtTree_some e
  exact ⟨bvh, T, e1, e2, rootCheck_sound h2⟩

end Rtbvh
