import Verif.Proofs.BuilderMain
import Verif.Proofs.Box
import Verif.Spec.Contain
/- Boxes of the binned SAH build: bins contain their primitives, child boxes contain theirs (when grown over the
right number of bins). -/
namespace Rtbvh
open Aabb
variable {F : Type} [FloatOps F] [LawfulFloat F]

/-- The bins after filling with the ids `done`. -/
structure BinsOK (ctx : BinnedCtx F) (o s : Vec3 F) (done : List Nat) (bins : Fin 3 → List (SahBin F)) : Prop where
  len : ∀ a, (bins a).length = ctx.binCount
  num : ∀ a, ∀ b ∈ bins a, b.aabb.Numeric
  has : ∀ p ∈ done, ∀ c bb, ctx.centers[p]? = some c → ctx.aabbs[p]? = some bb → ∀ a,
    ∃ b, (bins a)[computeBinIndex c ctx.binCount o s a]? = some b ∧ bb.Within b.aabb

theorem fillBin_ok {ctx : BinnedCtx F} (hn : ∀ b ∈ ctx.aabbs, b.Numeric) (h0 : 0 < ctx.binCount) {o s : Vec3 F}
    {done : List Nat} {bins bins' : Fin 3 → List (SahBin F)} (h : BinsOK ctx o s done bins) {p : Nat}
    (e : fillBin ctx o s bins p = some bins') : BinsOK ctx o s (done ++ [p]) bins' := by
  unfold fillBin at e
  split at e
  · rename_i c bb hc hbb
    have hbn := hn bb (List.mem_of_getElem? hbb)
    cases e
    refine ⟨fun a => by simpa using h.len a, ?_, ?_⟩
    · intro a b hb
      obtain ⟨j, hj⟩ := List.getElem?_of_mem hb
      rw [List.getElem?_modify] at hj
      obtain ⟨b0, hb0, e⟩ := Option.map_eq_some_iff.1 hj
      have hb0n := h.num a b0 (List.mem_of_getElem? hb0)
      split at e
      · subst e; exact growBB_numeric hb0n hbn
      · subst e; exact hb0n
    · intro q hq c' bb' hc' hbb' a
      rcases List.mem_append.1 hq with hq | hq
      · obtain ⟨b, hb, hw⟩ := h.has q hq c' bb' hc' hbb' a
        have hbn' := h.num a b (List.mem_of_getElem? hb)
        rw [List.getElem?_modify, hb]
        refine ⟨_, rfl, ?_⟩
        show bb'.Within (SahBin.aabb (if _ then _ else _))
        split
        · exact hw.trans (within_growBB_left hbn' hbn)
        · exact hw
      · have : q = p := by simpa using hq
        subst this
        rw [hc] at hc'; rw [hbb] at hbb'
        cases hc'; cases hbb'
        have hlt : computeBinIndex c ctx.binCount o s a < (bins a).length := by
          rw [h.len]; exact computeBinIndex_lt _ _ _ _ _ h0
        rw [List.getElem?_modify, List.getElem?_eq_getElem hlt]
        refine ⟨_, rfl, ?_⟩
        show bb.Within (SahBin.aabb (if _ then _ else _))
        rw [if_pos rfl]
        exact within_growBB_right (h.num a _ (List.getElem_mem hlt)) hbn
  · cases e

theorem fillBins_ok {ctx : BinnedCtx F} (hn : ∀ b ∈ ctx.aabbs, b.Numeric) (h0 : 0 < ctx.binCount) {o s : Vec3 F}
    {sl : List Nat} {bins : Fin 3 → List (SahBin F)} (e : fillBins ctx o s sl = some bins) :
    BinsOK ctx o s sl bins := by
  have key : ∀ (sl done : List Nat) (b0 : Fin 3 → List (SahBin F)), BinsOK ctx o s done b0 →
      sl.foldlM (fillBin ctx o s) b0 = some bins → BinsOK ctx o s (done ++ sl) bins := by
    intro sl
    induction sl with
    | nil => intro done b0 h e; simp at e; subst e; simpa using h
    | cons p ps ih =>
      intro done b0 h e
      rw [List.foldlM_cons] at e
      cases e1 : fillBin ctx o s b0 p with
      | none => rw [e1] at e; cases e
      | some b1 =>
        rw [e1] at e
        have := ih (done ++ [p]) b1 (fillBin_ok hn h0 h e1) e
        simpa using this
  have := key sl [] _ ⟨by simp, ?_, by simp⟩ e
  · simpa using this
  · intro a b hb
    rw [List.eq_of_mem_replicate hb]
    exact new_numeric

theorem binsBox_contains {bins : List (SahBin F)} (hn : ∀ b ∈ bins, b.aabb.Numeric) {b : SahBin F} (hb : b ∈ bins) :
    b.aabb.Within (binsBox bins) := by
  have : binsBox bins = (bins.map SahBin.aabb).foldl growBB Aabb.empty := by
    unfold binsBox; rw [List.foldl_map]
  rw [this]
  exact (foldl_growBB (bs := bins.map SahBin.aabb) (by simpa using hn) new_numeric).2 _
    (List.mem_map.2 ⟨b, hb, rfl⟩)

theorem binsBox_numeric {bins : List (SahBin F)} (hn : ∀ b ∈ bins, b.aabb.Numeric) : (binsBox bins).Numeric := by
  have : binsBox bins = (bins.map SahBin.aabb).foldl growBB Aabb.empty := by
    unfold binsBox; rw [List.foldl_map]
  rw [this]
  exact (foldl_growBB (bs := bins.map SahBin.aabb) (by simpa using hn) new_numeric).1.num_right

omit [LawfulFloat F] in
theorem chooseSplit_small {ctx : BinnedCtx F} {bounds : Aabb F} {n : Nat} {bins : Fin 3 → List (SahBin F)}
    {axis : Fin 3} {si lc : Nat} (hn : n ≤ ctx.maxLeafSize)
    (e : chooseSplit ctx bounds n bins = some (axis, si, lc)) : lc = si := by
  unfold chooseSplit at e
  simp only at e
  split at e
  · rw [if_neg (by omega)] at e; cases e
  · simp only [Option.some.injEq, Prod.mk.injEq] at e
    obtain ⟨rfl, rfl, rfl⟩ := e; rfl

/-- Child boxes: the right one always contains its primitives, the left one does when no fallback was allowed. -/
theorem binnedDecide_boxes {ctx : BinnedCtx F} (hn : ∀ b ∈ ctx.aabbs, b.Numeric) (h0 : 0 < ctx.binCount)
    {bounds : Aabb F} {sl sl' : List Nat} {depth mid : Nat} {lb rb : Aabb F} (hin : InScene ctx sl)
    (e : binnedDecide ctx bounds sl depth = some (.split sl' mid lb rb)) :
    lb.Numeric ∧ rb.Numeric ∧
    (∀ p ∈ sl'.drop mid, ∀ bb, ctx.aabbs[p]? = some bb → bb.Within rb) ∧
    (sl.length ≤ ctx.maxLeafSize → ∀ p ∈ sl'.take mid, ∀ bb, ctx.aabbs[p]? = some bb → bb.Within lb) := by
  unfold binnedDecide at e
  split at e
  · cases e
  split at e
  · cases e
  rename_i bins hbins
  split at e
  · cases e
  rename_i axis si lc hch
  obtain ⟨c, l', e', p, hc, q1, q2⟩ := partition_spec (goesLeft ctx (pad bounds) axis si) sl
  rw [e'] at e
  simp only at e
  split at e
  · simp only [Option.some.injEq, BinnedOutcome.split.injEq] at e
    obtain ⟨rfl, rfl, rfl, rfl⟩ := e
    have ok := fillBins_ok hn h0 hbins
    have hin' := hin.perm p
    refine ⟨binsBox_numeric fun b hb => ok.num axis b (List.mem_of_mem_take hb),
      binsBox_numeric fun b hb => ok.num axis b (List.mem_of_mem_drop hb), ?_, ?_⟩
    · intro q hq bb hbb
      have hg := q2 q hq
      have hq' : q ∈ sl := p.subset (List.mem_of_mem_drop hq)
      have hcen := (hin _ hq').1
      obtain ⟨b, hb, hw⟩ := ok.has _ hq' _ bb (List.getElem?_eq_getElem hcen) hbb axis
      unfold goesLeft at hg
      rw [List.getElem?_eq_getElem hcen] at hg
      simp only [decide_eq_false_iff_not, Nat.not_lt] at hg
      refine hw.trans (binsBox_contains (fun b hb => ok.num axis b (List.mem_of_mem_drop hb)) ?_)
      rw [List.mem_iff_getElem?]
      refine ⟨computeBinIndex ctx.centers[q] ctx.binCount (binOffset ctx (pad bounds)) (centerToBin ctx (pad bounds)) axis - si, ?_⟩
      rw [List.getElem?_drop, Nat.add_sub_of_le hg]
      exact hb
    · intro hsm q hq bb hbb
      have hlc := chooseSplit_small hsm hch
      subst hlc
      have hg := q1 q hq
      have hq' : q ∈ sl := p.subset (List.mem_of_mem_take hq)
      have hcen := (hin _ hq').1
      obtain ⟨b, hb, hw⟩ := ok.has _ hq' _ bb (List.getElem?_eq_getElem hcen) hbb axis
      unfold goesLeft at hg
      rw [List.getElem?_eq_getElem hcen] at hg
      simp only [decide_eq_true_eq] at hg
      refine hw.trans (binsBox_contains (fun b hb => ok.num axis b (List.mem_of_mem_take hb)) ?_)
      rw [List.mem_iff_getElem?]
      exact ⟨_, by rw [List.getElem?_take_of_lt hg]; exact hb⟩
  · cases e

theorem within_pad {a b : Aabb F} (h : a.Within b) : a.Within (pad b) :=
  h.trans (within_offset_lit h.num_right (by decide) (by decide) (by decide) (by decide))


open FloatOps LawfulFloat in
theorem pad_within {a b : Aabb F} (h : a.Within b) : (pad a).Within (pad b) := by
  have hf : Fin' (lit 1 (-4) : F) := lit_fin (by decide) (by decide) (by decide)
  have lo : ∀ {x y : F}, (x <=. y) = true → (x -. lit 1 (-4) <=. y -. lit 1 (-4)) = true := fun hm =>
    sub_mono _ hm (sub_fin (le_num hm).1 hf) (sub_fin (le_num hm).2 hf)
  have hi : ∀ {x y : F}, (x <=. y) = true → (x +. lit 1 (-4) <=. y +. lit 1 (-4)) = true := fun hm =>
    add_mono _ hm (add_fin (le_num hm).1 hf) (add_fin (le_num hm).2 hf)
  exact ⟨⟨lo h.1.1, lo h.1.2.1, lo h.1.2.2⟩, hi h.2.1, hi h.2.2.1, hi h.2.2.2⟩

/-- The boxes along the sequential tree: if the ids' boxes lie in `bounds`, the root contains them padded by 1e-4,
and so does every right child; if the slice is no larger than `max_leaf_size`, every node does. -/
theorem buildTree_bounds {ctx : BinnedCtx F} (hn : ∀ b ∈ ctx.aabbs, b.Numeric) (h0 : 0 < ctx.binCount) (d : Nat)
    (hd : d ≤ ctx.maxDepth) : ∀ (bounds : Aabb F) (sl : List Nat) (b : Nat), InScene ctx sl → sl ≠ [] → ∀ T P,
      buildTree ctx d bounds sl b = some (T, P) → ∀ pre post : List Nat, pre.length = b →
      T.RightBounds (pre ++ P ++ post) (padAt ctx.aabbs) ∧
      ((∀ p ∈ sl, (boxAt ctx.aabbs p).Within bounds) →
        (∀ p ∈ sl, (padAt ctx.aabbs p).Within T.bounds) ∧
        (sl.length ≤ ctx.maxLeafSize → T.Bounds (pre ++ P ++ post) (padAt ctx.aabbs))) := by
  have leafCase : ∀ (bounds : Aabb F) (sl sl' pre post : List Nat) (b : Nat), sl'.Perm sl → pre.length = b →
      (BTree.leaf (pad (pad bounds)).clean b sl'.length).RightBounds (pre ++ sl' ++ post) (padAt ctx.aabbs) ∧
      ((∀ p ∈ sl, (boxAt ctx.aabbs p).Within bounds) →
        (∀ p ∈ sl, (padAt ctx.aabbs p).Within (pad (pad bounds)).clean) ∧
        (sl.length ≤ ctx.maxLeafSize →
          (BTree.leaf (pad (pad bounds)).clean b sl'.length).Bounds (pre ++ sl' ++ post) (padAt ctx.aabbs))) := by
    intro bounds sl sl' pre post b hp hb
    refine ⟨trivial, fun h => ⟨fun p hp' => within_pad (pad_within (h p hp')), fun _ => ?_⟩⟩
    intro p hp'
    simp [BTree.rangeIds, ← hb] at hp'
    exact within_pad (pad_within (h p (hp.mem_iff.1 hp')))
  induction d with
  | zero =>
    intro bounds sl b h hne T P e pre post hpre
    unfold buildTree at e
    rcases binnedDecide_total (bounds := bounds) ctx.maxDepth h with ⟨sl', e', p⟩ | ⟨_, _, _, _, _, _, _, _, hl, _⟩
    · rw [e'] at e
      simp only [Option.some.injEq, Prod.mk.injEq] at e
      obtain ⟨rfl, rfl⟩ := e
      exact leafCase _ _ _ _ _ _ p hpre
    · omega
  | succ d ih =>
    intro bounds sl b h hne T P e pre post hpre
    unfold buildTree at e
    rcases binnedDecide_total (bounds := bounds) (ctx.maxDepth - (d + 1)) h with
      ⟨sl', e', p⟩ | ⟨sl', mid, lb, rb, e', p, m0, m1, _⟩
    · rw [e'] at e
      simp only [Option.some.injEq, Prod.mk.injEq] at e
      obtain ⟨rfl, rfl⟩ := e
      exact leafCase _ _ _ _ _ _ p hpre
    · obtain ⟨hlb, hrb, hR, hL⟩ := binnedDecide_boxes hn h0 h e'
      rw [e'] at e
      simp only at e
      have h' := h.perm p
      have hl := p.length_eq
      have hLs : InScene ctx (sl'.take mid) := fun q hq => h' q (List.mem_of_mem_take hq)
      have hRs : InScene ctx (sl'.drop mid) := fun q hq => h' q (List.mem_of_mem_drop hq)
      have neL : sl'.take mid ≠ [] := by
        intro hh; have := congrArg List.length hh; rw [List.length_take, List.length_nil] at this; omega
      have neR : sl'.drop mid ≠ [] := by
        intro hh; have := congrArg List.length hh; rw [List.length_drop, List.length_nil] at this; omega
      obtain ⟨L, PL, e1⟩ := buildTree_total d (by omega) lb (sl'.take mid) b hLs
      obtain ⟨R, PR, e2⟩ := buildTree_total d (by omega) rb (sl'.drop mid) (b + mid) hRs
      rw [e1, e2] at e
      simp only [Option.some.injEq, Prod.mk.injEq] at e
      obtain ⟨rfl, rfl⟩ := e
      have tl := buildTree_treeOf d (by omega) lb _ b hLs neL L PL e1
      have tr := buildTree_treeOf d (by omega) rb _ (b + mid) hRs neR R PR e2
      have hlL : PL.length = mid := by rw [tl.perm.length_eq, List.length_take]; omega
      have i1 := ih (by omega) lb _ b hLs neL L PL e1 pre (PR ++ post) hpre
      have i2 := ih (by omega) rb _ (b + mid) hRs neR R PR e2 (pre ++ PL) post (by simp [hpre, hlL])
      have idL := tl.ids pre (PR ++ post) hpre
      have idR := tr.ids (pre ++ PL) post (by simp [hpre, hlL])
      simp only [List.append_assoc] at i1 i2 idL idR ⊢
      have ext : ∀ q ∈ sl', boxAt ctx.aabbs q = boxAt ctx.aabbs q ∧ ∃ bb, ctx.aabbs[q]? = some bb ∧
          boxAt ctx.aabbs q = bb := by
        intro q hq
        have := (h' q hq).2
        exact ⟨rfl, _, List.getElem?_eq_getElem this, by simp [boxAt, List.getD, this]⟩
      have hR' : ∀ q ∈ sl'.drop mid, (boxAt ctx.aabbs q).Within rb := by
        intro q hq
        obtain ⟨_, bb, h1, h2⟩ := ext q (List.mem_of_mem_drop hq)
        rw [h2]; exact hR q hq bb h1
      refine ⟨⟨?_, i1.1, i2.1⟩, fun hb => ⟨fun p hp' => pad_within (hb p hp'), fun hsm => ?_⟩⟩
      · intro q hq
        rw [idR] at hq
        exact (i2.2 hR').1 q (tr.perm.mem_iff.1 hq)
      · have hL' : ∀ q ∈ sl'.take mid, (boxAt ctx.aabbs q).Within lb := by
          intro q hq
          obtain ⟨_, bb, h1, h2⟩ := ext q (List.mem_of_mem_take hq)
          rw [h2]; exact hL hsm q hq bb h1
        refine ⟨?_, (i1.2 hL').2 (by rw [List.length_take]; omega), (i2.2 hR').2 (by rw [List.length_drop]; omega)⟩
        intro q hq
        rw [idL, idR] at hq
        have hq' : q ∈ sl' := by
          rcases List.mem_append.1 hq with hq | hq
          · exact List.mem_of_mem_take (tl.perm.mem_iff.1 hq)
          · exact List.mem_of_mem_drop (tr.perm.mem_iff.1 hq)
        exact pad_within (hb q (p.mem_iff.1 hq'))

end Rtbvh
