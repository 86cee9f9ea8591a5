import Verif.Model.Impure
import Verif.Proofs.BinnedMain
/- The binned build with arbitrary answers of `center()`: invariant and its preservation by every atomic step. -/
namespace Rtbvh
variable {F : Type} [FloatOps F]

theorem fillBinsWith_total {ctx : BinnedCtx F} (ans : Answers F) (o s : Vec3 F) {sl : List Nat} (h : InScene ctx sl)
    (b0 : Fin 3 → List (SahBin F)) : ∃ b, sl.foldlM (fillBinWith ctx ans o s) b0 = some b := by
  induction sl generalizing b0 with
  | nil => exact ⟨_, rfl⟩
  | cons p ps ih =>
    have hp := h p (by simp)
    obtain ⟨b, hb⟩ := ih (fun q hq => h q (by simp [hq])) (fun axis =>
      (b0 axis).modify (computeBinIndex (ans.bin p axis) ctx.binCount o s axis)
        fun b => { aabb := b.aabb.growBB ctx.aabbs[p], primCount := b.primCount + 1 })
    refine ⟨b, ?_⟩
    rw [List.foldlM_cons]
    simpa [fillBinWith, hp.1, hp.2] using hb

/-- What one task decision can be. -/
theorem binnedDecideWith_total {ctx : BinnedCtx F} (ans : Answers F) {bounds : Aabb F} {sl : List Nat} (depth : Nat)
    (h : InScene ctx sl) :
    (∃ sl', binnedDecideWith ctx ans bounds sl depth = some (.leaf sl') ∧ sl'.Perm sl) ∨
    (∃ sl' mid lb rb, binnedDecideWith ctx ans bounds sl depth = some (.split sl' mid lb rb) ∧ sl'.Perm sl ∧
      0 < mid ∧ mid < sl.length ∧ depth < ctx.maxDepth ∧ 1 < sl.length) := by
  unfold binnedDecideWith
  split
  · exact .inl ⟨_, rfl, .refl _⟩
  · rename_i hn
    obtain ⟨bins, hb⟩ := fillBinsWith_total (ctx := ctx) ans (binOffset ctx (pad bounds)) (centerToBin ctx (pad bounds)) h
      (fun _ => List.replicate ctx.binCount { aabb := Aabb.empty, primCount := 0 })
    unfold fillBinsWith
    rw [hb]
    simp only
    split
    · exact .inl ⟨_, rfl, .refl _⟩
    · rename_i axis si lc _
      obtain ⟨c, l', e, p, hc, _, _⟩ := partition_spec (goesLeftWith ctx ans (pad bounds) axis si) sl
      rw [e]
      simp only
      split
      · rename_i hm
        right
        exact ⟨_, _, _, _, rfl, p, hm.1, hm.2, by omega, by omega⟩
      · exact .inl ⟨_, rfl, p⟩

/-- Proof device: below node `idx`, whose box was `bd` when its task was made, the id slice is `sl`; `fp` are the node
indices owned, `ts` the unfinished tasks, and at most `m` steps are left. -/
inductive Grow (ctx : BinnedCtx F) (nodes : List (BvhNode F)) :
    (bd : Aabb F) → (idx b d : Nat) → (sl fp : List Nat) → List (BinnedTask × WithPhase F) → Nat → Prop
  | ready {idx b d sl nd} (hd : d ≤ ctx.maxDepth) (h : nodes[idx]? = some nd) (hne : sl ≠ []) (hs : InScene ctx sl) :
      Grow ctx nodes nd.bounds idx b d sl [idx] [(⟨idx, b, b + sl.length, ctx.maxDepth - d⟩, .ready)] (3 * sl.length - 2)
  | alloc {idx b d sl nd left mid lb rb} (hd : d + 1 ≤ ctx.maxDepth) (h : nodes[idx]? = some nd)
      (hs : InScene ctx sl) (h0 : 0 < mid) (h1 : mid < sl.length) :
      Grow ctx nodes nd.bounds idx b (d + 1) sl [idx, left, left + 1]
        [(⟨idx, b, b + sl.length, ctx.maxDepth - (d + 1)⟩, .allocated left mid lb rb)] (3 * sl.length - 3)
  | leaf {bd idx b d sl nd} (h : nodes[idx]? = some nd) (hne : sl ≠ [])
      (h1 : nd.bounds.extra1 = asI32 sl.length) (h2 : nd.bounds.extra2 = asI32 b)
      (h3 : nd.bounds.clean = (pad (pad bd)).clean) :
      Grow ctx nodes bd idx b d sl [idx] [] 0
  | node {bd bl br idx b d slL slR nd left fpL fpR tsL tsR mL mR} (h : nodes[idx]? = some nd)
      (h1 : nd.bounds.extra1 = -1) (h2 : nd.bounds.extra2 = asI32 left) (h3 : nd.bounds.clean = (pad bd).clean)
      (hL : Grow ctx nodes bl left b d slL fpL tsL mL)
      (hR : Grow ctx nodes br (left + 1) (b + slL.length) d slR fpR tsR mR) :
      Grow ctx nodes bd idx b (d + 1) (slL ++ slR) (idx :: (fpL ++ fpR)) (tsL ++ tsR) (mL + mR)

namespace Grow
variable {ctx : BinnedCtx F} {nodes nodes' : List (BvhNode F)} {bd : Aabb F} {idx b d : Nat} {sl fp : List Nat}
  {ts : List (BinnedTask × WithPhase F)} {m : Nat}

theorem idx_mem (h : Grow ctx nodes bd idx b d sl fp ts m) : idx ∈ fp := by cases h <;> simp

theorem frame (h : Grow ctx nodes bd idx b d sl fp ts m) (hf : ∀ i ∈ fp, nodes'[i]? = nodes[i]?) :
    Grow ctx nodes' bd idx b d sl fp ts m := by
  induction h with
  | ready hd h hne hs => exact .ready hd (by rw [hf _ (by simp), h]) hne hs
  | alloc hd h hs h0 h1 => exact .alloc hd (by rw [hf _ (by simp), h]) hs h0 h1
  | leaf h hne h1 h2 h3 => exact .leaf (by rw [hf _ (by simp), h]) hne h1 h2 h3
  | node h h1 h2 h3 hL hR ihL ihR =>
    exact .node (by rw [hf _ (by simp), h]) h1 h2 h3 (ihL fun i hi => hf i (by simp [hi]))
      (ihR fun i hi => hf i (by simp [hi]))

theorem ne_nil (h : Grow ctx nodes bd idx b d sl fp ts m) : sl ≠ [] := by
  induction h with
  | ready _ _ hne _ => exact hne
  | alloc _ _ _ _ h1 => rintro rfl; simp at h1
  | leaf _ hne _ _ _ => exact hne
  | node _ _ _ _ hL hR ihL ihR => simp [ihL]

theorem fp_le (h : Grow ctx nodes bd idx b d sl fp ts m) : fp.length + 1 ≤ 2 * sl.length := by
  induction h with
  | ready _ _ hne _ => have := List.length_pos_iff.2 hne; simp; omega
  | alloc _ _ _ h0 h1 => simp; omega
  | leaf _ hne _ _ _ => have := List.length_pos_iff.2 hne; simp; omega
  | node h h1 h2 h3 hL hR ihL ihR => simp; omega

/-- A finished part's nodes really are a tree over its slice. -/
theorem complete (h : Grow ctx nodes bd idx b d sl fp ts m) (hts : ts = []) (hb : b + sl.length < 2147483648)
    (hfp : ∀ i ∈ fp, i < 2147483648) :
    ∃ T, Unfolds nodes idx T ∧ fp.length = T.size ∧ TreeOf T sl sl b d ∧
      (T.bounds = (pad bd).clean ∨ T.bounds = (pad (pad bd)).clean) := by
  induction h with
  | ready => simp at hts
  | alloc => simp at hts
  | @leaf bd idx b d sl nd h hne h1 h2 h3 =>
    have hpos : 0 < sl.length := List.length_pos_iff.2 hne
    refine ⟨_, .leaf h (by rw [h1, asI32_eq (by omega)]) (by rw [h2, asI32_eq (by omega)]), by simp [BTree.size], ?_,
      .inr h3⟩
    refine ⟨.refl _, by simp [BTree.depth], by simp [BTree.size, BTree.leaves], by simp [BTree.leaves]; omega, ?_, ?_, ?_⟩
    · intro pre post hp
      simp [BTree.ids, BTree.rangeIds, ← hp]
    · intro idx hidx
      simpa [BTree.RangesIn] using hidx
    · intro r hr
      simp only [BTree.ranges, List.mem_singleton] at hr
      subst hr; exact hpos
  | @node bd bl br idx b d slL slR nd left fpL fpR tsL tsR mL mR h h1 h2 h3 hL hR ihL ihR =>
    simp only [List.append_eq_nil_iff] at hts
    simp only [List.length_append] at hb
    obtain ⟨L, u1, s1, t1, _⟩ := ihL hts.1 (by omega) (fun i hi => hfp i (by simp [hi]))
    obtain ⟨R, u2, s2, t2, _⟩ := ihR hts.2 (by omega) (fun i hi => hfp i (by simp [hi]))
    have := hfp left (by simp [hL.idx_mem])
    refine ⟨_, .node h (by omega) (by rw [h2, asI32_eq this]) u1 u2, by simp [BTree.size, s1, s2], ?_, .inl h3⟩
    refine ⟨.refl _, ?_, ?_, ?_, ?_, ?_, ?_⟩
    · have := t1.depth; have := t2.depth; simp only [BTree.depth]; omega
    · have := t1.size; have := t2.size; simp only [BTree.size, BTree.leaves]; omega
    · have := t1.leaves; have := t2.leaves; simp only [BTree.leaves, List.length_append]; omega
    · intro pre post hp
      have e1 := t1.ids pre (slR ++ post) hp
      have e2 := t2.ids (pre ++ slL) post (by simp [hp])
      simp only [BTree.ids, List.append_assoc] at e1 e2 ⊢
      rw [e1, e2]
    · intro i hi
      simp only [List.length_append] at hi
      exact ⟨t1.rangesIn i (by omega), t2.rangesIn i (by omega)⟩
    · intro r hr
      simp only [BTree.ranges, List.mem_append] at hr
      rcases hr with hr | hr
      · exact t1.nonempty r hr
      · exact t2.nonempty r hr

/-- Every atomic step of any unfinished task goes through, and something is left to do only below the bound. -/
theorem step (h : Grow ctx nodes bd idx b d sl fp ts m) (hnd : fp.Nodup) (hlt : ∀ i ∈ fp, i < nodes.length)
    {counter : Nat} (hroom : fp.length + 3 ≤ 2 * sl.length → counter + 1 < nodes.length) (ans : Answers F)
    {t : BinnedTask} {ph : WithPhase F} {rest : List (BinnedTask × WithPhase F)} (hmem : ts.Perm ((t, ph) :: rest)) :
    ∃ nodes' c' sl₁ new fp' ts' m',
      taskStepWith ctx ans nodes counter (sliceOf sl (t.begin - b) (t.stop - b)) t ph = some (nodes', c', sl₁, new) ∧
      Grow ctx nodes' bd idx b d (writeAt sl (t.begin - b) sl₁) fp' ts' m' ∧
      (writeAt sl (t.begin - b) sl₁).Perm sl ∧
      ts'.Perm (rest ++ new) ∧ m' + 1 ≤ m ∧ nodes'.length = nodes.length ∧
      (∀ i, i ∉ fp → nodes'[i]? = nodes[i]?) ∧
      ((c' = counter ∧ fp'.Perm fp) ∨ (c' = counter + 2 ∧ fp'.Perm (fp ++ [counter, counter + 1]))) ∧
      t.begin + sl₁.length = t.stop ∧ b ≤ t.begin ∧ t.stop ≤ b + sl.length := by
  induction h generalizing rest with
  | @ready idx b d sl nd hd h hne hs =>
    obtain ⟨e1, rfl⟩ : (⟨idx, b, b + sl.length, ctx.maxDepth - d⟩, .ready) = (t, ph) ∧ rest = [] := by
      have := List.perm_singleton.1 hmem.symm
      simp only [List.cons.injEq] at this
      exact ⟨this.1.symm, this.2⟩
    injection e1 with e1 e2; subst e1; subst e2
    simp only [Nat.sub_self, Nat.add_sub_cancel_left, sliceOf_full]
    have hidx := hlt idx (by simp)
    have hpos : 0 < sl.length := List.length_pos_iff.2 hne
    unfold taskStepWith
    simp only [h]
    rcases binnedDecideWith_total ans (bounds := nd.bounds) (ctx.maxDepth - d) hs with
      ⟨sl', e, p⟩ | ⟨sl', mid, lb, rb, e, p, m0, m1, hdep, hl⟩
    · simp only [e]
      refine ⟨_, _, _, _, [idx], [], 0, rfl, ?_, ?_, by simp, by omega, by simp, ?_,
        .inl ⟨rfl, .refl _⟩, by simp [p.length_eq], by simp, by simp⟩
      · rw [writeAt_full _ _ p.length_eq]
        refine .leaf (by simp [hidx]; rfl) (by intro hh; subst hh; simp at p; exact hne p) ?_ ?_ ?_
        · simp [leafNode, BvhNode.setCount, p.length_eq]
        · simp [leafNode, BvhNode.setCount, BvhNode.setLeftFirst]
        · exact leafNode_clean nd b (b + sl.length)
      · rw [writeAt_full _ _ p.length_eq]; exact p
      · intro i hi; simp at hi; rw [List.getElem?_set_ne (by omega)]
    · simp only [e]
      have hr := hroom (by simp; omega)
      simp only [allocate, hr, if_true, if_neg (show ¬ nodes.length ≤ counter by omega)]
      refine ⟨_, _, _, _, [idx, counter, counter + 1],
        [(⟨idx, b, b + sl.length, ctx.maxDepth - d⟩, .allocated counter mid lb rb)], 3 * sl'.length - 3, rfl,
        ?_, ?_, by simp, by rw [p.length_eq]; omega, rfl, by simp, .inr ⟨rfl, by simp⟩, by simp [p.length_eq], by simp, by simp⟩
      · rw [writeAt_full _ _ p.length_eq, ← p.length_eq]
        cases d with
        | zero => omega
        | succ d => exact .alloc (left := counter) hd h (hs.perm p) m0 (by rw [p.length_eq]; exact m1)
      · rw [writeAt_full _ _ p.length_eq]; exact p
  | @alloc idx b d sl nd left mid lb rb hd h hs h0 h1 =>
    obtain ⟨e1, rfl⟩ : (⟨idx, b, b + sl.length, ctx.maxDepth - (d + 1)⟩, .allocated left mid lb rb) = (t, ph) ∧
        rest = [] := by
      have := List.perm_singleton.1 hmem.symm
      simp only [List.cons.injEq] at this
      exact ⟨this.1.symm, this.2⟩
    injection e1 with e1 e2; subst e1; subst e2
    simp only [Nat.sub_self, Nat.add_sub_cancel_left, sliceOf_full]
    have hidx := hlt idx (by simp)
    have hl0 := hlt left (by simp)
    have hl1 := hlt (left + 1) (by simp)
    simp only [List.nodup_cons, List.mem_cons, List.not_mem_nil, or_false, not_or] at hnd
    unfold taskStepWith
    simp only [h, List.getElem?_eq_getElem hl0, List.getElem?_eq_getElem hl1]
    have hsL : InScene ctx (sl.take mid) := fun q hq => hs q (List.mem_of_mem_take hq)
    have hsR : InScene ctx (sl.drop mid) := fun q hq => hs q (List.mem_of_mem_drop hq)
    have hneL : sl.take mid ≠ [] := by
      intro hh; have := congrArg List.length hh; rw [List.length_take, List.length_nil] at this; omega
    have hneR : sl.drop mid ≠ [] := by
      intro hh; have := congrArg List.length hh; rw [List.length_drop, List.length_nil] at this; omega
    have hmidlen : (sl.take mid).length = mid := by simp; omega
    have hdroplen : (sl.drop mid).length = sl.length - mid := by simp
    refine ⟨_, _, _, _, idx :: ([left] ++ [left + 1]),
      [(⟨left, b, b + (sl.take mid).length, ctx.maxDepth - d⟩, .ready)] ++
      [(⟨left + 1, b + mid, b + mid + (sl.drop mid).length, ctx.maxDepth - d⟩, .ready)],
      (3 * (sl.take mid).length - 2) + (3 * (sl.drop mid).length - 2),
      rfl, ?_, ?_, ?_, ?_, by simp, ?_, .inl ⟨rfl, by simp⟩,
      by simp, by simp, by simp⟩
    · rw [writeAt_full _ _ rfl]
      have key : ∀ x, x = sl.take mid ++ sl.drop mid → Grow ctx
          (((nodes.set idx (({ bounds := pad nd.bounds : BvhNode F}.setLeftFirst (some left)).setCount none)).set left
            { bounds := lb }).set (left + 1) { bounds := rb }) nd.bounds idx b (d + 1) x (idx :: ([left] ++ [left + 1]))
          ([(⟨left, b, b + (sl.take mid).length, ctx.maxDepth - d⟩, .ready)] ++
            [(⟨left + 1, b + mid, b + mid + (sl.drop mid).length, ctx.maxDepth - d⟩, .ready)])
          ((3 * (sl.take mid).length - 2) + (3 * (sl.drop mid).length - 2)) := ?_
      · exact key _ (List.take_append_drop mid sl).symm
      rintro x rfl
      refine .node (left := left) (bl := lb) (br := rb) ?_ rfl rfl (setChildren_clean _ _)
        (Grow.ready (nd := { bounds := lb }) (by omega) ?_ hneL hsL) ?_
      · rw [List.getElem?_set_ne (by omega), List.getElem?_set_ne (by omega), List.getElem?_set_self hidx]
      · rw [List.getElem?_set_ne (by omega), List.getElem?_set_self (by simpa using hl0)]
      · rw [hmidlen]
        exact Grow.ready (nd := { bounds := rb }) (by omega) (by rw [List.getElem?_set_self (by simpa using hl1)]) hneR hsR
    · rw [writeAt_full _ _ rfl]
    · have : ctx.maxDepth - (d + 1) + 1 = ctx.maxDepth - d := by omega
      have h2 : b + mid + (sl.drop mid).length = b + sl.length := by simp; omega
      simp only [List.nil_append, this, h2, hmidlen]
      simp
    · rw [hmidlen, hdroplen]; omega
    · intro i hi
      simp at hi
      rw [List.getElem?_set_ne (by omega), List.getElem?_set_ne (by omega), List.getElem?_set_ne (by omega)]
  | leaf => exact absurd hmem.length_eq (by simp)
  | @node bd bl br idx b d slL slR nd left fpL fpR tsL tsR mL mR h h1 h2 h3 hL hR ihL ihR =>
    have hfL := hL.fp_le
    have hfR := hR.fp_le
    rw [List.nodup_cons] at hnd
    obtain ⟨hni, hnd⟩ := hnd
    rw [List.nodup_append] at hnd
    obtain ⟨hndL, hndR, hdisj⟩ := hnd
    simp only [List.mem_append, not_or] at hni
    have hpermfp : ∀ {fpX : List Nat} {X : List Nat}, fpX.Perm (fpL ++ X) →
        (idx :: (fpX ++ fpR)).Perm ((idx :: (fpL ++ fpR)) ++ X) := by
      intro fpX X hp
      simp only [List.cons_append, List.perm_cons]
      refine (hp.append_right fpR).trans ?_
      simp only [List.append_assoc]
      exact (List.perm_append_comm).append_left fpL
    have hin : (t, ph) ∈ tsL ++ tsR := hmem.symm.subset (by simp)
    rw [List.mem_append] at hin
    rcases hin with hin | hin
    · obtain ⟨u, v, rfl⟩ := List.append_of_mem hin
      have hrest : rest.Perm (u ++ v ++ tsR) := by
        refine List.Perm.cons_inv (a := (t, ph)) (hmem.symm.trans ?_)
        simp only [List.append_assoc, List.cons_append]
        exact List.perm_middle
      obtain ⟨nodes', c', sl₁, new, fp', ts', m', e, hD, hp, hts, hr, hlen, hout, hc, hb1, hb2, hb3⟩ :=
        ihL hndL (fun i hi => hlt i (by simp [hi])) (by intro hh; apply hroom; simp; omega) (rest := u ++ v)
          List.perm_middle
      have hbnd : t.begin - b + sl₁.length ≤ slL.length := by omega
      refine ⟨nodes', c', sl₁, new, idx :: (fp' ++ fpR), ts' ++ tsR, m' + mR, ?_, ?_, ?_, ?_, by omega, hlen, ?_, ?_, hb1,
        hb2, by simp; omega⟩
      · rw [sliceOf_append_left _ _ _ _ (by omega)]; exact e
      · rw [writeAt_append_left _ _ _ _ hbnd]
        refine .node (left := left) (br := br) (by rw [hout _ hni.1]; exact h) h1 h2 h3 hD ?_
        rw [length_writeAt _ _ _ hbnd]
        exact hR.frame fun i hi => hout i (fun hi' => hdisj i hi' i hi rfl)
      · rw [writeAt_append_left _ _ _ _ hbnd]; exact hp.append_right slR
      · refine (hts.append_right tsR).trans ?_
        refine List.Perm.trans ?_ (hrest.symm.append_right new)
        simp only [List.append_assoc]
        exact ((List.perm_append_comm).append_left v).append_left u
      · intro i hi
        simp only [List.mem_cons, List.mem_append, not_or] at hi
        exact hout i hi.2.1
      · rcases hc with ⟨rfl, hp⟩ | ⟨rfl, hp⟩
        · exact .inl ⟨rfl, by simp only [List.perm_cons]; exact hp.append_right fpR⟩
        · exact .inr ⟨rfl, hpermfp hp⟩
    · obtain ⟨u, v, rfl⟩ := List.append_of_mem hin
      have hrest : rest.Perm (tsL ++ (u ++ v)) := by
        refine List.Perm.cons_inv (a := (t, ph)) (hmem.symm.trans ?_)
        refine (List.Perm.append_left tsL List.perm_middle).trans List.perm_middle
      obtain ⟨nodes', c', sl₁, new, fp', ts', m', e, hD, hp, hts, hr, hlen, hout, hc, hb1, hb2, hb3⟩ :=
        ihR hndR (fun i hi => hlt i (by simp [hi])) (by intro hh; apply hroom; simp; omega) (rest := u ++ v)
          List.perm_middle
      have hsub : t.begin - b - slL.length = t.begin - (b + slL.length) := by omega
      refine ⟨nodes', c', sl₁, new, idx :: (fpL ++ fp'), tsL ++ ts', mL + m', ?_, ?_, ?_, ?_, by omega, hlen, ?_, ?_, hb1,
        by omega, by simp; omega⟩
      · rw [sliceOf_append_right _ _ _ _ (by omega), hsub]
        have : t.stop - b - slL.length = t.stop - (b + slL.length) := by omega
        rw [this]; exact e
      · rw [writeAt_append_right _ _ _ _ (by omega), hsub]
        refine .node (left := left) (bl := bl) (by rw [hout _ hni.2]; exact h) h1 h2 h3 ?_ hD
        exact hL.frame fun i hi => hout i (fun hi' => hdisj i hi i hi' rfl)
      · rw [writeAt_append_right _ _ _ _ (by omega), hsub]; exact hp.append_left slL
      · refine (hts.append_left tsL).trans ?_
        rw [← List.append_assoc]
        exact hrest.symm.append_right new
      · intro i hi
        simp only [List.mem_cons, List.mem_append, not_or] at hi
        exact hout i hi.2.2
      · rcases hc with ⟨rfl, hp⟩ | ⟨rfl, hp⟩
        · exact .inl ⟨rfl, by simp only [List.perm_cons]; exact hp.append_left fpL⟩
        · refine .inr ⟨rfl, ?_⟩
          simp only [List.cons_append, List.perm_cons, List.append_assoc]
          exact hp.append_left fpL
end Grow

/-- Proof device: what holds of every state of a build, with at most `m` steps to go. -/
structure GInv (ctx : BinnedCtx F) (n : Nat) (s : WithState F) (m : Nat) : Prop where
  ex : ∃ fp ts, Grow ctx s.nodes (Aabb.unionOfList ctx.aabbs) 0 0 ctx.maxDepth s.prims fp ts m ∧ fp.Nodup ∧
    fp.length = s.counter ∧ (∀ i ∈ fp, i < s.counter) ∧ ts.Perm s.pending
  len : s.nodes.length = 2 * n - 1
  perm : s.prims.Perm (List.range n)

theorem GInv.step {ctx : BinnedCtx F} {n : Nat} {s : WithState F} {m : Nat} (h : GInv ctx n s m) (ans : Answers F) {k : Nat}
    (hk : k < s.pending.length) : ∃ s' m', withStep ctx s k ans = some s' ∧ GInv ctx n s' m' ∧ m' + 1 ≤ m := by
  obtain ⟨⟨fp, ts, hD, hnd, hfl, hfc, hts⟩, hlen, hperm⟩ := h
  have hpl : s.prims.length = n := by simpa using hperm.length_eq
  have hfp := hD.fp_le
  obtain ⟨⟨t, ph⟩, hkk⟩ : ∃ x, s.pending[k] = x := ⟨_, rfl⟩
  have hmem : ts.Perm ((t, ph) :: s.pending.eraseIdx k) := by
    have := List.getElem_cons_eraseIdx_perm hk
    rw [hkk] at this
    exact hts.trans this.symm
  obtain ⟨nodes', c', sl₁, new, fp', ts', m', e, hD', hp', hts', hr, hlen', hout, hc, hb1, hb2, hb3⟩ :=
    hD.step hnd (fun i hi => by have := hfc i hi; omega) (counter := s.counter) (by intro hh; omega) ans hmem
  simp only [Nat.sub_zero, Nat.zero_add] at e hD' hb3 hp'
  refine ⟨⟨nodes', c', writeAt s.prims t.begin sl₁, s.pending.eraseIdx k ++ new⟩, m', ?_,
    ⟨⟨fp', ts', hD', ?_, ?_, ?_, hts'⟩, ?_, hp'.trans hperm⟩, hr⟩
  · unfold withStep
    rw [List.getElem?_eq_getElem hk, hkk]
    simp only [e]
  · rcases hc with ⟨_, hp⟩ | ⟨_, hp⟩
    · exact hp.nodup_iff.2 hnd
    · rw [hp.nodup_iff, List.nodup_append]
      refine ⟨hnd, by simp, ?_⟩
      intro a ha b hb
      have := hfc a ha
      simp at hb; omega
  · rcases hc with ⟨e, hp⟩ | ⟨e, hp⟩
    · simp [hp.length_eq, hfl, e]
    · simp [hp.length_eq, hfl, e]
  · intro i hi
    rcases hc with ⟨e, hp⟩ | ⟨e, hp⟩
    · have := hfc i (hp.mem_iff.1 hi); simp [e]; omega
    · have := hp.mem_iff.1 hi
      simp only [List.mem_append, List.mem_cons, List.not_mem_nil, or_false] at this
      simp only [e]
      rcases this with h | h | h
      · have := hfc i h; omega
      · omega
      · omega
  · simp [hlen', hlen]

/-- Every choice of the history names a task that is pending at that moment. -/
def LegalHistory (ctx : BinnedCtx F) : List (Nat × Answers F) → WithState F → Prop
  | [], _ => True
  | (k, ans) :: es, s => k < s.pending.length ∧ ∀ s', withStep ctx s k ans = some s' → LegalHistory ctx es s'

theorem GInv.exec {ctx : BinnedCtx F} {n : Nat} (es : List (Nat × Answers F)) :
    ∀ {s : WithState F} {m : Nat}, GInv ctx n s m →
    ∃ s' m', withExec ctx es s = some s' ∧ GInv ctx n s' m' ∧ (LegalHistory ctx es s → m' + es.length ≤ m) := by
  induction es with
  | nil => intro s m h; exact ⟨s, m, rfl, h, by simp⟩
  | cons x es ih =>
    obtain ⟨k, ans⟩ := x
    intro s m h
    by_cases hk : k < s.pending.length
    · obtain ⟨s₁, m₁, e, h1, hr⟩ := h.step ans hk
      obtain ⟨s', m', e', h', hL⟩ := ih h1
      refine ⟨s', m', by simp [withExec, e, e'], h', ?_⟩
      intro hl
      have := hL (hl.2 _ e)
      simp; omega
    · obtain ⟨s', m', e', h', hL⟩ := ih h
      have hst : withStep ctx s k ans = some s := by
        unfold withStep
        rw [List.getElem?_eq_none (by omega)]
      exact ⟨s', m', by simp [withExec, hst, e'], h', fun hl => absurd hl.1 hk⟩

theorem withInit_inv {ctx : BinnedCtx F} {n : Nat} (hs : BinnedSetting ctx n) (hn : n ≤ 2 ^ 32) :
    GInv ctx n (withInit ctx) (3 * n - 2) := by
  have hpr : (List.range n).map (· % 2 ^ 32) = List.range n := by
    conv => rhs; rw [← List.map_id (List.range n)]
    apply List.map_congr_left
    intro a ha; simp at ha
    simp only [id_eq]
    exact Nat.mod_eq_of_lt (by omega)
  have hIn : InScene ctx (List.range n) := by
    intro p hp; simp at hp; rw [hs.aabbs, hs.centers]; exact ⟨hp, hp⟩
  have hpos := hs.pos
  have hne : List.range n ≠ [] := by
    intro hh; have := congrArg List.length hh; simp at this; omega
  refine ⟨⟨[0], [(⟨0, 0, n, 0⟩, .ready)], ?_, by simp, rfl, by simp [withInit], by simp [withInit, hs.aabbs]⟩, ?_, ?_⟩
  · have := Grow.ready (ctx := ctx) (nodes := (binnedInit ctx).nodes) (idx := 0) (b := 0)
      (nd := { bounds := Aabb.unionOfList ctx.aabbs }) (Nat.le_refl _)
      (by simp only [binnedInit, hs.aabbs]; rw [List.getElem?_set_self (by simp; omega)]) hne hIn
    simpa [withInit, binnedInit, hs.aabbs, hpr] using this
  · simp [withInit, binnedInit, hs.aabbs]; omega
  · simp only [withInit, binnedInit, hs.aabbs]; rw [hpr]

/-- Everything about executions with arbitrary answers at once. -/
theorem with_main {ctx : BinnedCtx F} {n : Nat} (hs : BinnedSetting ctx n) (hn : n ≤ 2 ^ 30) (es : List (Nat × Answers F)) :
    ∃ s, withExec ctx es (withInit ctx) = some s ∧
      (LegalHistory ctx es (withInit ctx) → es.length ≤ 3 * n - 2) ∧
      (s.pending = [] → (withFinish s).primIndices.Perm (List.range n) ∧ ∃ T, Unfolds (withFinish s).nodes 0 T ∧
        (withFinish s).nodes.length = T.size ∧
        TreeOf T (withFinish s).primIndices (withFinish s).primIndices 0 ctx.maxDepth ∧
        (T.bounds = (pad (Aabb.unionOfList ctx.aabbs)).clean ∨ T.bounds = (pad (pad (Aabb.unionOfList ctx.aabbs))).clean)) := by
  obtain ⟨s, m, e, ⟨⟨fp, ts, hD, hnd, hfl, hfc, hts⟩, hlen, hperm⟩, hL⟩ := (withInit_inv hs (by omega)).exec es
  refine ⟨s, e, fun hl => by have := hL hl; omega, fun hp => ?_⟩
  have hpl : s.prims.length = n := by simpa using hperm.length_eq
  have hfple := hD.fp_le
  rw [hp] at hts
  have hts0 := hts.eq_nil
  have hcl : s.counter ≤ s.nodes.length := by omega
  have hfin : (withFinish s).nodes = s.nodes.take s.counter := by
    simp [withFinish, Nat.sub_eq_zero_of_le hcl]
  have hD2 : Grow ctx (withFinish s).nodes (Aabb.unionOfList ctx.aabbs) 0 0 ctx.maxDepth s.prims fp ts m :=
    hD.frame (by intro i hi; rw [hfin, List.getElem?_take_of_lt (hfc i hi)])
  obtain ⟨T, h1, h2, h3, h4⟩ := hD2.complete hts0 (by omega) (fun i hi => by have := hfc i hi; omega)
  refine ⟨hperm, T, h1, ?_, h3, h4⟩
  rw [hfin, List.length_take, ← h2, hfl]; omega

end Rtbvh
