import Verif.Proofs.BinnedPure
/- The concurrent binned build: invariant and its preservation by every atomic step. -/
namespace Rtbvh
variable {F : Type}

/-- Number of atomic steps of the build of a tree: one per leaf, two per interior node. -/
def BTree.steps : BTree F → Nat
  | .leaf _ _ _ => 1
  | .node _ l r => l.steps + r.steps + 2

theorem BTree.steps_pos (T : BTree F) : 0 < T.steps := by cases T <;> simp [BTree.steps]

variable [FloatOps F]

/-- Proof device: with the current node array and id slice `sl`, the subtree rooted at node `idx` will end up as
`T` with final ids `P`; `fp` are the node indices it owns, `ts` its unfinished tasks, `rem` the steps left. -/
inductive Den (ctx : BinnedCtx F) (nodes : List (BvhNode F)) :
    (idx b d : Nat) → (sl : List Nat) → BTree F → (P fp : List Nat) → List (BinnedTask × TaskPhase) → Nat → Prop
  | ready {idx b d sl T P nd} (hd : d ≤ ctx.maxDepth) (h : nodes[idx]? = some nd) (hne : sl ≠ [])
      (hs : InScene ctx sl) (hb : buildTree ctx d nd.bounds sl b = some (T, P)) :
      Den ctx nodes idx b d sl T P [idx] [(⟨idx, b, b + sl.length, ctx.maxDepth - d⟩, .ready)] T.steps
  | alloc {idx b d sl T P nd left sl' mid lb rb r} (hd : d ≤ ctx.maxDepth) (h : nodes[idx]? = some nd) (hne : sl ≠ [])
      (hs : InScene ctx sl) (hb : buildTree ctx d nd.bounds sl b = some (T, P))
      (hdec : binnedDecide ctx nd.bounds sl (ctx.maxDepth - d) = some (.split sl' mid lb rb)) (hr : T.steps = r + 1) :
      Den ctx nodes idx b d sl T P [idx, left, left + 1]
        [(⟨idx, b, b + sl.length, ctx.maxDepth - d⟩, .allocated left)] r
  | leaf {idx b d sl nd} (h : nodes[idx]? = some nd) (hne : sl ≠ [])
      (h1 : nd.bounds.extra1 = asI32 sl.length) (h2 : nd.bounds.extra2 = asI32 b) :
      Den ctx nodes idx b d sl (.leaf nd.bounds.clean b sl.length) sl [idx] [] 0
  | node {idx b d slL slR nd left L R PL PR fpL fpR tsL tsR rL rR} (h : nodes[idx]? = some nd)
      (h1 : nd.bounds.extra1 = -1) (h2 : nd.bounds.extra2 = asI32 left)
      (hL : Den ctx nodes left b d slL L PL fpL tsL rL)
      (hR : Den ctx nodes (left + 1) (b + slL.length) d slR R PR fpR tsR rR) :
      Den ctx nodes idx b (d + 1) (slL ++ slR) (.node nd.bounds.clean L R) (PL ++ PR) (idx :: (fpL ++ fpR))
        (tsL ++ tsR) (rL + rR)

namespace Den
variable {ctx : BinnedCtx F} {nodes nodes' : List (BvhNode F)} {idx b d : Nat} {sl P fp : List Nat} {T : BTree F}
  {ts : List (BinnedTask × TaskPhase)} {r : Nat}

theorem idx_mem (h : Den ctx nodes idx b d sl T P fp ts r) : idx ∈ fp := by cases h <;> simp

theorem frame (h : Den ctx nodes idx b d sl T P fp ts r) (hf : ∀ i ∈ fp, nodes'[i]? = nodes[i]?) :
    Den ctx nodes' idx b d sl T P fp ts r := by
  induction h with
  | ready hd h hne hs hb => exact .ready hd (by rw [hf _ (by simp), h]) hne hs hb
  | alloc hd h hne hs hb hdec hr => exact .alloc hd (by rw [hf _ (by simp), h]) hne hs hb hdec hr
  | leaf h hne h1 h2 => exact .leaf (by rw [hf _ (by simp), h]) hne h1 h2
  | node h h1 h2 hL hR ihL ihR =>
    exact .node (by rw [hf _ (by simp), h]) h1 h2 (ihL fun i hi => hf i (by simp [hi]))
      (ihR fun i hi => hf i (by simp [hi]))

theorem ne_nil (h : Den ctx nodes idx b d sl T P fp ts r) : sl ≠ [] := by
  induction h with
  | ready _ _ hne _ _ => exact hne
  | alloc _ _ hne _ _ _ _ => exact hne
  | leaf _ hne _ _ => exact hne
  | node h h1 h2 hL hR ihL ihR => simp [ihL]

theorem fp_le (h : Den ctx nodes idx b d sl T P fp ts r) : fp.length + 1 ≤ 2 * sl.length := by
  induction h with
  | ready _ _ hne _ _ => have := List.length_pos_iff.2 hne; simp; omega
  | @alloc idx b d sl T P nd left sl' mid lb rb r hd h hne hs hb hdec hr =>
    rcases binnedDecide_total (bounds := nd.bounds) (ctx.maxDepth - d) hs with ⟨_, e, _⟩ | ⟨_, _, _, _, _, _, _, _, _, hl⟩
    · rw [hdec] at e; simp at e
    · simp; omega
  | leaf _ hne _ _ => have := List.length_pos_iff.2 hne; simp; omega
  | node h h1 h2 hL hR ihL ihR => simp; omega

/-- No task left exactly when no steps are left. -/
theorem rem_zero_iff (h : Den ctx nodes idx b d sl T P fp ts r) : r = 0 ↔ ts = [] := by
  induction h with
  | @ready _ _ _ _ T => have := T.steps_pos; simp; omega
  | @alloc idx b d sl T P nd left sl' mid lb rb r hd h hne hs hb hdec hr =>
    simp
    rintro rfl
    cases T with
    | leaf bd f c =>
      cases d with
      | zero => simp [buildTree] at hb; rw [Nat.sub_zero] at hdec; rw [hdec] at hb; simp at hb
      | succ d =>
        unfold buildTree at hb; rw [hdec] at hb; simp only at hb
        split at hb <;> simp at hb
    | node bd l r => have := l.steps_pos; simp [BTree.steps] at hr
  | leaf => simp
  | node h h1 h2 hL hR ihL ihR => simp [← ihL, ← ihR]

end Den

theorem sliceOf_full {α : Type} (l : List α) : sliceOf l 0 l.length = l := by simp [sliceOf]

theorem sliceOf_append_left {α : Type} (l r : List α) (b e : Nat) (h : e ≤ l.length) :
    sliceOf (l ++ r) b e = sliceOf l b e := by
  simp only [sliceOf]
  by_cases hb : b ≤ l.length
  · rw [List.drop_append_of_le_length hb, List.take_append_of_le_length (by simp; omega)]
  · have : e - b = 0 := by omega
    simp [this]

theorem sliceOf_append_right {α : Type} (l r : List α) (b e : Nat) (h : l.length ≤ b) :
    sliceOf (l ++ r) b e = sliceOf r (b - l.length) (e - l.length) := by
  simp only [sliceOf]
  rw [List.drop_append]
  rw [List.drop_eq_nil_of_le h, List.nil_append]
  congr 1; omega

theorem writeAt_append_left {α : Type} (l r xs : List α) (b : Nat) (h : b + xs.length ≤ l.length) :
    writeAt (l ++ r) b xs = writeAt l b xs ++ r := by
  simp only [writeAt]
  rw [List.take_append_of_le_length (by omega), List.drop_append_of_le_length (by omega)]
  simp

theorem writeAt_append_right {α : Type} (l r xs : List α) (b : Nat) (h : l.length ≤ b) :
    writeAt (l ++ r) b xs = l ++ writeAt r (b - l.length) xs := by
  simp only [writeAt]
  rw [List.take_append, List.drop_append]
  rw [List.take_of_length_le h, List.drop_eq_nil_of_le (by omega)]
  simp only [List.nil_append, List.append_assoc]
  congr 4; omega

theorem writeAt_full {α : Type} (l xs : List α) (h : xs.length = l.length) : writeAt l 0 xs = xs := by
  simp [writeAt, h]

theorem length_writeAt {α : Type} (l xs : List α) (b : Nat) (h : b + xs.length ≤ l.length) :
    (writeAt l b xs).length = l.length := by
  simp [writeAt]; omega

omit [FloatOps F] in
theorem setChildren_clean (bd : Aabb F) (left : Nat) :
    ((({ bounds := bd } : BvhNode F).setLeftFirst (some left)).setCount none).bounds.clean = bd.clean := by
  simp [Aabb.clean, BvhNode.setCount, BvhNode.setLeftFirst]

theorem leafNode_clean (nd : BvhNode F) (x y : Nat) : (leafNode nd x y).bounds.clean = (pad (pad nd.bounds)).clean := by
  simp [leafNode, Aabb.clean, BvhNode.setCount, BvhNode.setLeftFirst]

/-- Every atomic step of any unfinished task keeps the denoted tree and final ids. -/
theorem Den.step {ctx : BinnedCtx F} {nodes : List (BvhNode F)} {idx b d : Nat} {sl P fp : List Nat} {T : BTree F}
    {ts : List (BinnedTask × TaskPhase)} {r : Nat} {t : BinnedTask} {ph : TaskPhase}
    (h : Den ctx nodes idx b d sl T P fp ts r) (hnd : fp.Nodup) (hlt : ∀ i ∈ fp, i < nodes.length)
    {counter : Nat} (hroom : fp.length + 3 ≤ 2 * sl.length → counter + 1 < nodes.length) (hmem : (t, ph) ∈ ts) :
    ∃ nodes' c' sl₁ new fp' ts' r',
      taskStep ctx nodes counter (sliceOf sl (t.begin - b) (t.stop - b)) t ph = some (nodes', c', sl₁, new) ∧
      Den ctx nodes' idx b d (writeAt sl (t.begin - b) sl₁) T P fp' ts' r' ∧
      ts'.Perm (ts.erase (t, ph) ++ new) ∧ r = r' + 1 ∧ nodes'.length = nodes.length ∧
      (∀ i, i ∉ fp → nodes'[i]? = nodes[i]?) ∧
      ((c' = counter ∧ fp'.Perm fp) ∨ (c' = counter + 2 ∧ fp'.Perm (fp ++ [counter, counter + 1]))) ∧
      t.begin + sl₁.length = t.stop ∧ b ≤ t.begin ∧ t.stop ≤ b + sl.length := by
  induction h with
  | @ready idx b d sl T P nd hd h hne hs hb =>
    simp at hmem
    obtain ⟨rfl, rfl⟩ := hmem
    simp only [Nat.sub_self, Nat.add_sub_cancel_left, sliceOf_full]
    have hidx := hlt idx (by simp)
    unfold taskStep
    simp only [h]
    rcases binnedDecide_total (bounds := nd.bounds) (ctx.maxDepth - d) hs with
      ⟨sl', e, p⟩ | ⟨sl', mid, lb, rb, e, p, m0, m1, hdep, hl⟩
    · have hT : T = .leaf (pad (pad nd.bounds)).clean b sl'.length ∧ P = sl' := by
        cases d with
        | zero => simp only [Nat.sub_zero] at e; simp only [buildTree, e, Option.some.injEq, Prod.mk.injEq] at hb
                  exact ⟨hb.1.symm, hb.2.symm⟩
        | succ d => simp only [buildTree, e, Option.some.injEq, Prod.mk.injEq] at hb; exact ⟨hb.1.symm, hb.2.symm⟩
      obtain ⟨rfl, rfl⟩ := hT
      simp only [e]
      refine ⟨_, _, _, _, [idx], [], 0, rfl, ?_, by simp, by simp [BTree.steps], by simp, ?_,
        .inl ⟨rfl, .refl _⟩, by simp [p.length_eq], by simp, by simp⟩
      · rw [writeAt_full _ _ p.length_eq, ← leafNode_clean nd b (b + sl.length)]
        refine .leaf (by simp [hidx]) (by intro hh; subst hh; simp at p; exact hne p) ?_ ?_
        · simp [leafNode, BvhNode.setCount, p.length_eq]
        · simp [leafNode, BvhNode.setCount, BvhNode.setLeftFirst]
      · intro i hi; simp at hi; rw [List.getElem?_set_ne (by omega)]
    · simp only [e]
      have hr := hroom (by simp; omega)
      have : T.steps = (T.steps - 1) + 1 := by have := T.steps_pos; omega
      simp only [allocate, hr, if_true, if_neg (show ¬ nodes.length ≤ counter by omega)]
      refine ⟨_, _, _, _, [idx, counter, counter + 1],
        [(⟨idx, b, b + sl.length, ctx.maxDepth - d⟩, .allocated counter)], T.steps - 1, rfl,
        ?_, ?_, this, rfl, by simp, .inr ⟨rfl, by simp⟩, by simp, by simp, by simp⟩
      · rw [writeAt_full _ _ rfl]
        exact .alloc (left := counter) hd h hne hs hb e this
      · simp
  | @alloc idx b d sl T P nd left sl' mid lb rb r hd h hne hs hb hdec hr =>
    simp at hmem
    obtain ⟨rfl, rfl⟩ := hmem
    simp only [Nat.sub_self, Nat.add_sub_cancel_left, sliceOf_full]
    have hidx := hlt idx (by simp)
    have hl0 := hlt left (by simp)
    have hl1 := hlt (left + 1) (by simp)
    simp only [List.nodup_cons, List.mem_cons, List.not_mem_nil, or_false, not_or] at hnd
    unfold taskStep
    simp only [h, hdec, List.getElem?_eq_getElem hl0, List.getElem?_eq_getElem hl1]
    rcases binnedDecide_total (bounds := nd.bounds) (ctx.maxDepth - d) hs with
      ⟨sl'', e, p⟩ | ⟨sl'', mid', lb', rb', e, p, m0, m1, hdep, hl⟩
    · rw [hdec] at e; simp at e
    rw [hdec] at e
    simp only [Option.some.injEq, BinnedOutcome.split.injEq] at e
    obtain ⟨rfl, rfl, rfl, rfl⟩ := e
    have hlen := p.length_eq
    cases d with
    | zero => omega
    | succ d =>
      unfold buildTree at hb
      simp only [hdec] at hb
      have hs' := hs.perm p
      have hsL : InScene ctx (sl'.take mid) := fun q hq => hs' q (List.mem_of_mem_take hq)
      have hsR : InScene ctx (sl'.drop mid) := fun q hq => hs' q (List.mem_of_mem_drop hq)
      obtain ⟨L, PL, e1⟩ := buildTree_total d (by omega) lb (sl'.take mid) b hsL
      obtain ⟨R, PR, e2⟩ := buildTree_total d (by omega) rb (sl'.drop mid) (b + mid) hsR
      simp only [e1, e2, Option.some.injEq, Prod.mk.injEq] at hb
      obtain ⟨rfl, rfl⟩ := hb
      have hneL : sl'.take mid ≠ [] := by
        intro hh; have := congrArg List.length hh; rw [List.length_take, List.length_nil] at this; omega
      have hneR : sl'.drop mid ≠ [] := by
        intro hh; have := congrArg List.length hh; rw [List.length_drop, List.length_nil] at this; omega
      have hmidlen : (sl'.take mid).length = mid := by simp; omega
      refine ⟨_, _, _, _, idx :: ([left] ++ [left + 1]),
        [(⟨left, b, b + (sl'.take mid).length, ctx.maxDepth - d⟩, .ready)] ++
        [(⟨left + 1, b + mid, b + mid + (sl'.drop mid).length, ctx.maxDepth - d⟩, .ready)], L.steps + R.steps,
        rfl, ?_, ?_, ?_, by simp, ?_, .inl ⟨rfl, by simp⟩,
        by simp [hlen], by simp, by simp⟩
      · rw [writeAt_full _ _ hlen, ← setChildren_clean (pad nd.bounds) left]
        have key : ∀ x, x = sl'.take mid ++ sl'.drop mid → Den ctx
            (((nodes.set idx (({ bounds := pad nd.bounds : BvhNode F}.setLeftFirst (some left)).setCount none)).set left
              { bounds := lb }).set (left + 1) { bounds := rb }) idx b (d + 1) x
            (.node (({ bounds := pad nd.bounds : BvhNode F}.setLeftFirst (some left)).setCount none).bounds.clean L R)
            (PL ++ PR) (idx :: ([left] ++ [left + 1]))
            ([(⟨left, b, b + (sl'.take mid).length, ctx.maxDepth - d⟩, .ready)] ++
              [(⟨left + 1, b + mid, b + mid + (sl'.drop mid).length, ctx.maxDepth - d⟩, .ready)])
            (L.steps + R.steps) := ?_
        · exact key _ (List.take_append_drop mid sl').symm
        rintro x rfl
        refine .node (left := left) ?_ rfl rfl (.ready (by omega) ?_ hneL hsL e1) ?_
        · rw [List.getElem?_set_ne (by omega), List.getElem?_set_ne (by omega), List.getElem?_set_self hidx]
        · rw [List.getElem?_set_ne (by omega), List.getElem?_set_self (by simpa using hl0)]
        · rw [hmidlen]
          exact .ready (by omega) (by rw [List.getElem?_set_self (by simpa using hl1)]) hneR hsR e2
      · have : ctx.maxDepth - (d + 1) + 1 = ctx.maxDepth - d := by omega
        have h2 : b + mid + (sl'.drop mid).length = b + sl.length := by simp; omega
        simp only [List.erase_cons_head, List.nil_append, this, h2, hmidlen]
        simp
      · simp [BTree.steps] at hr; omega
      · intro i hi
        simp at hi
        rw [List.getElem?_set_ne (by omega), List.getElem?_set_ne (by omega), List.getElem?_set_ne (by omega)]
  | leaf => simp at hmem
  | @node idx b d slL slR nd left L R PL PR fpL fpR tsL tsR rL rR h h1 h2 hL hR ihL ihR =>
    have hfL := hL.fp_le
    have hfR := hR.fp_le
    rw [List.nodup_cons] at hnd
    obtain ⟨hni, hnd⟩ := hnd
    rw [List.nodup_append] at hnd
    obtain ⟨hndL, hndR, hdisj⟩ := hnd
    simp only [List.mem_append, not_or] at hni
    have hpermfp : ∀ {fpX : List Nat} {X : List Nat}, fpX.Perm (fpL ++ X) →
        (idx :: (fpX ++ fpR)).Perm ((idx :: (fpL ++ fpR)) ++ X) := by
      intro fpX X hp
      simp only [List.cons_append, List.perm_cons]
      refine (hp.append_right fpR).trans ?_
      simp only [List.append_assoc]
      exact (List.perm_append_comm).append_left fpL
    by_cases hin : (t, ph) ∈ tsL
    · obtain ⟨nodes', c', sl₁, new, fp', ts', r', e, hD, hts, hr, hlen, hout, hc, hb1, hb2, hb3⟩ :=
        ihL hndL (fun i hi => hlt i (by simp [hi])) (by intro hh; apply hroom; simp; omega) hin
      have hbnd : t.begin - b + sl₁.length ≤ slL.length := by omega
      refine ⟨nodes', c', sl₁, new, idx :: (fp' ++ fpR), ts' ++ tsR, r' + rR, ?_, ?_, ?_, by omega, hlen, ?_, ?_, hb1,
        hb2, by simp; omega⟩
      · rw [sliceOf_append_left _ _ _ _ (by omega)]; exact e
      · rw [writeAt_append_left _ _ _ _ hbnd]
        refine .node (left := left) (by rw [hout _ hni.1]; exact h) h1 h2 hD ?_
        rw [length_writeAt _ _ _ hbnd]
        exact hR.frame fun i hi => hout i (fun hi' => hdisj i hi' i hi rfl)
      · rw [List.erase_append_left _ hin]
        refine (hts.append_right tsR).trans ?_
        simp only [List.append_assoc]
        exact (List.perm_append_comm).append_left _
      · intro i hi
        simp only [List.mem_cons, List.mem_append, not_or] at hi
        exact hout i hi.2.1
      · rcases hc with ⟨rfl, hp⟩ | ⟨rfl, hp⟩
        · exact .inl ⟨rfl, by simp only [List.perm_cons]; exact hp.append_right fpR⟩
        · exact .inr ⟨rfl, hpermfp hp⟩
    · have hinR : (t, ph) ∈ tsR := by simpa [hin] using hmem
      obtain ⟨nodes', c', sl₁, new, fp', ts', r', e, hD, hts, hr, hlen, hout, hc, hb1, hb2, hb3⟩ :=
        ihR hndR (fun i hi => hlt i (by simp [hi])) (by intro hh; apply hroom; simp; omega) hinR
      have hsub : t.begin - b - slL.length = t.begin - (b + slL.length) := by omega
      refine ⟨nodes', c', sl₁, new, idx :: (fpL ++ fp'), tsL ++ ts', rL + r', ?_, ?_, ?_, by omega, hlen, ?_, ?_, hb1,
        by omega, by simp; omega⟩
      · rw [sliceOf_append_right _ _ _ _ (by omega), hsub]
        have : t.stop - b - slL.length = t.stop - (b + slL.length) := by omega
        rw [this]; exact e
      · rw [writeAt_append_right _ _ _ _ (by omega), hsub]
        refine .node (left := left) (by rw [hout _ hni.2]; exact h) h1 h2 ?_ hD
        exact hL.frame fun i hi => hout i (fun hi' => hdisj i hi i hi' rfl)
      · rw [List.erase_append_right _ hin, List.append_assoc]
        exact hts.append_left tsL
      · intro i hi
        simp only [List.mem_cons, List.mem_append, not_or] at hi
        exact hout i hi.2.2
      · rcases hc with ⟨rfl, hp⟩ | ⟨rfl, hp⟩
        · exact .inl ⟨rfl, by simp only [List.perm_cons]; exact hp.append_left fpL⟩
        · refine .inr ⟨rfl, ?_⟩
          simp only [List.cons_append, List.perm_cons, List.append_assoc]
          exact hp.append_left fpL

end Rtbvh
