import Verif.Model.Binned
import Verif.Spec.Tree
import Verif.Proofs.Partition
/- The tree a binned build denotes, as a sequential function, and facts about one task's decision. -/
namespace Rtbvh
variable {F : Type} [FloatOps F]

/-- Proof device: the tree and final id slice that the task with box `bounds`, ids `sl` starting at offset `b` and
`d` levels of remaining depth leads to. -/
def buildTree (ctx : BinnedCtx F) : (d : Nat) → Aabb F → List Nat → Nat → Option (BTree F × List Nat)
  | 0, bounds, sl, b =>
    match binnedDecide ctx bounds sl ctx.maxDepth with
    | some (.leaf sl') => some (.leaf (pad (pad bounds)).clean b sl'.length, sl')
    | _ => none
  | d + 1, bounds, sl, b =>
    match binnedDecide ctx bounds sl (ctx.maxDepth - (d + 1)) with
    | none => none
    | some (.leaf sl') => some (.leaf (pad (pad bounds)).clean b sl'.length, sl')
    | some (.split sl' mid lb rb) =>
      match buildTree ctx d lb (sl'.take mid) b, buildTree ctx d rb (sl'.drop mid) (b + mid) with
      | some (l, pl), some (r, pr) => some (.node (pad bounds).clean l r, pl ++ pr)
      | _, _ => none

theorem computeBinIndex_lt (c : Vec3 F) (bc : Nat) (o s : Vec3 F) (a : Fin 3) (h : 0 < bc) :
    computeBinIndex c bc o s a < bc := by
  unfold computeBinIndex
  simp only; omega

/-- Every id names a primitive with a box. -/
def InScene (ctx : BinnedCtx F) (sl : List Nat) : Prop :=
  ∀ p ∈ sl, p < ctx.centers.length ∧ p < ctx.aabbs.length

omit [FloatOps F] in
theorem InScene.perm {ctx : BinnedCtx F} {a b : List Nat} (h : InScene ctx a) (p : b.Perm a) : InScene ctx b :=
  fun q hq => h q (p.subset hq)

theorem fillBins_total {ctx : BinnedCtx F} (o s : Vec3 F) {sl : List Nat} (h : InScene ctx sl)
    (b0 : Fin 3 → List (SahBin F)) : ∃ b, sl.foldlM (fillBin ctx o s) b0 = some b := by
  induction sl generalizing b0 with
  | nil => exact ⟨_, rfl⟩
  | cons p ps ih =>
    have hp := h p (by simp)
    obtain ⟨b, hb⟩ := ih (fun q hq => h q (by simp [hq])) (fun axis =>
      (b0 axis).modify (computeBinIndex ctx.centers[p] ctx.binCount o s axis)
        fun b => { aabb := b.aabb.growBB ctx.aabbs[p], primCount := b.primCount + 1 })
    refine ⟨b, ?_⟩
    rw [List.foldlM_cons]
    simpa [fillBin, hp.1, hp.2] using hb

/-- What one task decision can be. -/
theorem binnedDecide_total {ctx : BinnedCtx F} {bounds : Aabb F} {sl : List Nat} (depth : Nat)
    (h : InScene ctx sl) :
    (∃ sl', binnedDecide ctx bounds sl depth = some (.leaf sl') ∧ sl'.Perm sl) ∨
    (∃ sl' mid lb rb, binnedDecide ctx bounds sl depth = some (.split sl' mid lb rb) ∧ sl'.Perm sl ∧
      0 < mid ∧ mid < sl.length ∧ depth < ctx.maxDepth ∧ 1 < sl.length) := by
  unfold binnedDecide
  split
  · exact .inl ⟨_, rfl, .refl _⟩
  · rename_i hn
    obtain ⟨bins, hb⟩ := fillBins_total (ctx := ctx) (binOffset ctx (pad bounds)) (centerToBin ctx (pad bounds)) h
      (fun _ => List.replicate ctx.binCount { aabb := Aabb.empty, primCount := 0 })
    unfold fillBins
    rw [hb]
    simp only
    split
    · exact .inl ⟨_, rfl, .refl _⟩
    · rename_i axis si lc _
      obtain ⟨c, l', e, p, hc, _, _⟩ := partition_spec (goesLeft ctx (pad bounds) axis si) sl
      rw [e]
      simp only
      split
      · rename_i hm
        right
        exact ⟨_, _, _, _, rfl, p, hm.1, hm.2, by omega, by omega⟩
      · exact .inl ⟨_, rfl, p⟩

theorem buildTree_total {ctx : BinnedCtx F} (d : Nat) (hd : d ≤ ctx.maxDepth) :
    ∀ (bounds : Aabb F) (sl : List Nat) (b : Nat), InScene ctx sl →
      ∃ T P, buildTree ctx d bounds sl b = some (T, P) := by
  induction d with
  | zero =>
    intro bounds sl b h
    unfold buildTree
    rcases binnedDecide_total (bounds := bounds) ctx.maxDepth h with ⟨sl', e, _⟩ | ⟨_, _, _, _, _, _, _, _, hl, _⟩
    · rw [e]; exact ⟨_, _, rfl⟩
    · omega
  | succ d ih =>
    intro bounds sl b h
    unfold buildTree
    rcases binnedDecide_total (bounds := bounds) (ctx.maxDepth - (d + 1)) h with
      ⟨sl', e, _⟩ | ⟨sl', mid, lb, rb, e, p, _⟩
    · rw [e]; exact ⟨_, _, rfl⟩
    · rw [e]
      have h' := h.perm p
      obtain ⟨L, PL, e1⟩ := ih (by omega) lb (sl'.take mid) b (fun q hq => h' q (List.mem_of_mem_take hq))
      obtain ⟨R, PR, e2⟩ := ih (by omega) rb (sl'.drop mid) (b + mid) (fun q hq => h' q (List.mem_of_mem_drop hq))
      simp only [e1, e2]; exact ⟨_, _, rfl⟩

/-- Structural facts about the tree of a slice: a leaf range for each part, ids permuted, depth bounded. -/
structure TreeOf (T : BTree F) (sl P : List Nat) (b d : Nat) : Prop where
  perm : P.Perm sl
  depth : T.depth ≤ d
  size : T.size + 1 = 2 * T.leaves
  leaves : T.leaves ≤ sl.length
  ids : ∀ pre post : List Nat, pre.length = b → T.ids (pre ++ P ++ post) = P
  rangesIn : ∀ idx : List Nat, b + sl.length ≤ idx.length → T.RangesIn idx
  nonempty : ∀ r ∈ T.ranges, 0 < r.2

theorem buildTree_treeOf {ctx : BinnedCtx F} (d : Nat) (hd : d ≤ ctx.maxDepth) :
    ∀ (bounds : Aabb F) (sl : List Nat) (b : Nat), InScene ctx sl → sl ≠ [] → ∀ T P,
      buildTree ctx d bounds sl b = some (T, P) → TreeOf T sl P b d := by
  have leafCase : ∀ (bd : Aabb F) (sl sl' : List Nat) (b d : Nat), sl'.Perm sl → sl ≠ [] →
      TreeOf (.leaf bd b sl'.length) sl sl' b d := by
    intro bd sl sl' b d p hne
    have hpos : 0 < sl.length := List.length_pos_iff.2 hne
    refine ⟨p, by simp [BTree.depth], by simp [BTree.size, BTree.leaves], by simp [BTree.leaves]; omega, ?_, ?_, ?_⟩
    · intro pre post hp
      simp [BTree.ids, BTree.rangeIds, ← hp]
    · intro idx hidx
      simp [BTree.RangesIn, p.length_eq, hidx]
    · intro r hr
      simp only [BTree.ranges, List.mem_singleton] at hr
      subst hr; exact p.length_eq ▸ hpos
  induction d with
  | zero =>
    intro bounds sl b h hne T P e
    unfold buildTree at e
    rcases binnedDecide_total (bounds := bounds) ctx.maxDepth h with ⟨sl', e', p⟩ | ⟨_, _, _, _, _, _, _, _, hl, _⟩
    · rw [e'] at e
      simp only [Option.some.injEq, Prod.mk.injEq] at e
      obtain ⟨rfl, rfl⟩ := e
      exact leafCase _ _ _ _ _ p hne
    · omega
  | succ d ih =>
    intro bounds sl b h hne T P e
    unfold buildTree at e
    rcases binnedDecide_total (bounds := bounds) (ctx.maxDepth - (d + 1)) h with
      ⟨sl', e', p⟩ | ⟨sl', mid, lb, rb, e', p, m0, m1, _⟩
    · rw [e'] at e
      simp only [Option.some.injEq, Prod.mk.injEq] at e
      obtain ⟨rfl, rfl⟩ := e
      exact leafCase _ _ _ _ _ p hne
    · rw [e'] at e
      simp only at e
      have h' := h.perm p
      have hl := p.length_eq
      have hL : InScene ctx (sl'.take mid) := fun q hq => h' q (List.mem_of_mem_take hq)
      have hR : InScene ctx (sl'.drop mid) := fun q hq => h' q (List.mem_of_mem_drop hq)
      obtain ⟨L, PL, e1⟩ := buildTree_total d (by omega) lb (sl'.take mid) b hL
      obtain ⟨R, PR, e2⟩ := buildTree_total d (by omega) rb (sl'.drop mid) (b + mid) hR
      rw [e1, e2] at e
      simp only [Option.some.injEq, Prod.mk.injEq] at e
      obtain ⟨rfl, rfl⟩ := e
      have tl := ih (by omega) lb _ b hL (by intro hh; have := congrArg List.length hh; rw [List.length_take, List.length_nil] at this; omega) L PL e1
      have tr := ih (by omega) rb _ (b + mid) hR
        (by intro hh; have := congrArg List.length hh; rw [List.length_drop, List.length_nil] at this; omega) R PR e2
      have hlL : PL.length = mid := by rw [tl.perm.length_eq]; simp; omega
      refine ⟨?_, ?_, ?_, ?_, ?_, ?_, ?_⟩
      · refine List.Perm.trans ?_ p
        refine (tl.perm.append tr.perm).trans ?_
        rw [List.take_append_drop]
      · have := tl.depth; have := tr.depth
        simp only [BTree.depth]; omega
      · have := tl.size; have := tr.size
        simp only [BTree.size, BTree.leaves]; omega
      · have h1 := tl.leaves; have h2 := tr.leaves
        simp at h1 h2
        simp only [BTree.leaves]; omega
      · intro pre post hp
        simp only [BTree.ids]
        have e1 := tl.ids pre (PR ++ post) hp
        have e2 := tr.ids (pre ++ PL) post (by simp [hp, hlL])
        simp only [List.append_assoc] at e1 e2 ⊢
        rw [e1, e2]
      · intro idx hidx
        refine ⟨tl.rangesIn idx ?_, tr.rangesIn idx ?_⟩ <;> simp <;> omega
      · intro r hr
        simp only [BTree.ranges, List.mem_append] at hr
        exact hr.elim (tl.nonempty r) (tr.nonempty r)

end Rtbvh
