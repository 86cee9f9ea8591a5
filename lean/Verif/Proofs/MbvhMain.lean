import Verif.Proofs.QuadTest
/- `Mbvh::construct` and `construct_from_raw` on compact BVHs. -/
namespace Rtbvh
variable {F : Type} [FloatOps F]

omit [FloatOps F] in
theorem ranges_lt {idx : List Nat} {T : BTree F} (h : T.RangesIn idx) (hi : idx.length < 2 ^ 31) :
    ∀ p ∈ T.ranges, p.1 < 2 ^ 31 := by
  induction T with
  | leaf b f c =>
    intro p hp
    simp only [BTree.ranges, List.mem_singleton] at hp
    subst hp
    have : f + c ≤ idx.length := h
    omega
  | node b l r ihl ihr =>
    intro p hp
    rcases List.mem_append.1 hp with hp | hp
    · exact ihl h.1 p hp
    · exact ihr h.2 p hp

theorem new_fresh : (MbvhNode.new : MbvhNode F).Fresh := by
  intro i
  constructor <;> exact Vec4.get_splat _ _

theorem merge_root (b : Bvh F) (T : BTree F) (h : b.Compact T) (fuel : Nat) (hf : T.depth < fuel) :
    ∃ s', mergeNodes b.nodes fuel 0 0 (List.replicate b.nodes.length MbvhNode.new, 1) = some s' ∧
      s'.1.length = b.nodes.length ∧ s'.2 = T.toQuad.quads ∧ s'.2 ≤ b.nodes.length ∧
      QSlot s'.1 0 (-1) T.toQuad ∧ QSlot (s'.1.take s'.2) 0 (-1) T.toQuad := by
  cases T with
  | node bb l r =>
    have hq := (collapse_quads (.node bb l r)).1
    have hsz := h.size
    have hne : 0 < b.nodes.length := h.unfolds.lt
    obtain ⟨s', hs, M⟩ := mergeNodes_spec h.smallNodes fuel 0 bb l r h.unfolds (Nat.le_of_lt hf)
      (ranges_lt h.ranges h.smallIndices) 0 (List.replicate b.nodes.length MbvhNode.new, 1) MbvhNode.new
      (by simp [hne]) new_fresh (by simp)
      (by
        intro j mj _ hj
        simp only [List.getElem?_replicate] at hj
        split at hj
        · injection hj with hj; rw [← hj]; exact new_fresh
        · cases hj)
      (by simp only [List.length_replicate]; omega) (by simpa using h.smallNodes)
    have hlen := M.len
    have hptr := M.ptr
    have hpos := quads_collapse_pos bb l r
    simp only [List.length_replicate] at hlen hptr
    refine ⟨s', hs, hlen, by simp only [BTree.toQuad]; omega, by omega, M.slot _ (fun _ _ => rfl), M.slot _ ?_⟩
    intro j hj
    simp only at hj
    rw [List.getElem?_take, if_pos (by omega)]
  | leaf bb f c =>
    have hf0 := h.first bb f c rfl
    subst hf0
    have hsz := h.size
    simp only [BTree.size] at hsz
    have hu := h.unfolds
    obtain ⟨fuel, rfl⟩ : ∃ k, fuel = k + 1 := ⟨fuel - 1, by omega⟩
    generalize hT : BTree.leaf bb 0 c = T at hu
    cases hu with
    | node => cases hT
    | @leaf _ f' c' nd h0 hc hfs =>
      injection hT with e1 e2 e3
      subst e2 e3 e1
      obtain ⟨nd', hnd⟩ : ∃ nd', b.nodes = [nd'] := List.length_eq_one_iff.1 hsz.symm
      rw [hnd] at h0 ⊢
      simp only [List.getElem?_cons_zero, Option.some.injEq] at h0
      subst h0
      have hl : nd'.isLeaf = true := by simp [BvhNode.isLeaf, hc]
      have hlf : nd'.getLeftFirst = some 0 := BvhNode.getLeftFirst_eq hfs (by omega)
      have ha : asI32 0 = 0 := rfl
      generalize hm0 : ((((MbvhNode.new : MbvhNode F).setBoundsBB 0 nd'.bounds).setBoundsBB 1 nd'.bounds).setBoundsBB 2
        nd'.bounds).setBoundsBB 3 nd'.bounds = m0
      refine ⟨([(m0.setChild 0 0).setCount 0 c], 1), ?_, rfl, rfl, Nat.le_refl _, ?_, ?_⟩
      · simp [mergeNodes, hlf, gatherChild, hl, ha, BvhNode.countU, hc, mergeSlot, modifyAt, hm0]
      all_goals
        have hb : ((m0.setChild 0 0).setCount 0 c).boxes = ⟨nd'.bounds.clean, nd'.bounds.clean, nd'.bounds.clean, nd'.bounds.clean⟩ := by
          refine Vec4.ext_get fun j => ?_
          rw [MbvhNode.boxes, Vec4.get_ofFn, MbvhNode.slotBox_count, MbvhNode.slotBox_child, ← hm0]
          simp only [MbvhNode.slotBox_set]
          match j with
          | 0 => rfl
          | 1 => rfl
          | 2 => rfl
          | 3 => rfl
        show QSlot _ 0 (-1) (QTree.quad ⟨nd'.bounds.clean, nd'.bounds.clean, nd'.bounds.clean, nd'.bounds.clean⟩ (.leaf 0 c) .none .none .none)
        rw [← hb]
        refine .quad (i := 0) (by omega) rfl rfl (.leaf ?_ ?_) (.none ?_ ?_) (.none ?_ ?_) (.none ?_ ?_) <;>
          subst hm0 <;> first | rfl | (show (-1 : Int) < 0; omega)

section
omit [FloatOps F]
theorem toQuad_ranges (T : BTree F) : T.toQuad.ranges = T.ranges := by
  cases T with
  | leaf => rfl
  | node => exact (collapse_ranges _).1
theorem toQuad_ids (idx : List Nat) (T : BTree F) : T.toQuad.ids idx = T.ids idx := by
  cases T with
  | leaf => simp [BTree.toQuad, QTree.ids, BTree.ids]
  | node => exact (collapse_ids idx _).1
theorem toQuad_rangesIn {idx : List Nat} {T : BTree F} (h : T.RangesIn idx) : T.toQuad.RangesIn idx := by
  cases T with
  | leaf => exact ⟨h, trivial, trivial, trivial⟩
  | node => exact (collapse_rangesIn idx _ h).1
theorem toQuad_depth (T : BTree F) : 2 * T.toQuad.depth ≤ T.depth := by
  cases T with
  | leaf => simp [BTree.toQuad, QTree.depth, QTree.isQuad]
  | node b l r => have := (collapse_depth (.node b l r)).1 (by simp [BTree.collapse, QTree.isQuad]); simp only [BTree.toQuad]; omega
theorem toQuad_depth' (T : BTree F) (h : 1 ≤ T.depth) : 2 * T.toQuad.depth + 1 ≤ T.depth := by
  cases T with
  | leaf => simp [BTree.depth] at h
  | node b l r => exact (collapse_depth (.node b l r)).1 (by simp [BTree.collapse, QTree.isQuad])
/-- Every quad node below the root stands for at least two leaves, so the stack never holds more than half as many quad
nodes as there are leaves. -/
theorem collapse_need (T : BTree F) :
    (if T.collapse.isQuad then max 2 (2 * T.collapse.stackNeed) else 0) ≤ T.leaves ∧
    (if T.kidA.isQuad then max 2 (2 * T.kidA.stackNeed) else 0) +
      (if T.kidB.isQuad then max 2 (2 * T.kidB.stackNeed) else 0) ≤ T.leaves := by
  have pos : ∀ T : BTree F, 1 ≤ T.leaves := by
    intro T
    induction T with
    | leaf => exact Nat.le_refl _
    | node b l r hl hr => simp only [BTree.leaves]; omega
  induction T with
  | leaf b f c => simp [BTree.collapse, BTree.kidA, BTree.kidB, QTree.isQuad]
  | node b l r ihl ihr =>
    obtain ⟨l1, l2⟩ := ihl
    obtain ⟨r1, r2⟩ := ihr
    have pl := pos l
    have pr := pos r
    refine ⟨?_, Nat.add_le_add l1 r1⟩
    rw [if_pos (by rfl)]
    simp only [BTree.collapse, QTree.stackNeed, BTree.leaves]
    generalize l.kidA.isQuad = q0 at *
    generalize l.kidB.isQuad = q1 at *
    generalize r.kidA.isQuad = q2 at *
    generalize r.kidB.isQuad = q3 at *
    cases q0 <;> cases q1 <;> cases q2 <;> cases q3 <;>
      simp only [Bool.false_eq_true, if_true, if_false] at l2 r2 ⊢ <;> omega
theorem toQuad_need (T : BTree F) : 2 * T.toQuad.stackNeed ≤ T.leaves := by
  cases T with
  | leaf => simp [BTree.toQuad, QTree.stackNeed, QTree.isQuad]
  | node b l r =>
    have := (collapse_need (.node b l r)).1
    rw [if_pos (by rfl)] at this
    simp only [BTree.toQuad]; omega
theorem toQuad_forall {idx : List Nat} {C : Aabb F → Nat → Prop} {T : BTree F}
    (h : T.Forall idx fun a ids => ∀ p ∈ ids, C a p) : T.toQuad.Forall idx fun a ids => ∀ p ∈ ids, C a p := by
  cases T with
  | leaf b f c => exact ⟨⟨h, by simp [QTree.ids], by simp [QTree.ids], by simp [QTree.ids]⟩, trivial, trivial, trivial, trivial⟩
  | node => exact (collapse_forall _ h).1
theorem toQuad_leaf_or (T : BTree F) : T.toQuad.quads ≤ T.size := by
  cases T with
  | leaf => simp [BTree.toQuad, QTree.quads, BTree.size]
  | node => exact (collapse_quads _).1

end

omit [FloatOps F] in
theorem resize_take {α : Type} (l : List α) (n : Nat) (v : α) (h : n ≤ l.length) : resizeList l n v = l.take n := by
  simp [resizeList, Nat.sub_eq_zero_of_le h]

/-- `construct` returns the collapsed tree. -/
theorem construct_main (b : Bvh F) (T : BTree F) (h : b.Compact T) (fuel : Nat) (hf : T.depth < fuel) :
    ∃ q : Mbvh F, Mbvh.construct fuel b = some q ∧ q.Denotes T.toQuad ∧ q.nodes = b.nodes ∧
      q.primIndices = b.indices ∧ q.mNodes.length = T.toQuad.quads ∧ q.mNodes.length ≤ b.nodes.length := by
  obtain ⟨s', e, hl, hq, hle, _, hs⟩ := merge_root b T h fuel hf
  have hne : b.nodes.isEmpty = false := by
    have := h.unfolds.lt
    cases hb : b.nodes with
    | nil => rw [hb] at this; simp at this
    | cons => rfl
  refine ⟨{ nodes := b.nodes, mNodes := s'.1.take s'.2, primIndices := b.primIndices }, ?_, ⟨hs, toQuad_rangesIn h.ranges⟩,
    rfl, rfl, ?_, ?_⟩
  · unfold Mbvh.construct
    rw [hne]
    simp only [Bool.false_eq_true, if_false, e, Option.map_some, resize_take _ _ _ (by omega : s'.2 ≤ s'.1.length)]
  · simp only [List.length_take]; omega
  · simp only [List.length_take]; omega

end Rtbvh
