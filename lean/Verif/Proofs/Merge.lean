import Verif.Spec.Quad
import Verif.Proofs.Traverse
import Verif.Proofs.Refit
import Verif.Proofs.BinnedLinks
/- `merge_nodes` builds the collapsed tree. -/
namespace Rtbvh
variable {F : Type}

/-- Box of the first / second slot made from a child `c` of a node with box `b`. -/
def BTree.boxA (b : Aabb F) : BTree F → Aabb F
  | .leaf _ _ _ => b
  | .node _ g _ => g.bounds
def BTree.boxB (b : Aabb F) : BTree F → Aabb F
  | .leaf _ _ _ => b
  | .node _ _ h => h.bounds

mutual
/-- Merge pairs of levels of a binary tree. -/
def BTree.collapse : BTree F → QTree F
  | .leaf _ f c => .leaf f c
  | .node b l r => .quad ⟨l.boxA b, l.boxB b, r.boxA b, r.boxB b⟩ l.kidA l.kidB r.kidA r.kidB
/-- Content of the first / second slot made from a child. -/
def BTree.kidA : BTree F → QTree F
  | .leaf _ f c => .leaf f c
  | .node _ g _ => g.collapse
def BTree.kidB : BTree F → QTree F
  | .leaf _ _ _ => .none
  | .node _ _ h => h.collapse
end

namespace Vec4
theorem get_set (v : Vec4 F) (i j : Fin 4) (a : F) : (v.set i a).get j = if j = i then a else v.get j := by
  match i, j with
  | 0, 0 => rfl | 0, 1 => rfl | 0, 2 => rfl | 0, 3 => rfl
  | 1, 0 => rfl | 1, 1 => rfl | 1, 2 => rfl | 1, 3 => rfl
  | 2, 0 => rfl | 2, 1 => rfl | 2, 2 => rfl | 2, 3 => rfl
  | 3, 0 => rfl | 3, 1 => rfl | 3, 2 => rfl | 3, 3 => rfl
end Vec4

namespace MbvhNode
theorem slotBox_set (m : MbvhNode F) (i j : Fin 4) (b : Aabb F) :
    (m.setBoundsBB i b).slotBox j = if j = i then b.clean else m.slotBox j := by
  unfold setBoundsBB slotBox
  simp only [Vec4.get_set]
  split <;> rfl
theorem slotBox_child (m : MbvhNode F) (i j : Fin 4) (c : Int) : (m.setChild i c).slotBox j = m.slotBox j := rfl
theorem slotBox_count (m : MbvhNode F) (i j : Fin 4) (c : Int) : (m.setCount i c).slotBox j = m.slotBox j := rfl
theorem child_bounds (m : MbvhNode F) (i : Fin 4) (b : Aabb F) : (m.setBoundsBB i b).children = m.children := rfl
theorem count_bounds (m : MbvhNode F) (i : Fin 4) (b : Aabb F) : (m.setBoundsBB i b).counts = m.counts := rfl
/-- No slot is used. -/
def Fresh (m : MbvhNode F) : Prop := ∀ i, m.children.get i = -1 ∧ m.counts.get i = -1
end MbvhNode

/-- What a slot entry of `merge_nodes` stands for, with the box of the slot. -/
inductive EntryFor (pool : List (BvhNode F)) (box : Aabb F) : Int × Int → QTree F → (depth : Nat) → Prop
  | none : EntryFor pool box (-1, -1) .none 0
  | leaf {f c : Nat} : EntryFor pool box ((f : Int), (c : Int)) (.leaf f c) 0
  | sub {i : Nat} {b : Aabb F} {l r : BTree F} (h : Unfolds pool i (.node b l r)) (hb : box = b)
      (hr : ∀ p ∈ (BTree.node b l r).ranges, p.1 < 2 ^ 31) :
      EntryFor pool box ((i : Int), -1) (BTree.collapse (.node b l r)) (BTree.node b l r).depth

theorem BvhNode.getLeftFirst_eq {nd : BvhNode F} {lf : Nat} (h : nd.bounds.extra2 = (lf : Int)) (hlt : lf < 2 ^ 31) :
    nd.getLeftFirst = some lf := by
  unfold BvhNode.getLeftFirst
  rw [h, asU32_small hlt, if_pos (by omega)]

theorem Unfolds.lt {pool : List (BvhNode F)} {i : Nat} {T : BTree F} (h : Unfolds pool i T) : i < pool.length := by
  cases h with
  | leaf h => exact (List.getElem?_eq_some_iff.1 h).1
  | node h => exact (List.getElem?_eq_some_iff.1 h).1

/-- The entry for a grandchild. -/
theorem entry_grand {pool : List (BvhNode F)} {i : Nat} {T : BTree F} (h : Unfolds pool i T)
    (hr : ∀ p ∈ T.ranges, p.1 < 2 ^ 31) :
    ∃ nd, pool[i]? = some nd ∧ nd.bounds.clean = T.bounds ∧
      EntryFor pool T.bounds (if nd.isLeaf then (nd.leftFirstU, nd.countU) else ((i : Int), -1)) T.collapse
        (if nd.isLeaf then 0 else T.depth) := by
  cases h with
  | @leaf _ f c nd h hc hf =>
    refine ⟨nd, h, rfl, ?_⟩
    have : nd.isLeaf = true := by simp [BvhNode.isLeaf, hc]
    rw [if_pos this, if_pos this, BvhNode.leftFirstU, BvhNode.countU, hc, hf]
    exact .leaf
  | @node _ left nd l r h hc hl ul ur =>
    refine ⟨nd, h, rfl, ?_⟩
    have : ¬ nd.isLeaf = true := by simp [BvhNode.isLeaf]; omega
    rw [if_neg this, if_neg this]
    exact .sub (.node h hc hl ul ur) rfl hr

/-- Entry depths used for the fuel. -/
theorem gatherChild_spec {pool : List (BvhNode F)} (hpool : pool.length < 2 ^ 31) {child : Nat} {T : BTree F}
    (h : Unfolds pool child T) (hr : ∀ p ∈ T.ranges, p.1 < 2 ^ 31) (a b : Fin 4) (hab : a ≠ b)
    (m : MbvhNode F) (box : Aabb F)
    (ha : m.slotBox a = box) (hb : m.slotBox b = box) :
    ∃ m' e0 e1 d0 d1, gatherChild pool child a b m = some (m', e0, e1) ∧ m'.children = m.children ∧
      m'.counts = m.counts ∧
      (∀ j, m'.slotBox j = if j = a then T.boxA box else if j = b then T.boxB box else m.slotBox j) ∧
      EntryFor pool (T.boxA box) e0 T.kidA d0 ∧ EntryFor pool (T.boxB box) e1 T.kidB d1 ∧
      (d0 = 0 ∨ d0 + 1 ≤ T.depth) ∧ (d1 = 0 ∨ d1 + 1 ≤ T.depth) := by
  cases h with
  | @leaf _ f c nd h hc hfs =>
    have hl : nd.isLeaf = true := by simp [BvhNode.isLeaf, hc]
    refine ⟨m, _, _, 0, 0, by simp only [gatherChild, h, BvhNode.getLeftFirst_eq hfs (hr (f, c) (by simp [BTree.ranges])), hl, if_true]; rfl,
      rfl, rfl, ?_, ?_, .none, .inl rfl, .inl rfl⟩
    · intro j
      by_cases h1 : j = a
      · rw [if_pos h1, h1, ha]; rfl
      · rw [if_neg h1]
        by_cases h2 : j = b
        · rw [if_pos h2, h2, hb]; rfl
        · rw [if_neg h2]
    · rw [asI32_small (hr (f, c) (by simp [BTree.ranges]))]
      simp only [BvhNode.countU, hc]
      exact .leaf
  | @node _ left nd l r h hc hl ul ur =>
    have hlt := ul.lt
    have hnl : ¬ nd.isLeaf = true := by simp [BvhNode.isLeaf]; omega
    obtain ⟨g, hg, bg, eg⟩ := entry_grand ul (fun p hp => hr p (by simp [BTree.ranges, hp]))
    obtain ⟨k, hk, bk, ek⟩ := entry_grand ur (fun p hp => hr p (by simp [BTree.ranges, hp]))
    refine ⟨(m.setBoundsBB a g.bounds).setBoundsBB b k.bounds, _, _, if g.isLeaf then 0 else l.depth,
      if k.isLeaf then 0 else r.depth, by
      simp only [gatherChild, h, BvhNode.getLeftFirst_eq hl (by omega), if_neg hnl, hg, hk]; rfl, rfl, rfl, ?_, ?_, ?_, ?_, ?_⟩
    · intro j
      rw [MbvhNode.slotBox_set, MbvhNode.slotBox_set]
      simp only [BTree.boxA, BTree.boxB, bg, bk]
      by_cases h1 : j = a
      · subst h1; simp [hab]
      · simp [h1]
    · rw [asI32_small (by omega)]; exact eg
    · have e : asI32 left + 1 = ((left + 1 : Nat) : Int) := by rw [asI32_small (by omega)]; rfl
      rw [e]; exact ek
    · split
      · exact .inl rfl
      · right; simp only [BTree.depth]; omega
    · split
      · exact .inl rfl
      · right; simp only [BTree.depth]; omega

/-- `ms'` agrees with `ms` at every index in `S`. -/
def AgreeOn (S : Nat → Prop) (ms ms' : List (MbvhNode F)) : Prop := ∀ j, S j → ms'[j]? = ms[j]?

/-- Result of a (recursive) call of `merge_nodes` for quad node `mIndex`. -/
structure Merged (mIndex : Nat) (Q : QTree F) (s s' : MPool F) : Prop where
  len : s'.1.length = s.1.length
  ptr : s'.2 + 1 = s.2 + Q.quads
  frame : AgreeOn (fun j => j ≠ mIndex ∧ (j < s.2 ∨ s'.2 ≤ j)) s.1 s'.1
  slot : ∀ ms, AgreeOn (fun j => j = mIndex ∨ (s.2 ≤ j ∧ j < s'.2)) s'.1 ms → QSlot ms (mIndex : Int) (-1) Q

/-- Result of filling one slot. -/
structure Filled (mIndex : Nat) (i : Fin 4) (m : MbvhNode F) (Q : QTree F) (s s' : MPool F) : Prop where
  len : s'.1.length = s.1.length
  ptr : s'.2 = s.2 + Q.quads
  frame : AgreeOn (fun j => j ≠ mIndex ∧ (j < s.2 ∨ s'.2 ≤ j)) s.1 s'.1
  node : ∃ m', s'.1[mIndex]? = some m' ∧ (∀ j, m'.slotBox j = m.slotBox j) ∧
    (∀ j, j ≠ i → m'.children.get j = m.children.get j ∧ m'.counts.get j = m.counts.get j) ∧
    ∀ ms, AgreeOn (fun j => s.2 ≤ j ∧ j < s'.2) s'.1 ms → QSlot ms (m'.children.get i) (m'.counts.get i) Q

theorem quads_collapse_pos (b : Aabb F) (l r : BTree F) : 1 ≤ (BTree.collapse (.node b l r)).quads := by
  simp [BTree.collapse, QTree.quads]

theorem mergeSlot_spec {pool : List (BvhNode F)} {rec : Nat → Nat → MPool F → Option (MPool F)} {mIndex : Nat} {i : Fin 4}
    {e : Int × Int} {box : Aabb F} {Q : QTree F} {d : Nat} (he : EntryFor pool box e Q d) {s : MPool F} {m : MbvhNode F}
    (hm : s.1[mIndex]? = some m) (hmi : m.children.get i = -1 ∧ m.counts.get i = -1) (hbox : m.slotBox i = box)
    (hlt : mIndex < s.2) (hfresh : ∀ j mj, s.2 ≤ j → s.1[j]? = some mj → mj.Fresh)
    (hroom : s.2 + Q.quads ≤ s.1.length) (hsize : s.1.length < 2 ^ 31)
    (hrec : ∀ (k : Nat) (b : Aabb F) (l r : BTree F), Unfolds pool k (.node b l r) → (BTree.node b l r).depth = d →
      (∀ p ∈ (BTree.node b l r).ranges, p.1 < 2 ^ 31) →
      ∀ (mi : Nat) (s : MPool F) (m : MbvhNode F), s.1[mi]? = some m → m.Fresh → mi < s.2 →
      (∀ j mj, s.2 ≤ j → s.1[j]? = some mj → mj.Fresh) →
      s.2 + (BTree.collapse (.node b l r)).quads ≤ s.1.length + 1 → s.1.length < 2 ^ 31 →
      ∃ s', rec mi k s = some s' ∧ Merged mi (BTree.collapse (.node b l r)) s s') :
    ∃ s', mergeSlot pool rec mIndex i e s = some s' ∧ Filled mIndex i m Q s s' := by
  have hlen : mIndex < s.1.length := (List.getElem?_eq_some_iff.1 hm).1
  cases he with
  | none =>
    refine ⟨s, by simp [mergeSlot], rfl, by simp [QTree.quads], fun j _ => rfl, m, hm, fun _ => rfl,
      fun _ _ => ⟨rfl, rfl⟩, fun ms _ => ?_⟩
    rw [hmi.1, hmi.2]
    exact .none (by omega) (by omega)
  | @leaf f c =>
    refine ⟨(s.1.set mIndex ((m.setChild i f).setCount i c), s.2), ?_, by simp, by simp [QTree.quads], ?_, ?_⟩
    · unfold mergeSlot
      rw [if_pos (by constructor <;> simp)]
      simp [modifyAt, hm]
    · intro j hj
      simp only [List.getElem?_set]
      rw [if_neg (fun h => hj.1 h.symm)]
    · refine ⟨(m.setChild i f).setCount i c, by simp [hlen], fun _ => rfl, ?_, ?_⟩
      · intro j hj
        simp [MbvhNode.setChild, MbvhNode.setCount, Vec4.get_set, hj]
      · intro ms _
        simp only [MbvhNode.setChild, MbvhNode.setCount, Vec4.get_set, if_true]
        exact .leaf rfl rfl
  | @sub k b l r h hb hrg =>
    subst hb
    have hq := quads_collapse_pos (l.boxA box |> fun _ => box) l r
    change 1 ≤ (BTree.collapse (.node box l r)).quads at hq
    generalize hnd : BTree.node box l r = T at h
    cases h with
    | leaf => cases hnd
    | @node _ left nd l' r' h hc hl ul ur =>
      injection hnd with e1 e2 e3
      subst e2 e3 e1
      have hnl : ¬ nd.isLeaf = true := by simp [BvhNode.isLeaf]; omega
      generalize hmm : (m.setChild i (s.2 : Int)).setBoundsBB i nd.bounds = mm
      have hptr : asI32 s.2 = (s.2 : Int) := asI32_small (by omega)
      have hS : s.1[s.2]? = some (s.1[s.2]'(by omega)) := List.getElem?_eq_getElem (by omega)
      have hUn : Unfolds pool k (.node nd.bounds.clean l r) := Unfolds.node h hc hl ul ur
      obtain ⟨s', hs', M⟩ := hrec k nd.bounds.clean l r hUn rfl hrg s.2 (s.1.set mIndex mm, s.2 + 1) (s.1[s.2]'(by omega))
        (by simp only [List.getElem?_set]; rw [if_neg (by omega)]; exact hS) (hfresh _ _ (Nat.le_refl _) hS) (by simp)
        (by
          intro j mj hj hmj
          simp only [List.getElem?_set] at hmj
          rw [if_neg (by simp at hj; omega)] at hmj
          exact hfresh j mj (by simp at hj; omega) hmj)
        (by simp only [List.length_set]; omega) (by simpa using hsize)
      have hptr' := M.ptr
      simp only at hptr'
      refine ⟨s', ?_, by simpa using M.len, by omega, ?_, ?_⟩
      · unfold mergeSlot
        have hat : atI32 pool (k : Int) = some nd := by rw [atI32_nat]; exact h
        simp only [if_neg (show ¬ ((k : Int) ≥ 0 ∧ (-1 : Int) ≥ 0) by omega), if_neg (show ¬ (k : Int) = -1 by omega), hat,
          if_neg hnl, modifyAt, hm, Option.bind_some, hptr, hmm, Int.toNat_natCast]
        exact hs'
      · intro j hj
        have := M.frame j (by simp only; omega)
        rw [this]
        simp only [List.getElem?_set]
        rw [if_neg (fun h => hj.1 h.symm)]
      · refine ⟨mm, ?_, ?_, ?_, ?_⟩
        · have := M.frame mIndex (by simp only; omega)
          rw [this]; simp [hlen]
        · intro j
          rw [← hmm, MbvhNode.slotBox_set, MbvhNode.slotBox_child]
          split
          · rename_i hj; rw [hj, hbox]
          · rfl
        · intro j hj
          subst hmm
          simp [MbvhNode.setChild, MbvhNode.setBoundsBB, Vec4.get_set, hj]
        · intro ms hag
          have c1 : mm.children.get i = (s.2 : Int) := by
            subst hmm; simp [MbvhNode.setChild, MbvhNode.setBoundsBB, Vec4.get_set]
          have c2 : mm.counts.get i = -1 := by
            subst hmm; exact hmi.2
          rw [c1, c2]
          refine M.slot ms ?_
          intro j hj
          refine hag j ?_
          simp only at hj ⊢
          omega

theorem mergeNodes_spec {pool : List (BvhNode F)} (hpool : pool.length < 2 ^ 31) : ∀ (fuel cur : Nat) (b : Aabb F)
    (l r : BTree F), Unfolds pool cur (.node b l r) → (BTree.node b l r).depth ≤ fuel →
    (∀ p ∈ (BTree.node b l r).ranges, p.1 < 2 ^ 31) →
    ∀ (mi : Nat) (s : MPool F) (m : MbvhNode F), s.1[mi]? = some m → m.Fresh → mi < s.2 →
      (∀ j mj, s.2 ≤ j → s.1[j]? = some mj → mj.Fresh) →
      s.2 + (BTree.collapse (.node b l r)).quads ≤ s.1.length + 1 → s.1.length < 2 ^ 31 →
      ∃ s', mergeNodes pool fuel mi cur s = some s' ∧ Merged mi (BTree.collapse (.node b l r)) s s' := by
  intro fuel
  induction fuel with
  | zero => intro cur b l r _ hd; simp [BTree.depth] at hd
  | succ fuel ih =>
    intro cur b l r hU hd hrg mi s m hm hmf hmi hfresh hroom hsize
    generalize hnd : BTree.node b l r = T at hU
    cases hU with
    | leaf => cases hnd
    | @node _ left nd l' r' h hc hl ul ur =>
    injection hnd with e1 e2 e3
    subst e2 e3 e1
    have hleft : left < 2 ^ 31 := Nat.lt_trans ul.lt hpool
    generalize hm0 : (((m.setBoundsBB 0 nd.bounds).setBoundsBB 1 nd.bounds).setBoundsBB 2 nd.bounds).setBoundsBB 3
      nd.bounds = m0
    have b0 : ∀ j, m0.slotBox j = nd.bounds.clean := by
      intro j
      subst hm0
      simp only [MbvhNode.slotBox_set]
      match j with
      | 0 => rfl
      | 1 => rfl
      | 2 => rfl
      | 3 => rfl
    obtain ⟨m1, e0, e1, d0, d1, g1, gc1, gn1, gb1, E0, E1, D0, D1⟩ := gatherChild_spec hpool ul
      (fun p hp => hrg p (by simp [BTree.ranges, hp])) 0 1 (by decide) m0 nd.bounds.clean (b0 _) (b0 _)
    obtain ⟨m2, e2, e3, d2, d3, g2, gc2, gn2, gb2, E2, E3, D2, D3⟩ := gatherChild_spec hpool ur
      (fun p hp => hrg p (by simp [BTree.ranges, hp])) 2 3 (by decide) m1 nd.bounds.clean
      (by rw [gb1]; exact b0 _) (by rw [gb1]; exact b0 _)
    have hf2 : ∀ j, m2.children.get j = -1 ∧ m2.counts.get j = -1 := by
      intro j; rw [gc2, gc1, gn2, gn1, ← hm0]; exact hmf j
    have hb2 : ∀ j, m2.slotBox j = (⟨l.boxA nd.bounds.clean, l.boxB nd.bounds.clean, r.boxA nd.bounds.clean,
        r.boxB nd.bounds.clean⟩ : Vec4 (Aabb F)).get j := by
      intro j
      rw [gb2]
      match j with
      | 0 => rw [if_neg (by decide), if_neg (by decide), gb1]; rfl
      | 1 => rw [if_neg (by decide), if_neg (by decide), gb1]; rfl
      | 2 => rfl
      | 3 => rfl
    have hd' : max l.depth r.depth ≤ fuel := by simp only [BTree.depth] at hd; omega
    have hq : (BTree.collapse (.node nd.bounds.clean l r)).quads =
        l.kidA.quads + l.kidB.quads + r.kidA.quads + r.kidB.quads + 1 := by simp [BTree.collapse, QTree.quads]
    have hmlen : mi < s.1.length := (List.getElem?_eq_some_iff.1 hm).1
    have hrec : ∀ d, (d = 0 ∨ d + 1 ≤ max l.depth r.depth) → ∀ (k : Nat) (b : Aabb F) (l r : BTree F),
        Unfolds pool k (.node b l r) → (BTree.node b l r).depth = d →
        (∀ p ∈ (BTree.node b l r).ranges, p.1 < 2 ^ 31) →
        ∀ (mi : Nat) (s : MPool F) (m : MbvhNode F), s.1[mi]? = some m → m.Fresh → mi < s.2 →
        (∀ j mj, s.2 ≤ j → s.1[j]? = some mj → mj.Fresh) →
        s.2 + (BTree.collapse (.node b l r)).quads ≤ s.1.length + 1 → s.1.length < 2 ^ 31 →
        ∃ s', mergeNodes pool fuel mi k s = some s' ∧ Merged mi (BTree.collapse (.node b l r)) s s' := by
      intro d hdd k b' l' r' hU hde hrg'
      refine ih k b' l' r' hU ?_ hrg'
      have : 1 ≤ (BTree.node b' l' r').depth := by simp [BTree.depth]
      omega
    -- four slots
    have F0 : (s.1.set mi m2, s.2).1[mi]? = some m2 := by simp [hmlen]
    have fr0 : ∀ j mj, s.2 ≤ j → (s.1.set mi m2)[j]? = some mj → mj.Fresh := by
      intro j mj hj hmj
      rw [List.getElem?_set, if_neg (by omega)] at hmj
      exact hfresh j mj hj hmj
    obtain ⟨s1, q1, P1⟩ := mergeSlot_spec (rec := mergeNodes pool fuel) (mIndex := mi) (i := 0) E0
      (s := (s.1.set mi m2, s.2)) F0 (hf2 0) (hb2 0) hmi fr0 (by simp only [List.length_set]; omega)
      (by simpa using hsize) (hrec d0 (by omega))
    obtain ⟨n1, N1, B1, C1, S1⟩ := P1.node
    have L1 := P1.len; have T1 := P1.ptr
    simp only [List.length_set] at L1 T1
    have fr1 : ∀ j mj, s1.2 ≤ j → s1.1[j]? = some mj → mj.Fresh := by
      intro j mj hj hmj
      rw [P1.frame j (by simp only; omega)] at hmj
      exact fr0 j mj (by omega) hmj
    obtain ⟨s2, q2, P2⟩ := mergeSlot_spec (rec := mergeNodes pool fuel) (mIndex := mi) (i := 1) E1
      (s := s1) N1 (by rw [(C1 1 (by decide)).1, (C1 1 (by decide)).2]; exact hf2 1) (by rw [B1]; exact hb2 1) (by omega)
      fr1 (by omega) (by omega) (hrec d1 (by omega))
    obtain ⟨n2, N2, B2, C2, S2⟩ := P2.node
    have L2 := P2.len; have T2 := P2.ptr
    have fr2 : ∀ j mj, s2.2 ≤ j → s2.1[j]? = some mj → mj.Fresh := by
      intro j mj hj hmj
      rw [P2.frame j (by omega)] at hmj
      exact fr1 j mj (by omega) hmj
    obtain ⟨s3, q3, P3⟩ := mergeSlot_spec (rec := mergeNodes pool fuel) (mIndex := mi) (i := 2) E2
      (s := s2) N2 (by rw [(C2 2 (by decide)).1, (C2 2 (by decide)).2, (C1 2 (by decide)).1, (C1 2 (by decide)).2]; exact hf2 2)
      (by rw [B2, B1]; exact hb2 2) (by omega) fr2 (by omega) (by omega) (hrec d2 (by omega))
    obtain ⟨n3, N3, B3, C3, S3⟩ := P3.node
    have L3 := P3.len; have T3 := P3.ptr
    have fr3 : ∀ j mj, s3.2 ≤ j → s3.1[j]? = some mj → mj.Fresh := by
      intro j mj hj hmj
      rw [P3.frame j (by omega)] at hmj
      exact fr2 j mj (by omega) hmj
    obtain ⟨s4, q4, P4⟩ := mergeSlot_spec (rec := mergeNodes pool fuel) (mIndex := mi) (i := 3) E3
      (s := s3) N3 (by rw [(C3 3 (by decide)).1, (C3 3 (by decide)).2, (C2 3 (by decide)).1, (C2 3 (by decide)).2,
        (C1 3 (by decide)).1, (C1 3 (by decide)).2]; exact hf2 3)
      (by rw [B3, B2, B1]; exact hb2 3) (by omega) fr3 (by omega) (by omega) (hrec d3 (by omega))
    obtain ⟨n4, N4, B4, C4, S4⟩ := P4.node
    have L4 := P4.len; have T4 := P4.ptr
    refine ⟨s4, ?_, by omega, by omega, ?_, ?_⟩
    · unfold mergeNodes
      simp only [h, hm, hm0, BvhNode.getLeftFirst_eq hl hleft, g1, g2]
      rw [q1, Option.bind_some, q2, Option.bind_some, q3, Option.bind_some, q4]
    · intro j hj
      rw [P4.frame j (by omega), P3.frame j (by omega), P2.frame j (by omega), P1.frame j (by simp only; omega)]
      rw [List.getElem?_set, if_neg (by omega)]
    · intro ms hag
      have hn : ms[mi]? = some n4 := by rw [hag mi (.inl rfl)]; exact N4
      have hboxes : n4.boxes = ⟨l.boxA nd.bounds.clean, l.boxB nd.bounds.clean, r.boxA nd.bounds.clean,
          r.boxB nd.bounds.clean⟩ := by
        refine Vec4.ext_get fun j => ?_
        rw [MbvhNode.boxes, Vec4.get_ofFn, B4, B3, B2, B1, hb2]
      simp only [BTree.collapse]
      rw [← hboxes]
      refine .quad (by omega) rfl hn ?_ ?_ ?_ ?_
      · rw [(C4 0 (by decide)).1, (C4 0 (by decide)).2, (C3 0 (by decide)).1, (C3 0 (by decide)).2, (C2 0 (by decide)).1,
          (C2 0 (by decide)).2]
        refine S1 ms fun j hj => ?_
        simp only at hj
        rw [hag j (.inr (by omega)), P4.frame j (by omega), P3.frame j (by omega), P2.frame j (by omega)]
      · rw [(C4 1 (by decide)).1, (C4 1 (by decide)).2, (C3 1 (by decide)).1, (C3 1 (by decide)).2]
        refine S2 ms fun j hj => ?_
        rw [hag j (.inr (by omega)), P4.frame j (by omega), P3.frame j (by omega)]
      · rw [(C4 2 (by decide)).1, (C4 2 (by decide)).2]
        refine S3 ms fun j hj => ?_
        rw [hag j (.inr (by omega)), P4.frame j (by omega)]
      · refine S4 ms fun j hj => ?_
        rw [hag j (.inr (by omega))]

end Rtbvh
