import Verif.Model.BvhOps
import Verif.Proofs.Box
import Verif.Spec.Contain
import Verif.Spec.Links
/- Lemmas about `Bvh::refit`. -/
namespace Rtbvh
open Aabb
variable {F : Type} [FloatOps F]

theorem asU32_small {x : Nat} (h : x < 2 ^ 31) : asU32 (x : Int) = x := by
  unfold asU32; omega

section lawful
variable [LawfulFloat F]

theorem refitLeaf_contains {idx : List Nat} {bbs : List (Aabb F)} (hn : ∀ b ∈ bbs, b.Numeric) {lf : Nat} (k : Nat) :
    ∀ (i : Nat) (a a' : Aabb F), a.Numeric → refitLeaf idx bbs lf k i a = some a' →
      a.Within a' ∧ ∀ j, i ≤ j → j < i + k → ∀ p, idx[lf + j]? = some p → (boxAt bbs p).Within a' := by
  induction k with
  | zero =>
    intro i a a' ha h
    simp [refitLeaf] at h; subst h
    exact ⟨Within.refl ha, by intro j; omega⟩
  | succ k ih =>
    intro i a a' ha h
    rw [refitLeaf] at h
    split at h
    · cases h
    · rename_i id hid
      split at h
      · cases h
      · rename_i bb hbb
        have hbn := hn bb (List.mem_of_getElem? hbb)
        obtain ⟨h1, h2⟩ := ih (i + 1) _ a' (growBB_numeric ha hbn) h
        refine ⟨(within_growBB_left ha hbn).trans h1, ?_⟩
        intro j hj1 hj2 p hp
        by_cases e : j = i
        · subst e
          rw [hid] at hp; cases hp
          have : boxAt bbs id = bb := by simp [boxAt, List.getD, hbb]
          rw [this]
          exact (within_growBB_right ha hbn).trans h1
        · exact h2 j (by omega) (by omega) p hp

/-- Node `j` of `nodes` has a box containing the new boxes of what is below `j` in the original array. -/
def RefitOk (orig : List (BvhNode F)) (idx : List Nat) (bbs : List (Aabb F)) (nodes : List (BvhNode F)) (j : Nat) : Prop :=
  ∀ nd, nodes[j]? = some nd → nd.bounds.Numeric ∧
    ∀ T, Unfolds orig j T → T.RangesIn idx → ∀ p ∈ T.ids idx, (boxAt bbs p).Within nd.bounds

theorem refitLoop_contains {orig : List (BvhNode F)} {idx : List Nat} {bbs : List (Aabb F)}
    (hn : ∀ b ∈ bbs, b.Numeric) (hi : idx.length < 2 ^ 31)
    (hafter : ∀ (i : Nat) (nd : BvhNode F), orig[i]? = some nd → nd.bounds.extra1 < 0 → nd.bounds.extra2 ≥ 0 →
      (i : Int) < nd.bounds.extra2 ∧ nd.bounds.extra2 < 2147483648) (i : Nat) :
    ∀ (nodes nodes' : List (BvhNode F)), nodes.length = orig.length → (∀ j < i, nodes[j]? = orig[j]?) →
      (∀ j ≥ i, RefitOk orig idx bbs nodes j) → refitLoop idx bbs i nodes = some nodes' →
      ∀ j, RefitOk orig idx bbs nodes' j := by
  induction i with
  | zero =>
    intro nodes nodes' _ _ h e j
    simp [refitLoop] at e; subst e
    exact h j (by omega)
  | succ i ih =>
    intro nodes nodes' hlen hag h e
    rw [refitLoop] at e
    split at e
    · cases e
    rename_i nd hnd
    split at e
    · cases e
    rename_i a ha
    have hil := (List.getElem?_eq_some_iff.1 hnd).1
    have hnd0 : orig[i]? = some nd := by rw [← hag i (by omega)]; exact hnd
    refine ih _ _ (by simpa using hlen) ?_ ?_ e
    · intro j hj
      rw [List.getElem?_set_ne (by omega)]; exact hag j (by omega)
    · intro j hj
      by_cases e : j = i
      · subst e
        intro nd' hnd'
        rw [List.getElem?_set_self hil] at hnd'
        cases hnd'
        show a.Numeric ∧ _
        unfold refitBox at ha
        split at ha
        · rename_i hg
          cases ha
          refine ⟨new_numeric, ?_⟩
          intro T hU _
          have : nd.bounds.extra2 < 0 := by
            unfold BvhNode.getLeftFirst at hg
            split at hg
            · cases hg
            · omega
          cases hU with
          | leaf hh hc hf => rw [hnd0] at hh; cases hh; omega
          | node hh hc hf => rw [hnd0] at hh; cases hh; omega
        · rename_i lf hg
          rw [Option.map_eq_some_iff] at ha
          obtain ⟨a', ha', rfl⟩ := ha
          have hge : nd.bounds.extra2 ≥ 0 ∧ lf = asU32 nd.bounds.extra2 := by
            unfold BvhNode.getLeftFirst at hg
            split at hg
            · cases hg; exact ⟨by assumption, rfl⟩
            · cases hg
          split at ha'
          · rename_i hleaf
            have hleaf' : nd.bounds.extra1 ≥ 0 := by simpa [BvhNode.isLeaf] using hleaf
            obtain ⟨h1, h2⟩ := refitLeaf_contains hn _ _ _ _ new_numeric ha'
            have hw := within_offset_lit h1.num_right (m := 1) (e := -4) (by decide) (by decide) (by decide) (by decide)
            refine ⟨hw.num_right, ?_⟩
            intro T hU hR p hp
            cases hU with
            | node hh hc hf => rw [hnd0] at hh; cases hh; omega
            | @leaf i' first count nd' hh hc hf =>
              rw [hnd0] at hh; cases hh
              have hR' : first + count ≤ idx.length := hR
              have elf : lf = first := by rw [hge.2, hf]; exact asU32_small (by omega)
              subst elf
              simp only [BTree.ids, BTree.rangeIds] at hp
              obtain ⟨j, hj, rfl⟩ := List.getElem_of_mem hp
              simp only [List.length_take, List.length_drop] at hj
              refine (h2 j (by omega) ?_ _ ?_).trans hw
              · simp only [BvhNode.countU, hc]; omega
              · simp only [List.getElem_take, List.getElem_drop]
                exact List.getElem?_eq_getElem _
          · rename_i hleaf
            have hleaf' : nd.bounds.extra1 < 0 := by simpa [BvhNode.isLeaf] using hleaf
            split at ha'
            · rename_i l r hgl hgr
              cases ha'
              have hll := (List.getElem?_eq_some_iff.1 hgl).1
              have hlf := hafter j nd hnd0 hleaf' hge.1
              have hcast : (lf : Int) = nd.bounds.extra2 := by rw [hge.2]; unfold asU32; omega
              obtain ⟨nl, cl⟩ := h lf (by omega) l hgl
              obtain ⟨nr, cr⟩ := h (lf + 1) (by omega) r hgr
              have n1 := growBB_numeric (new_numeric (F := F)) nl
              have w1 := within_growBB_right (new_numeric (F := F)) nl
              have w2 := within_growBB_left n1 nr
              have w3 := within_growBB_right n1 nr
              have hw := within_offset_lit w3.num_right (m := 1) (e := -4) (by decide) (by decide) (by decide) (by decide)
              refine ⟨hw.num_right, ?_⟩
              intro T hU hR p hp
              cases hU with
              | leaf hh hc hf => rw [hnd0] at hh; cases hh; omega
              | @node i' left nd' L R hh hc hf ul ur =>
                rw [hnd0] at hh; cases hh
                have elf : lf = left := by omega
                subst elf
                rcases List.mem_append.1 hp with hp | hp
                · exact ((cl L ul hR.1 p hp).trans (w1.trans w2)).trans hw
                · exact ((cr R ur hR.2 p hp).trans w3).trans hw
            · cases ha'
      · intro nd' hnd'
        rw [List.getElem?_set_ne (by omega)] at hnd'
        exact h j (by omega) nd' hnd'

end lawful

/-- `refit` does not panic when all links are in range and every stored id has a new box. -/
theorem refitLoop_total {idx : List Nat} {bbs : List (Aabb F)} {nNodes : Nat} (hn : nNodes < 2 ^ 31)
    (hidx : idx.length < 2 ^ 31) (hids : ∀ p ∈ idx, p < bbs.length) (i : Nat) :
    ∀ (nodes : List (BvhNode F)), nodes.length = nNodes → i ≤ nNodes →
      (∀ j < i, ∀ nd, nodes[j]? = some nd → nd.LinksOk nNodes idx.length j) →
      ∃ nodes', refitLoop idx bbs i nodes = some nodes' := by
  have leafT : ∀ (k i lf : Nat) (a : Aabb F), lf + i + k ≤ idx.length → ∃ a', refitLeaf idx bbs lf k i a = some a' := by
    intro k
    induction k with
    | zero => intro i lf a _; exact ⟨a, rfl⟩
    | succ k ih =>
      intro i lf a h
      rw [refitLeaf, List.getElem?_eq_getElem (by omega)]
      simp only
      have := hids _ (List.getElem_mem (l := idx) (show lf + i < idx.length by omega))
      rw [List.getElem?_eq_getElem this]
      exact ih _ _ _ (by omega)
  induction i with
  | zero => intro nodes _ _ _; exact ⟨nodes, rfl⟩
  | succ i ih =>
    intro nodes hlen hi hok
    rw [refitLoop, List.getElem?_eq_getElem (by omega)]
    simp only
    have hlk := hok i (by omega) _ (List.getElem?_eq_getElem (by omega))
    generalize nodes[i] = nd at hlk
    have hbox : ∃ a, refitBox nodes idx bbs nd = some a := by
      unfold refitBox
      split
      · exact ⟨_, rfl⟩
      · rename_i lf hg
        have hge : nd.bounds.extra2 ≥ 0 ∧ lf = asU32 nd.bounds.extra2 := by
          unfold BvhNode.getLeftFirst at hg
          split at hg
          · cases hg; exact ⟨by assumption, rfl⟩
          · cases hg
        by_cases hleaf : nd.isLeaf = true
        · rw [if_pos hleaf]
          have hleaf' : nd.bounds.extra1 ≥ 0 := by simpa [BvhNode.isLeaf] using hleaf
          have h1 := hlk.1 hleaf'
          have hcast : (lf : Int) = nd.bounds.extra2 := by rw [hge.2]; unfold asU32; omega
          obtain ⟨a', e⟩ := leafT nd.countU.toNat 0 lf Aabb.new (by unfold BvhNode.countU; omega)
          rw [e]; exact ⟨_, rfl⟩
        · rw [if_neg hleaf]
          have hleaf' : nd.bounds.extra1 < 0 := by simpa [BvhNode.isLeaf] using hleaf
          have h1 := hlk.2 hleaf'
          have hcast : (lf : Int) = nd.bounds.extra2 := by rw [hge.2]; unfold asU32; omega
          rw [List.getElem?_eq_getElem (show lf < nodes.length by omega),
            List.getElem?_eq_getElem (show lf + 1 < nodes.length by omega)]
          exact ⟨_, rfl⟩
    obtain ⟨a, e⟩ := hbox
    rw [e]
    refine ih _ (by simpa using hlen) (by omega) ?_
    intro j hj nd' hnd'
    rw [List.getElem?_set_ne (by omega)] at hnd'
    exact hok j (by omega) nd' hnd'

end Rtbvh
