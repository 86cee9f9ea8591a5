import Verif.Spec.LocRule
import Verif.Props.Locb
/- Property C72: what the clustering builder joins. -/
namespace Rtbvh
open FloatOps LawfulFloat Aabb
variable {F : Type} [FloatOps F] [LawfulFloat F]

theorem joinArea_lt {ts : List (BTree F)} {i j : Nat} {a : F} (h : joinArea ts i j = some a) :
    i < ts.length ∧ j < ts.length := by
  unfold joinArea at h
  simp only [Option.bind_eq_some_iff, Option.map_eq_some_iff] at h
  obtain ⟨x, h1, y, h2, _⟩ := h
  have h1 := (List.getElem?_eq_some_iff.1 h1).1
  have h2 := (List.getElem?_eq_some_iff.1 h2).1
  omega

/-- A cluster has at most one nearest neighbour. -/
theorem NearestOf.unique {ts : List (BTree F)} {i j k : Nat} (h : NearestOf ts i j) (h' : NearestOf ts i k) : j = k := by
  obtain ⟨n1, a, e1, m1⟩ := h
  obtain ⟨n2, a', e2, m2⟩ := h'
  rcases Nat.lt_trichotomy j k with hlt | rfl | hlt
  · exact (not_lt_self' ((m2 _ _ n1 e1).2 hlt) (m1 _ _ n2 e2).1).elim
  · rfl
  · exact (not_lt_self' ((m1 _ _ n2 e2).2 hlt) (m2 _ _ n1 e1).1).elim

theorem RoundTo.det {ts : List (BTree F)} {k : Nat} {o o' : List (BTree F)} (h : RoundTo ts k o) (h' : RoundTo ts k o') :
    o = o' := by
  induction h generalizing o' with
  | start => cases h'; rfl
  | stays h1 ht al ih =>
    cases h' with
    | stays h2 ht' _ => rw [ht] at ht'; cases ht'; rw [ih h2]
    | waits h2 hm hj => exact absurd hm (al _)
    | joins h2 hm hj _ _ => exact absurd hm (al _)
  | waits h1 hm hj ih =>
    cases h' with
    | stays h2 ht' al => exact absurd hm (al _)
    | waits h2 hm' hj' => exact ih h2
    | joins h2 hm' hj' _ _ => have := hm.1.unique hm'.1; omega
  | joins h1 hm hj ht hu ih =>
    cases h' with
    | stays h2 ht' al => exact absurd hm (al _)
    | waits h2 hm' hj' => have := hm.1.unique hm'.1; omega
    | joins h2 hm' hj' ht' hu' =>
      have := hm.1.unique hm'.1
      subst this
      rw [ht] at ht'; cases ht'
      rw [hu] at hu'; cases hu'
      rw [ih h2]

/-- The rule determines the tree. -/
theorem Clusters.det {ts : List (BTree F)} {T T' : BTree F} (h : Clusters ts T) (h' : Clusters ts T') : T = T' := by
  induction h with
  | done =>
    cases h' with
    | done => rfl
    | round h2 _ _ => simp at h2
  | round h2 h rest ih =>
    cases h' with
    | done => simp at h2
    | round _ h' rest' => rw [← h.det h'] at rest'; exact ih rest'

section
variable {n : Nat} {sorted : List Nat} {boxes : List (Aabb F)} {nodes copy : List (BvhNode F)} {aux : List Nat}
  {b e pe : Nat} {tr : Nat → BTree F}

omit [LawfulFloat F] in
theorem joinArea_row (I : LocInv n sorted boxes nodes copy aux b e pe tr) {i j : Nat} (hi : i ≤ b) (hj : j ≤ b)
    (hne : i ≠ j) : joinArea ((List.range (b + 1)).map tr) i j = some (sd nodes (b + i) (b + j)) := by
  have key : ∀ i j, i ≤ b → j ≤ b → i < j →
      joinArea ((List.range (b + 1)).map tr) i j = some (sd nodes (b + i) (b + j)) ∧
      joinArea ((List.range (b + 1)).map tr) j i = some (sd nodes (b + i) (b + j)) := by
    intro i j hi hj hlt
    obtain ⟨nd1, g1, d1⟩ := I.dec i hi
    obtain ⟨nd2, g2, d2⟩ := I.dec j hj
    have : sd nodes (b + i) (b + j) = ((tr i).bounds.unionOf (tr j).bounds).halfArea := by
      unfold sd pd pairDist
      rw [if_pos (by omega), g1, g2, d1.bounds, d2.bounds]; rfl
    rw [this]
    unfold joinArea
    rw [Nat.min_eq_left (by omega), Nat.max_eq_right (by omega), Nat.min_eq_right (by omega),
      Nat.max_eq_left (by omega), List.getElem?_map, List.getElem?_map, List.getElem?_range (by omega),
      List.getElem?_range (by omega)]
    exact ⟨rfl, rfl⟩
  rcases Nat.lt_or_gt_of_ne hne with h | h
  · exact (key i j hi hj h).1
  · rw [sd_comm _ (by omega)]; exact (key j i hj hi h).2

theorem nearest_row {w : Aabb F} (hs : LocScene w boxes) (hn : n ≤ 2 ^ 30)
    (I : LocInv n sorted boxes nodes copy aux b e pe tr) (hb : 0 < b) {k : Nat} (hk : k ≤ b) :
    NearestOf ((List.range (b + 1)).map tr) k (nbOf 14 nodes b e (b + k) - b) := by
  have h1 := I.count
  have h2 := I.le
  have h3 := I.peLe
  have hd : ∀ j, InWindow 14 b e (b + k) j → (sd nodes (b + k) j <. (maxFinite : F)) = true := by
    intro j hj
    have key : ∀ i j, b ≤ i → i < j → j < e → (sd nodes i j <. (maxFinite : F)) = true := by
      intro i j hi hij hj
      obtain ⟨nd1, g1, d1⟩ := I.dec (i - b) (by omega)
      obtain ⟨nd2, g2, d2⟩ := I.dec (j - b) (by omega)
      rw [show b + (i - b) = i by omega] at g1
      rw [show b + (j - b) = j by omega] at g2
      have p1 := locTree_inBox (scene_inBox hs) _ (I.loc (i - b) (by omega))
      have p2 := locTree_inBox (scene_inBox hs) _ (I.loc (j - b) (by omega))
      rw [d1.bounds] at p1
      rw [d2.bounds] at p2
      have : sd nodes i j = (nd1.bounds.unionOf nd2.bounds).halfArea := by
        unfold sd pd pairDist
        rw [if_pos hij, g1, g2]; rfl
      rw [this]
      exact halfArea_lt hs.1 (InBox.union (a := nd1.bounds.clean) (b := nd2.bounds.clean) p1 p2)
    obtain ⟨q1, q2, q3, q4, q5⟩ := hj
    rcases Nat.lt_or_gt_of_ne q3 with h | h
    · rw [sd_comm _ (by omega)]; exact key j (b + k) q1 h (by omega)
    · exact key (b + k) j (by omega) h q2
  obtain ⟨⟨q1, q2, q3, q4, q5⟩, m⟩ := nb_spec (r := 14) (input := nodes) (b := b) (e := e) (i := b + k) (by omega)
    (by omega) (by omega) (by omega) (by omega) hd
  generalize hg : nbOf 14 nodes b e (b + k) = j at *
  refine ⟨⟨by omega, by omega, by omega⟩, sd nodes (b + k) j, ?_, ?_⟩
  · rw [joinArea_row I hk (by omega) (by omega), show b + (j - b) = j by omega]
  · intro k' a' hnear ha'
    have hlt := joinArea_lt ha'
    simp only [List.length_map, List.length_range] at hlt
    rw [joinArea_row I hk (by omega) hnear.1] at ha'
    cases ha'
    obtain ⟨n1, n2, n3⟩ := hnear
    obtain ⟨r1, r2⟩ := m (b + k') ⟨by omega, by omega, by omega, by omega, by omega⟩
    exact ⟨r1, fun h => r2 (by omega)⟩

/-- One round of the code is one round of the rule. -/
theorem round_row {w : Aabb F} (hs : LocScene w boxes) (hn : n ≤ 2 ^ 30)
    (I : LocInv n sorted boxes nodes copy aux b e pe tr) (hb : 0 < b) :
    RoundTo ((List.range (b + 1)).map tr) (b + 1)
      ((List.range (b - pairsOf 14 nodes b e + 1)).map
        (nextTrees (fun k => nbOf 14 nodes b e (b + k) - b) (e - b) tr)) := by
  have hcnt := I.count
  have hfound := (inv_progress hs hn I hb).1
  generalize hN : (fun k => nbOf 14 nodes b e (b + k) - b) = N
  have hP : Partners (b + 1) N := by
    constructor
    · intro k hk
      have := hfound (b + k) (by omega) (by omega)
      rw [← hN]; simp only; omega
    · intro k hk
      have := hfound (b + k) (by omega) (by omega)
      rw [← hN]; simp only; omega
  have hnear : ∀ k ≤ b, NearestOf ((List.range (b + 1)).map tr) k (N k) := by
    intro k hk
    rw [← hN]; exact nearest_row hs hn I hb hk
  have hmut : ∀ k ≤ b, ∀ j, Mutual ((List.range (b + 1)).map tr) k j ↔ N k = j ∧ N j = k := by
    intro k hk j
    constructor
    · rintro ⟨m1, m2⟩
      have hj := (m1.2.choose_spec.1)
      have hj := (joinArea_lt hj).2
      simp only [List.length_map, List.length_range] at hj
      exact ⟨(hnear k hk).unique m1, (hnear j (by omega)).unique m2⟩
    · rintro ⟨rfl, h2⟩
      refine ⟨hnear k hk, ?_⟩
      have := hP.lt k (by omega)
      have := hnear (N k) (by omega)
      rwa [h2] at this
  have main : ∀ k, k ≤ b + 1 → RoundTo ((List.range (b + 1)).map tr) k
      ((unflagged (flag N) k).map (nextTree N tr)) := by
    intro k
    induction k with
    | zero => intro _; exact .start
    | succ k ih =>
      intro hk
      have ih := ih (by omega)
      have hu : unflagged (flag N) (k + 1) = unflagged (flag N) k ++ if flag N k then [] else [k] := by
        unfold unflagged
        rw [List.range_succ, List.filter_append]
        cases hfk : flag N k <;> simp [hfk]
      have hg : ∀ i ≤ b, ((List.range (b + 1)).map tr)[i]? = some (tr i) := by
        intro i hi
        rw [List.getElem?_map, List.getElem?_range (by omega)]; rfl
      rw [hu, List.map_append]
      cases hf : flag N k with
      | true =>
        obtain ⟨f1, f2⟩ := flag_true.1 hf
        rw [if_pos rfl, List.map_nil, List.append_nil]
        exact .waits ih ((hmut k (by omega) (N k)).2 ⟨rfl, f2⟩) f1
      | false =>
        rw [if_neg (by simp), List.map_cons, List.map_nil]
        by_cases hm : N (N k) = k
        · have h1 := flag_false.1 hf
          have h2 := hP.ne k (by omega)
          have hlt : N k < k := by omega
          have : nextTree N tr k = .node ((tr k).bounds.unionOf (tr (N k)).bounds) (tr (N k)) (tr k) := by
            unfold nextTree; rw [if_pos hm]
          rw [this]
          exact .joins ih ((hmut k (by omega) (N k)).2 ⟨rfl, hm⟩) hlt (hg k (by omega)) (hg (N k) (by omega))
        · have : nextTree N tr k = tr k := by unfold nextTree; rw [if_neg hm]
          rw [this]
          refine .stays ih (hg k (by omega)) ?_
          intro j hj
          obtain ⟨rfl, h2⟩ := (hmut k (by omega) j).1 hj
          exact hm h2
  have hM : pairsOf 14 nodes b e = cnt (flag N) (b + 1) := by
    unfold pairsOf; rw [hN, show e - b = b + 1 by omega]
  have h2M := two_cnt_le hP
  have hlast : (List.range (b - pairsOf 14 nodes b e + 1)).map (nextTrees N (e - b) tr) =
      (unflagged (flag N) (b + 1)).map (nextTree N tr) := by
    have hl := unflagged_length (flag N) (b + 1)
    apply List.ext_getElem?
    intro p
    rw [List.getElem?_map, List.getElem?_map]
    by_cases hp : p < b - pairsOf 14 nodes b e + 1
    · have hpl : p < (unflagged (flag N) (b + 1)).length := by omega
      rw [List.getElem?_range hp, List.getElem?_eq_getElem hpl, Option.map_some, Option.map_some]
      unfold nextTrees
      rw [show e - b = b + 1 by omega, List.getD, List.getElem?_eq_getElem hpl, Option.getD_some]
    · rw [List.getElem?_eq_none (by simp; omega), List.getElem?_eq_none (by omega)]
      rfl
  rw [hlast]
  exact main (b + 1) (Nat.le_refl _)

/-- The loop of the code is the loop of the rule. -/
theorem loop_rule {w : Aabb F} (hs : LocScene w boxes) (hn : n ≤ 2 ^ 30) {t : Nat} (ht : 0 < t) (fuel : Nat) :
    ∀ (nodes copy : List (BvhNode F)) (aux : List Nat) (b e pe : Nat) (tr : Nat → BTree F),
      LocInv n sorted boxes nodes copy aux b e pe tr → b ≤ fuel →
      ∃ nodes', locbLoop 14 t (2 * n - 1) fuel nodes copy aux b e pe = some (some nodes') ∧
      ∃ copy' aux' pe' tr', LocInv n sorted boxes nodes' copy' aux' 0 1 pe' tr' ∧
        Clusters ((List.range (b + 1)).map tr) (tr' 0) := by
  induction fuel with
  | zero =>
    intro nodes copy aux b e pe tr I hbf
    have hc := I.count
    obtain rfl : b = 0 := by omega
    obtain rfl : e = 1 := by omega
    exact ⟨nodes, by unfold locbLoop; rw [if_neg (by omega)], _, _, _, _, I, .done⟩
  | succ fuel ih =>
    intro nodes copy aux b e pe tr I hbf
    have hc := I.count
    by_cases hb : 0 < b
    · have hp := inv_progress hs hn I hb
      obtain ⟨out, aux', e1, hle, I'⟩ := round_spec I hn 14 t ht hb hp.1
      obtain ⟨nodes', l1, copy', aux'', pe', tr', I'', cl⟩ := ih _ _ _ _ _ _ _ I' (by omega)
      refine ⟨nodes', ?_, copy', aux'', pe', tr', I'', ?_⟩
      · unfold locbLoop
        rw [if_pos (by omega), e1]
        simpa only [Option.bind_some] using l1
      · refine .round (by simp; omega) ?_ cl
        rw [List.length_map, List.length_range]
        exact round_row hs hn I hb
    · obtain rfl : b = 0 := by omega
      obtain rfl : e = 1 := by omega
      exact ⟨nodes, by unfold locbLoop; rw [if_neg (by omega)], _, _, _, _, I, .done⟩

end

/-- C72. For every scene of three or more valid boxes whose common box has a half area that does not overflow, and any
number of CPUs, the clustering build returns, its indices are the primitives in Morton order (equal codes in input
order), and its tree is exactly what repeated joining of mutual nearest neighbours gives, and nothing else is. -/
theorem C72_locb_rule (b : Builder F) (order : List Nat) (h : b.Legal order) (w : Aabb F)
    (hw : LocScene w (b.boxes order)) (h3 : 3 ≤ b.primitives.length) (t fuel : Nat) (ht : 0 < t)
    (hf : b.primitives.length - 1 ≤ fuel) :
    ∃ bvh T, b.constructLocb order t fuel = .ok (some (some bvh)) ∧ Unfolds bvh.nodes 0 T ∧
      StableSorted (b.primitives.map fun p => ((MortonEncoder.new (Aabb.unionOfList (b.boxes order))
        MortonEncoder.maxGridDim).encode p.center).toNat) bvh.indices ∧
      Clusters (startRow (b.boxes order) bvh.indices) T ∧
      ∀ T', Clusters (startRow (b.boxes order) bvh.indices) T' → T' = T := by
  have hlen := Builder.boxes_length h
  have hl : (b.primitives.map Prim.center).length = (b.boxes order).length := by rw [hlen]; simp
  have hsm := h.small
  rw [Builder.constructLocb_eq h]
  obtain ⟨ix, codes, e1, hcodes, hst, _⟩ := C17_sorted_indices (MortonEncoder.new (Aabb.unionOfList (b.boxes order))
    MortonEncoder.maxGridDim) (b.boxes order) (b.primitives.map Prim.center) hl.symm
  have hp : ix.Perm (List.range (b.boxes order).length) := by
    have := hst.perm
    rwa [hcodes, List.length_map, hl] at this
  obtain ⟨leaves, tr, e2, I, hrow⟩ := init_inv (n := (b.boxes order).length) rfl hp (by omega) (by omega)
    (List.replicate (2 * (b.boxes order).length - 1) ((({ bounds := Aabb.ofPoints2 (Vec3.splat zero) (Vec3.splat zero) }
      : BvhNode F).setCount none).setLeftFirst (some 0))) (by simp)
  obtain ⟨nodes', e3, copy', aux', pe', tr', I', cl⟩ := loop_rule hw (by omega) ht fuel _ _ _ _ _ _ _ I (by omega)
  rw [show (b.boxes order).length - 1 + 1 = (b.boxes order).length by omega, hrow] at cl
  have R := result_of_inv hp I'
  refine ⟨{ nodes := nodes', primIndices := ix, buildType := .locallyOrderedClustered }, tr' 0, ?_, R.unfolds, ?_, cl,
    fun T' hT' => hT'.det cl⟩
  · unfold locbBuild
    simp only
    rw [if_neg (by
      rintro (h | h | h)
      · exact h hl
      · rw [h] at hl; simp at hl; omega
      · rw [h] at hlen; simp at hlen; omega), if_neg (by omega), e1]
    simp only [Option.bind_some]
    rw [e2]
    simp only [Option.bind_some]
    rw [show 2 * (b.boxes order).length - 1 - (b.boxes order).length = (b.boxes order).length - 1 by omega, e3]
    rfl
  · rw [hcodes, List.map_map] at hst
    exact hst

/-- C72 for the `f32` of the code: coordinates up to `2^60` are small enough. -/
theorem C72_locb_rule_f32 (b : Builder F32) (order : List Nat) (h : b.Legal order)
    (hb : ∀ a ∈ b.boxes order, a.Valid ∧ Moderate a.min ∧ Moderate a.max) (h3 : 3 ≤ b.primitives.length)
    (t fuel : Nat) (ht : 0 < t) (hf : b.primitives.length - 1 ≤ fuel) :
    ∃ bvh T, b.constructLocb order t fuel = .ok (some (some bvh)) ∧ Unfolds bvh.nodes 0 T ∧
      StableSorted (b.primitives.map fun p => ((MortonEncoder.new (Aabb.unionOfList (b.boxes order))
        MortonEncoder.maxGridDim).encode p.center).toNat) bvh.indices ∧
      Clusters (startRow (b.boxes order) bvh.indices) T ∧
      ∀ T', Clusters (startRow (b.boxes order) bvh.indices) T' → T' = T :=
  C72_locb_rule b order h bigCube (moderate_scene _ hb) h3 t fuel ht hf

/-- Cubes at 0, 10, 20, 23 and 29 on the diagonal: the cubes at 20 and 23 are joined first, together with those at 0 and
10; then the cube at 29 joins the pair at 20 and 23. -/
def clusterScene : Builder F32 := cubeScene [(20, 1), (0, 1), (29, 1), (10, 1), (23, 1)] none

example : clusterScene.Legal (List.range 5) ∧ 3 ≤ clusterScene.primitives.length ∧
    (∀ a ∈ clusterScene.boxes (List.range 5), a.Valid ∧ Moderate a.min ∧ Moderate a.max) ∧
    (built (clusterScene.constructLocb (List.range 5) 3 4)).map
      (fun b => (b.indices, b.nodes.map fun n => (n.bounds.extra1, n.bounds.extra2))) =
    some ([1, 3, 0, 4, 2],
      [(-1, 1), (-1, 5), (-1, 3), (-1, 7), (1, 4), (1, 0), (1, 1), (1, 2), (1, 3)]) := by
  refine ⟨cubeScene_legal _ _ (by decide) (by decide), by decide, ?_, by decide +kernel⟩
  unfold Aabb.Valid Moderate Vec3.Le; decide +kernel

end Rtbvh
