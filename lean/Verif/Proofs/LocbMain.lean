import Verif.Proofs.LocbRound
import Verif.Props.Morton
import Verif.Spec.LocRule
/- The clustering loop and the whole build. -/
namespace Rtbvh
variable {F : Type}

theorem forRange_reach {σ : Type} {f : Nat → σ → Option σ} (P : Nat → σ → Prop) {k a : Nat} {s s' : σ} (h0 : P a s)
    (step : ∀ i s s', a ≤ i → i < a + k → P i s → f i s = some s' → P (i + 1) s')
    (h : forRange f k a s = some s') :
    P (a + k) s' ∧ ∀ i, a ≤ i → i < a + k → ∃ s1 s2, P i s1 ∧ f i s1 = some s2 := by
  induction k generalizing a s with
  | zero => cases h; exact ⟨h0, fun i _ _ => by omega⟩
  | succ k ih =>
    simp only [forRange, Option.bind_eq_some_iff] at h
    obtain ⟨s1, e1, e2⟩ := h
    obtain ⟨q1, q2⟩ := ih (step a s s1 (Nat.le_refl _) (by omega) h0 e1)
      (fun i s s' h1 h2 => step i s s' (by omega) (by omega)) e2
    refine ⟨by rw [show a + (k + 1) = a + 1 + k by omega]; exact q1, fun i h1 h2 => ?_⟩
    by_cases hi : i = a
    · subst hi; exact ⟨s, s1, h0, e1⟩
    · exact q2 i (by omega) (by omega)

theorem setAt_some {α : Type} {l l' : List α} {i : Nat} {a : α} (h : setAt l i a = some l') :
    i < l.length ∧ l' = l.set i a := by
  unfold setAt at h
  split at h
  · cases h; exact ⟨by assumption, rfl⟩
  · cases h

theorem csub_some {a b c : Nat} (h : csub a b = some c) : b ≤ a ∧ c = a - b := by
  unfold csub at h
  split at h
  · cases h; exact ⟨by assumption, rfl⟩
  · cases h

section
variable [FloatOps F]
open FloatOps

theorem candidates_mem {r : Nat} {input : List (BvhNode F)} {b e i : Nat} (hb : b ≤ i) {p : Nat × F}
    (h : p ∈ candidates r input b e i) : b ≤ p.1 ∧ (p.1 < e ∨ p.1 < i) ∧ p.1 ≠ i := by
  have sb : b ≤ (searchRange r i b e).1 ∧ (searchRange r i b e).1 ≤ i := by
    unfold searchRange; simp only; split <;> omega
  have se : (searchRange r i b e).2 = Min.min (i + r + 1) e := rfl
  unfold candidates at h
  rw [List.mem_append, List.mem_map, List.mem_map] at h
  rcases h with ⟨j, h1, rfl⟩ | ⟨j, h1, rfl⟩
  · rw [List.mem_range'_1] at h1; simp only; omega
  · rw [List.mem_range'_1] at h1; simp only; omega

theorem offers_cases (l : List (Nat × F)) (best : Best F) :
    l.foldl (fun best p => best.offer p.2 p.1) best = best ∨
    ∃ p ∈ l, (l.foldl (fun best p => best.offer p.2 p.1) best) = ⟨p.2, (p.1 : Int)⟩ := by
  induction l generalizing best with
  | nil => exact .inl rfl
  | cons a l ih =>
    simp only [List.foldl_cons]
    rcases ih (best.offer a.2 a.1) with h | ⟨p, hp, h⟩
    · rw [h]
      unfold Best.offer
      split
      · exact .inr ⟨a, List.mem_cons_self, rfl⟩
      · exact .inl rfl
    · exact .inr ⟨p, List.mem_cons_of_mem _ hp, h⟩

theorem asU32_nat {j : Nat} (h : j < 2 ^ 32) : asU32 (j : Int) = j := by
  unfold asU32; omega

/-- A stored neighbour is another active cluster, or `u32::MAX`. -/
theorem nb_cases (r : Nat) (input : List (BvhNode F)) (b e i : Nat) (hb : b ≤ i) (he : i < e) (hs : e ≤ 2 ^ 32) :
    (b ≤ nbOf r input b e i ∧ nbOf r input b e i < e ∧ nbOf r input b e i ≠ i) ∨ nbOf r input b e i = 2 ^ 32 - 1 := by
  unfold nbOf bestOf
  rcases offers_cases (candidates r input b e i) ⟨maxFinite, -1⟩ with h | ⟨p, hp, h⟩
  · rw [h]; right; rfl
  · rw [h]
    have := candidates_mem hb hp
    rw [asU32_nat (by omega)]
    left; omega

/-- If marking does not leave the array, every cluster has a neighbour. -/
theorem allFound_of_mark {r nc b e : Nat} {input : List (BvhNode F)} {aux aux' : List Nat} (hbe : b ≤ e) (he : e ≤ nc)
    (hl : aux.length = nc * 3) (hs : nc * 3 ≤ 2 ^ 32 - 1)
    (h : markMerged nc b e (auxAt r input b e aux e) = some aux') : AllFound r input b e := by
  unfold markMerged at h
  have key := forRange_reach (fun _ (a : List Nat) => a.length = aux.length ∧
      ∀ x, x < nc → a[x]? = (auxAt r input b e aux e)[x]?) ⟨by simp [auxAt], fun _ _ => rfl⟩
    (by
      intro i a a' h1 h2 ⟨q1, q2⟩ hf
      simp only [Option.bind_eq_some_iff] at hf
      obtain ⟨_, _, _, _, hf⟩ := hf
      obtain ⟨_, rfl⟩ := setAt_some hf
      refine ⟨by simpa using q1, fun x hx => ?_⟩
      rw [List.getElem?_set, if_neg (by omega)]
      exact q2 x hx) h
  intro i hi hi'
  obtain ⟨s1, s2, ⟨q1, q2⟩, hf⟩ := key.2 i hi (by omega)
  simp only [Option.bind_eq_some_iff] at hf
  obtain ⟨j, hj, k, hk, _⟩ := hf
  rw [q2 i (by omega)] at hj
  unfold auxAt at hj
  rw [List.getElem?_mapIdx, List.getElem?_eq_getElem (by omega), Option.map_some, if_pos ⟨hi, hi'⟩] at hj
  cases hj
  have hlt := (List.getElem?_eq_some_iff.1 hk).1
  rcases nb_cases r input b e i hi hi' (by omega) with h | h
  · exact h
  · omega

theorem cluster_found {r t nc b e pe : Nat} {input copy : List (BvhNode F)} {aux : List Nat} (ht : 0 < t) (hbe : b ≤ e)
    (he : e ≤ nc) (hi : input.length = nc) (hl : aux.length = nc * 3) (hs : nc * 3 ≤ 2 ^ 32 - 1)
    {s : List (BvhNode F) × List Nat × Nat × Nat}
    (h : locbCluster r t nc input copy aux b e pe = some s) : AllFound r input b e := by
  unfold locbCluster at h
  rw [searchAll_spec r t ht input b e hbe (by omega) aux (by omega)] at h
  simp only [Option.bind_some, Option.bind_eq_some_iff] at h
  obtain ⟨a2, h2, _⟩ := h
  exact allFound_of_mark hbe he hl hs h2

section loop
variable {n : Nat} {sorted : List Nat} {boxes : List (Aabb F)} {r t : Nat}

/-- If the loop ends, it ends with a single cluster. -/
theorem loop_partial (hn : n ≤ 2 ^ 29) (ht : 0 < t) (fuel : Nat) :
    ∀ (nodes copy : List (BvhNode F)) (aux : List Nat) (b e pe : Nat) (tr : Nat → BTree F),
      LocInv n sorted boxes nodes copy aux b e pe tr → ∀ nodes',
      locbLoop r t (2 * n - 1) fuel nodes copy aux b e pe = some (some nodes') →
      ∃ copy' aux' pe' tr', LocInv n sorted boxes nodes' copy' aux' 0 1 pe' tr' := by
  induction fuel with
  | zero =>
    intro nodes copy aux b e pe tr I nodes' h
    unfold locbLoop at h
    split at h
    · cases h
    · cases h
      have := I.count
      obtain rfl : b = 0 := by omega
      obtain rfl : e = 1 := by omega
      exact ⟨_, _, _, _, I⟩
  | succ fuel ih =>
    intro nodes copy aux b e pe tr I nodes' h
    unfold locbLoop at h
    have := I.count
    split at h
    · simp only [Option.bind_eq_some_iff] at h
      obtain ⟨s, h1, h2⟩ := h
      have hf := cluster_found ht (by omega) (by have := I.le; have := I.peLe; omega) I.lenN I.lenA (by omega) h1
      obtain ⟨out, aux', e1, _, I'⟩ := round_spec I (by omega) r t ht (by omega) hf
      rw [e1] at h1
      cases h1
      exact ih _ _ _ _ _ _ _ I' nodes' h2
    · cases h
      obtain rfl : b = 0 := by omega
      obtain rfl : e = 1 := by omega
      exact ⟨_, _, _, _, I⟩

/-- If every round merges a pair, the loop ends. -/
theorem loop_total (hn : n ≤ 2 ^ 30) (ht : 0 < t)
    (progress : ∀ (nodes copy : List (BvhNode F)) (aux : List Nat) (b e pe : Nat) (tr : Nat → BTree F),
      LocInv n sorted boxes nodes copy aux b e pe tr → 0 < b → AllFound r nodes b e ∧ 0 < pairsOf r nodes b e)
    (fuel : Nat) :
    ∀ (nodes copy : List (BvhNode F)) (aux : List Nat) (b e pe : Nat) (tr : Nat → BTree F),
      LocInv n sorted boxes nodes copy aux b e pe tr → b ≤ fuel →
      ∃ nodes' copy' aux' pe' tr', locbLoop r t (2 * n - 1) fuel nodes copy aux b e pe = some (some nodes') ∧
        LocInv n sorted boxes nodes' copy' aux' 0 1 pe' tr' := by
  induction fuel with
  | zero =>
    intro nodes copy aux b e pe tr I hb
    have := I.count
    obtain rfl : b = 0 := by omega
    obtain rfl : e = 1 := by omega
    refine ⟨nodes, _, _, _, _, ?_, I⟩
    unfold locbLoop
    rw [if_neg (by omega)]
  | succ fuel ih =>
    intro nodes copy aux b e pe tr I hb
    have := I.count
    unfold locbLoop
    by_cases h : e - b > 1
    · obtain ⟨p1, p2⟩ := progress _ _ _ _ _ _ _ I (by omega)
      obtain ⟨out, aux', e1, hle, I'⟩ := round_spec I hn r t ht (by omega) p1
      rw [if_pos h, e1]
      simp only [Option.bind_some]
      exact ih _ _ _ _ _ _ _ I' (by omega)
    · rw [if_neg h]
      obtain rfl : b = 0 := by omega
      obtain rfl : e = 1 := by omega
      exact ⟨nodes, _, _, _, _, rfl, I⟩
end loop

theorem mergeOne_length {nc : Nat} {input : List (BvhNode F)} {aux : List Nat} {b ub chb i : Nat}
    {out out' : List (BvhNode F)} (h : mergeOne nc input aux b ub chb i out = some out') : out'.length = out.length := by
  unfold mergeOne at h
  simp only [Option.bind_eq_some_iff] at h
  obtain ⟨j, _, k, _, mi, _, ni, _, h⟩ := h
  split at h
  · split at h
    · simp only [Option.bind_eq_some_iff] at h
      obtain ⟨_, _, _, _, _, _, _, _, _, _, _, _, o1, h1, o2, h2, h3⟩ := h
      obtain ⟨_, rfl⟩ := setAt_some h1
      obtain ⟨_, rfl⟩ := setAt_some h2
      obtain ⟨_, rfl⟩ := setAt_some h3
      simp
    · cases h; rfl
  · simp only [Option.bind_eq_some_iff] at h
    obtain ⟨_, _, _, _, h1⟩ := h
    obtain ⟨_, rfl⟩ := setAt_some h1
    simp

/-- What a round can change about the sizes. -/
theorem cluster_sizes {r t nc b e pe : Nat} {input copy : List (BvhNode F)} {aux : List Nat} (ht : 0 < t) (hbe : b ≤ e)
    (he : e ≤ input.length) (ha : e ≤ aux.length)
    {out : List (BvhNode F)} {aux' : List Nat} {ub chb : Nat}
    (h : locbCluster r t nc input copy aux b e pe = some (out, aux', ub, chb)) :
    out.length = copy.length ∧ aux'.length = aux.length ∧ ub ≤ chb ∧ chb ≤ e := by
  unfold locbCluster at h
  rw [searchAll_spec r t ht input b e hbe he aux ha] at h
  simp only [Option.bind_some, Option.bind_eq_some_iff, Option.map_eq_some_iff, Prod.mk.injEq] at h
  obtain ⟨a2, h2, a3, h3, m, hm, u, hu, c, hc, ub', hub, o1, h4, o2, h5, rfl, rfl, rfl, rfl⟩ := h
  have l2 : a2.length = aux.length := by
    unfold markMerged at h2
    exact (forRange_reach (fun _ (a : List Nat) => a.length = aux.length) (by simp [auxAt]) (by
      intro i a a' _ _ q hf
      simp only [Option.bind_eq_some_iff] at hf
      obtain ⟨_, _, _, _, hf⟩ := hf
      obtain ⟨_, rfl⟩ := setAt_some hf
      simpa using q) h2).1
  have l3 : a3.length = a2.length := by
    unfold sumMerged at h3
    split at h3
    · rename_i hle
      simp only [Option.map_eq_some_iff] at h3
      obtain ⟨s, hs, rfl⟩ := h3
      have hlen : ((a2.drop (nc + b)).take (e - b)).length = e - b := by
        simp only [List.length_take, List.length_drop]; omega
      by_cases h0 : 0 < e - b
      · have key := (C53_prefix_sum ((a2.drop (nc + b)).take (e - b)) ((a2.drop (nc + b)).take (e - b)) (e - b) h0
          (by omega) (by omega)).2
        rw [key] at hs
        cases hs
        have : ∀ (s : Nat) (l : List Nat), (sums s l).length = l.length := by
          intro s l
          induction l generalizing s with
          | nil => rfl
          | cons a as ih => simp [sums, ih]
        simp only [List.length_append, this, List.length_take, List.length_drop]
        omega
      · have : e - b = 0 := by omega
        rw [this] at hs
        have h00 : (a2.drop (nc + b)).take 0 = [] := List.take_zero
        rw [h00] at hs
        simp [prefixSumAlias] at hs
    · cases h3
  obtain ⟨_, rfl⟩ := csub_some hu
  obtain ⟨_, rfl⟩ := csub_some hc
  obtain ⟨_, rfl⟩ := csub_some hub
  refine ⟨?_, by omega, by omega, by omega⟩
  have l4 : o1.length = copy.length := (forRange_reach (fun _ (o : List (BvhNode F)) => o.length = copy.length) rfl
    (by intro i o o' _ _ q hf; rw [mergeOne_length hf]; exact q) h4).1
  have l5 : o2.length = o1.length := (forRange_reach (fun _ (o : List (BvhNode F)) => o.length = o1.length) rfl
    (by
      intro i o o' _ _ q hf
      simp only [Option.bind_eq_some_iff] at hf
      obtain ⟨_, _, hf⟩ := hf
      obtain ⟨_, rfl⟩ := setAt_some hf
      simpa using q) h5).1
  omega

/-- The number of threads does not influence the loop. -/
theorem loop_threads {r t t' nc : Nat} (ht : 0 < t) (ht' : 0 < t') (fuel : Nat) :
    ∀ (nodes copy : List (BvhNode F)) (aux : List Nat) (b e pe : Nat), b ≤ e → e ≤ nodes.length → e ≤ copy.length →
      e ≤ aux.length →
      locbLoop r t nc fuel nodes copy aux b e pe = locbLoop r t' nc fuel nodes copy aux b e pe := by
  induction fuel with
  | zero => intros; rfl
  | succ fuel ih =>
    intro nodes copy aux b e pe h1 h2 h3 h4
    have e1 : locbCluster r t nc nodes copy aux b e pe = locbCluster r t' nc nodes copy aux b e pe := by
      unfold locbCluster
      rw [searchAll_spec r t ht nodes b e h1 h2 aux h4, searchAll_spec r t' ht' nodes b e h1 h2 aux h4]
    unfold locbLoop
    split
    · rw [e1]
      cases hs : locbCluster r t' nc nodes copy aux b e pe with
      | none => rfl
      | some s =>
        obtain ⟨out, aux', ub, chb⟩ := s
        obtain ⟨q1, q2, q3, q4⟩ := cluster_sizes ht' h1 h2 h4 hs
        simp only [Option.bind_some]
        exact ih _ _ _ _ _ _ q3 (by omega) (by omega) (by omega)
    · rfl

/-- More rounds do not change a finished result, or a panic. -/
theorem loop_fuel {r t nc : Nat} (fuel : Nat) : ∀ (nodes copy : List (BvhNode F)) (aux : List Nat) (b e pe : Nat),
    locbLoop r t nc fuel nodes copy aux b e pe ≠ some none → ∀ k,
    locbLoop r t nc (fuel + k) nodes copy aux b e pe = locbLoop r t nc fuel nodes copy aux b e pe := by
  induction fuel with
  | zero =>
    intro nodes copy aux b e pe h k
    unfold locbLoop at h
    split at h
    · exact absurd rfl h
    · rename_i hne
      cases k with
      | zero => rfl
      | succ k => rw [Nat.zero_add]; unfold locbLoop; rw [if_neg hne, if_neg hne]
  | succ fuel ih =>
    intro nodes copy aux b e pe h k
    rw [show fuel + 1 + k = (fuel + k) + 1 by omega]
    unfold locbLoop at h ⊢
    split at h
    · rename_i hgt
      rw [if_pos hgt, if_pos hgt]
      cases hs : locbCluster r t nc nodes copy aux b e pe with
      | none => rfl
      | some s =>
        rw [hs] at h
        simp only [Option.bind_some] at h ⊢
        exact ih _ _ _ _ _ _ h k
    · rename_i hne
      rw [if_neg hne, if_neg hne]

/-- The node array with all leaves in place. -/
theorem leaves_spec {aabbs : List (Aabb F)} {sorted : List Nat} {n : Nat} (hn : aabbs.length = n)
    (hp : sorted.Perm (List.range n)) (h1 : 1 ≤ n) (hs : n ≤ 2 ^ 30) (nodes : List (BvhNode F))
    (hl : nodes.length = 2 * n - 1) :
    ∃ leaves, forRange (fun i nodes => (sorted[i]?).bind fun p => (locbLeaf aabbs i p).bind fun nd =>
        setAt nodes (2 * n - 1 - n + i) nd) n 0 nodes = some leaves ∧ leaves.length = 2 * n - 1 ∧
      ∀ i < n, ∃ p bb nd, sorted[i]? = some p ∧ aabbs[p]? = some bb ∧ leaves[n - 1 + i]? = some nd ∧
        nd.bounds.extra1 = 1 ∧ nd.bounds.extra2 = (i : Int) ∧
        nd.bounds.clean = (bb.offsetBy (lit 1 (-4))).clean := by
  have hsl : sorted.length = n := by simpa using hp.length_eq
  obtain ⟨leaves, e1, q1, q2⟩ := forRange_inv (f := fun i nodes => (sorted[i]?).bind fun p =>
      (locbLeaf aabbs i p).bind fun nd => setAt nodes (2 * n - 1 - n + i) nd)
    (fun i (ns : List (BvhNode F)) => ns.length = 2 * n - 1 ∧ ∀ j < i, ∃ p bb nd, sorted[j]? = some p ∧
        aabbs[p]? = some bb ∧ ns[n - 1 + j]? = some nd ∧ nd.bounds.extra1 = 1 ∧ nd.bounds.extra2 = (j : Int) ∧
        nd.bounds.clean = (bb.offsetBy (lit 1 (-4))).clean)
    (k := n) (a := 0) (s := nodes) ⟨hl, fun j h => by omega⟩
    (by
      intro i ns _ hi ⟨q1, q2⟩
      have hi' : i < sorted.length := by omega
      have hpl : sorted[i] < aabbs.length := by
        have := hp.subset (List.getElem_mem hi')
        rw [List.mem_range] at this; omega
      let nd : BvhNode F :=
        (({ bounds := (aabbs[sorted[i]]).offsetBy (lit 1 (-4)) } : BvhNode F).setCount (some 1)).setLeftFirst (some i)
      refine ⟨ns.set (2 * n - 1 - n + i) nd, ?_, by simpa using q1, ?_⟩
      · simp only [List.getElem?_eq_getElem hi', Option.bind_some, locbLeaf, List.getElem?_eq_getElem hpl, Option.map_some]
        exact setAt_eq _ (by omega)
      · intro j hj
        by_cases hji : j = i
        · subst hji
          refine ⟨_, _, nd, List.getElem?_eq_getElem hi', List.getElem?_eq_getElem hpl, ?_, rfl, ?_, rfl⟩
          · rw [List.getElem?_set, if_pos (by omega), if_pos (by omega)]
          · show asI32 j = _
            exact asI32_lt (by omega)
        · obtain ⟨p, bb, nd, a1, a2, a3, a4⟩ := q2 j (by omega)
          refine ⟨p, bb, nd, a1, a2, ?_, a4⟩
          rw [List.getElem?_set, if_neg (by omega)]; exact a3)
  exact ⟨leaves, e1, q1, fun i hi => q2 i (by omega)⟩

/-- The loop starts in a good state. -/
theorem init_inv {aabbs : List (Aabb F)} {sorted : List Nat} {n : Nat} (hn : aabbs.length = n)
    (hp : sorted.Perm (List.range n)) (h1 : 1 ≤ n) (hs : n ≤ 2 ^ 30) (nodes : List (BvhNode F))
    (hl : nodes.length = 2 * n - 1) :
    ∃ leaves tr, forRange (fun i nodes => (sorted[i]?).bind fun p => (locbLeaf aabbs i p).bind fun nd =>
        setAt nodes (2 * n - 1 - n + i) nd) n 0 nodes = some leaves ∧
      LocInv n sorted aabbs leaves nodes (List.replicate ((2 * n - 1) * 3) (2 * n - 1)) (n - 1) (2 * n - 1) (2 * n - 1)
        tr ∧ (List.range n).map tr = startRow aabbs sorted := by
  obtain ⟨leaves, e1, q1, q2⟩ := leaves_spec hn hp h1 hs nodes hl
  refine ⟨leaves, fun k => .leaf (((leaves[n - 1 + k]?).getD BvhNode.new).bounds.clean) k 1, e1, ?_, ?_⟩
  constructor
  · exact q1
  · exact hl
  · simp
  · omega
  · omega
  · omega
  · intro x hx
    rw [List.getElem?_eq_none (by omega), List.getElem?_eq_none (by omega)]
  · intro k hk
    obtain ⟨p, bb, nd, a1, a2, a3, a4, a5, a6⟩ := q2 k (by omega)
    refine ⟨nd, a3, ?_⟩
    simp only [a3, Option.getD_some]
    exact .leaf a4 a5 (by omega)
  · intro k hk
    obtain ⟨p, bb, nd, a1, a2, a3, a4, a5, a6⟩ := q2 k (by omega)
    simp only [a3, Option.getD_some]
    exact ⟨rfl, p, bb, a1, a2, a6⟩
  · simp [BTree.size]; omega
  · rw [show n - 1 + 1 = n by omega]
    have : ∀ m, ∑ k ∈ Finset.range m, (([(k, 1)] : List (Nat × Nat)) : Multiset (Nat × Nat)) =
        ((List.range m).map fun i => (i, 1) : List (Nat × Nat)) := by
      intro m
      induction m with
      | zero => rfl
      | succ m ih =>
        rw [Finset.sum_range_succ, ih, List.range_succ, List.map_append]
        rfl
    exact this n
  · intro x nd hx hnd
    have := (List.getElem?_eq_some_iff.1 hnd).1
    omega
  · have hsl : sorted.length = n := by simpa using hp.length_eq
    apply List.ext_getElem?
    intro k
    unfold startRow
    rw [List.getElem?_map, List.getElem?_mapIdx]
    by_cases hk : k < n
    · obtain ⟨p, bb, nd, a1, a2, a3, a4, a5, a6⟩ := q2 k hk
      rw [List.getElem?_range hk, a1, Option.map_some, Option.map_some]
      simp only [a3, Option.getD_some, a6, padAt, boxAt, List.getD, a2]
    · rw [List.getElem?_eq_none (by simp; omega), List.getElem?_eq_none (by omega)]
      rfl

theorem ids_flatMap (idx : List Nat) (T : BTree F) :
    T.ids idx = T.ranges.flatMap fun p => BTree.rangeIds idx p.1 p.2 := by
  induction T with
  | leaf b f c => simp [BTree.ids, BTree.ranges]
  | node b l r i1 i2 => simp [BTree.ids, BTree.ranges, i1, i2]

theorem flatMap_singles (idx : List Nat) :
    ((List.range idx.length).map fun i => (i, 1)).flatMap (fun p => BTree.rangeIds idx p.1 p.2) = idx := by
  rw [List.flatMap_map]
  have : ∀ m ≤ idx.length, (List.range m).flatMap (fun i => BTree.rangeIds idx i 1) = idx.take m := by
    intro m
    induction m with
    | zero => intro _; rfl
    | succ m ih =>
      intro hm
      rw [List.range_succ, List.flatMap_append, ih (by omega), List.take_add_one, List.flatMap_cons, List.flatMap_nil,
        List.append_nil]
      congr 1
      unfold BTree.rangeIds
      rw [List.take_one, List.head?_drop]
  have h := this idx.length (Nat.le_refl _)
  rw [List.take_length] at h
  exact h

omit [FloatOps F] in
theorem two_depth_lt_size (T : BTree F) : 2 * T.depth + 1 ≤ T.size := by
  induction T with
  | leaf => simp [BTree.depth, BTree.size]
  | node _ l r h1 h2 =>
    have : ∀ T : BTree F, 1 ≤ T.size := by intro T; cases T <;> simp [BTree.size]
    have hl := this l
    have hr := this r
    simp only [BTree.depth, BTree.size]
    omega

/-- What the clustering builder returns for `n ≥ 3` primitives. -/
structure LocResult (n : Nat) (aabbs : List (Aabb F)) (sorted : List Nat) (bvh : Bvh F) (T : BTree F) : Prop where
  indices : bvh.primIndices = sorted
  perm : sorted.Perm (List.range n)
  nodes : bvh.nodes.length = 2 * n - 1
  unfolds : Unfolds bvh.nodes 0 T
  size : T.size = 2 * n - 1
  loc : LocTree sorted aabbs T
  ranges : T.ranges.Perm ((List.range n).map fun i => (i, 1))
  inRange : T.RangesIn sorted
  links : bvh.LinksOk

theorem result_of_inv {n : Nat} {sorted : List Nat} {aabbs : List (Aabb F)} {nodes copy : List (BvhNode F)}
    {aux : List Nat} {pe : Nat} {tr : Nat → BTree F} (hp : sorted.Perm (List.range n))
    (I : LocInv n sorted aabbs nodes copy aux 0 1 pe tr) :
    LocResult n aabbs sorted { nodes := nodes, primIndices := sorted, buildType := .locallyOrderedClustered } (tr 0) := by
  have hsl : sorted.length = n := by simpa using hp.length_eq
  obtain ⟨nd, h1, h2⟩ := I.dec 0 (Nat.le_refl _)
  have hsz := I.size
  have hr := I.ranges
  rw [Nat.zero_add, Finset.sum_range_one] at hsz hr
  refine ⟨rfl, hp, I.lenN, h2.unfolds 0 h1, by omega, I.loc 0 (Nat.le_refl _), Multiset.coe_eq_coe.1 hr, ?_, ?_⟩
  · rw [← hsl] at h2; exact h2.ranges
  · intro i nd' hi
    simp only [hsl, I.lenN]
    by_cases h0 : i = 0
    · subst h0
      simp only at hi
      rw [Nat.add_zero] at h1
      rw [h1] at hi
      cases hi
      have := h2.links (x := 0) (by omega)
      rwa [I.lenN] at this
    · exact I.links i nd' (by omega) hi

theorem sorted_of {aabbs : List (Aabb F)} {centers : List (Vec3 F)} (hl : centers.length = aabbs.length)
    (enc : MortonEncoder F) : ∃ sorted codes, enc.getSortedIndices aabbs centers = some (sorted, codes) ∧
      sorted.Perm (List.range aabbs.length) := by
  obtain ⟨ix, codes, h1, h2, h3, _⟩ := C17_sorted_indices enc aabbs centers hl.symm
  exact ⟨ix, codes, h1, by have := h3.perm; rwa [h2, List.length_map, hl] at this⟩

/-- Partial correctness of the build, whatever the float behaviour. -/
theorem locb_main {aabbs : List (Aabb F)} {centers : List (Vec3 F)} {t fuel : Nat} {bvh : Bvh F} (ht : 0 < t)
    (hl : centers.length = aabbs.length) (h3 : 3 ≤ aabbs.length) (hs : aabbs.length ≤ 2 ^ 29)
    (h : locbBuild t fuel aabbs centers = some (some bvh)) :
    ∃ sorted T, LocResult aabbs.length aabbs sorted bvh T := by
  unfold locbBuild at h
  simp only at h
  rw [if_neg (by
    rintro (h | h | h)
    · exact h hl
    · rw [h] at hl; simp at hl; omega
    · rw [h] at h3; simp at h3), if_neg (by omega)] at h
  obtain ⟨sorted, codes, e1, hp⟩ := sorted_of hl
    (MortonEncoder.new (Aabb.unionOfList aabbs) MortonEncoder.maxGridDim)
  rw [e1] at h
  simp only [Option.bind_some] at h
  obtain ⟨leaves, tr, e2, I, _⟩ := init_inv (n := aabbs.length) rfl hp (by omega) (by omega)
    (List.replicate (2 * aabbs.length - 1) ((({ bounds := Aabb.ofPoints2 (Vec3.splat zero) (Vec3.splat zero) }
      : BvhNode F).setCount none).setLeftFirst (some 0))) (by simp)
  rw [e2] at h
  simp only [Option.bind_some, Option.map_eq_some_iff] at h
  obtain ⟨o, h4, h5⟩ := h
  obtain ⟨nodes', rfl, rfl⟩ := h5
  rw [show 2 * aabbs.length - 1 - aabbs.length = aabbs.length - 1 by omega] at h4
  obtain ⟨copy', aux', pe', tr', I'⟩ := loop_partial hs ht fuel _ _ _ _ _ _ _ I _ h4
  exact ⟨sorted, _, result_of_inv hp I'⟩

/-- Total correctness of the build, given progress. -/
theorem locb_total {aabbs : List (Aabb F)} {centers : List (Vec3 F)} {t fuel : Nat} (ht : 0 < t)
    (hl : centers.length = aabbs.length) (h3 : 3 ≤ aabbs.length) (hs : aabbs.length ≤ 2 ^ 30)
    (hfuel : aabbs.length - 1 ≤ fuel)
    (progress : ∀ (sorted : List Nat) (nodes copy : List (BvhNode F)) (aux : List Nat) (b e pe : Nat)
      (tr : Nat → BTree F), LocInv aabbs.length sorted aabbs nodes copy aux b e pe tr → 0 < b →
      AllFound 14 nodes b e ∧ 0 < pairsOf 14 nodes b e) :
    ∃ bvh, locbBuild t fuel aabbs centers = some (some bvh) ∧
      ∃ sorted T, LocResult aabbs.length aabbs sorted bvh T := by
  unfold locbBuild
  simp only
  rw [if_neg (by
    rintro (h | h | h)
    · exact h hl
    · rw [h] at hl; simp at hl; omega
    · rw [h] at h3; simp at h3), if_neg (by omega)]
  obtain ⟨sorted, codes, e1, hp⟩ := sorted_of hl
    (MortonEncoder.new (Aabb.unionOfList aabbs) MortonEncoder.maxGridDim)
  rw [e1]
  simp only [Option.bind_some]
  obtain ⟨leaves, tr, e2, I, _⟩ := init_inv (n := aabbs.length) rfl hp (by omega) (by omega)
    (List.replicate (2 * aabbs.length - 1) ((({ bounds := Aabb.ofPoints2 (Vec3.splat zero) (Vec3.splat zero) }
      : BvhNode F).setCount none).setLeftFirst (some 0))) (by simp)
  rw [e2]
  simp only [Option.bind_some]
  rw [show 2 * aabbs.length - 1 - aabbs.length = aabbs.length - 1 by omega]
  obtain ⟨nodes', copy', aux', pe', tr', h4, I'⟩ := loop_total hs ht (progress sorted) fuel _ _ _ _ _ _ _ I hfuel
  refine ⟨_, by rw [h4]; rfl, sorted, _, result_of_inv hp I'⟩

end
end Rtbvh
