import Verif.Model.LocbPar
import Verif.Proofs.LocbMain
/- The order of the iterations of the parallel loops does not matter. -/
namespace Rtbvh
variable {F : Type}

theorem forOrder_range' {σ : Type} (f : Nat → σ → Option σ) (k a : Nat) (s : σ) :
    forOrder f (List.range' a k) s = forRange f k a s := by
  induction k generalizing a s with
  | zero => rfl
  | succ k ih =>
    rw [List.range'_succ]
    simp only [forOrder, forRange]
    congr 1
    funext s'
    exact ih _ _

/-- Iterations that commute may be executed in any order. -/
theorem forOrder_perm {σ : Type} {f : Nat → σ → Option σ} {I : σ → Prop} {l l' : List Nat} (hp : l.Perm l') :
    (∀ i ∈ l, ∀ s s', I s → f i s = some s' → I s') →
    (∀ i ∈ l, ∀ j ∈ l, i ≠ j → ∀ s, I s → (f i s).bind (f j) = (f j s).bind (f i)) →
    ∀ s, I s → forOrder f l s = forOrder f l' s := by
  induction hp with
  | nil => intros; rfl
  | cons x hp ih =>
    intro inv comm s hs
    simp only [forOrder]
    apply Option.bind_congr
    intro s' e
    exact ih (fun i hi => inv i (List.mem_cons_of_mem _ hi))
      (fun i hi j hj => comm i (List.mem_cons_of_mem _ hi) j (List.mem_cons_of_mem _ hj)) s' (inv x (by simp) s s' hs e)
  | swap x y l =>
    intro inv comm s hs
    simp only [forOrder]
    by_cases h : x = y
    · subst h; rfl
    · have := comm y (by simp) x (by simp) (Ne.symm h) s hs
      calc (f y s).bind (fun s => (f x s).bind (forOrder f l)) = ((f y s).bind (f x)).bind (forOrder f l) := by
            rw [Option.bind_assoc]
        _ = ((f x s).bind (f y)).bind (forOrder f l) := by rw [this]
        _ = _ := by rw [Option.bind_assoc]
  | trans h1 h2 ih1 ih2 =>
    intro inv comm s hs
    rw [ih1 inv comm s hs]
    exact ih2 (fun i hi => inv i (h1.mem_iff.2 hi)) (fun i hi j hj => comm i (h1.mem_iff.2 hi) j (h1.mem_iff.2 hj)) s hs

/-- Marking in any order. -/
theorem mark_order {nc b e : Nat} {order : List Nat} (ho : order.Perm (List.range' b (e - b))) (he : e ≤ nc)
    {aux : List Nat} (hl : nc + e ≤ aux.length)
    (hn : ∀ i, b ≤ i → i < e → ∀ j, aux[i]? = some j → j < nc ∨ aux.length ≤ j) :
    forOrder (markOne nc) order aux = markMerged nc b e aux := by
  unfold markMerged
  rw [← forOrder_range']
  have hm : ∀ i ∈ order, b ≤ i ∧ i < e := fun i hi => by
    have := ho.mem_iff.1 hi
    rw [List.mem_range'_1] at this
    omega
  refine forOrder_perm (I := fun a => a.length = aux.length ∧ ∀ x < nc, a[x]? = aux[x]?) ho ?_ ?_ aux
    ⟨rfl, fun _ _ => rfl⟩
  · intro i hi s s' ⟨q1, q2⟩ hf
    simp only [Option.bind_eq_some_iff] at hf
    obtain ⟨_, _, _, _, hf⟩ := hf
    obtain ⟨_, rfl⟩ := setAt_some hf
    refine ⟨by simpa using q1, fun x hx => ?_⟩
    rw [List.getElem?_set, if_neg (by omega)]
    exact q2 x hx
  · intro i hi j hj hij s ⟨q1, q2⟩
    -- what an iteration does
    have one : ∀ i, b ≤ i → i < e → (∀ a : List Nat, a.length = aux.length → (∀ x < nc, a[x]? = aux[x]?) → markOne nc i a = none) ∨
        ∃ v, ∀ a : List Nat, a.length = aux.length → (∀ x < nc, a[x]? = aux[x]?) →
          markOne nc i a = some (a.set (nc + i) v) := by
      intro i h1 h2
      have hi : i < aux.length := by omega
      obtain ⟨j, hj⟩ : ∃ j, aux[i]? = some j := ⟨_, List.getElem?_eq_getElem hi⟩
      rcases hn i h1 h2 j hj with h | h
      · obtain ⟨k, hk⟩ : ∃ k, aux[j]? = some k := ⟨_, List.getElem?_eq_getElem (by omega)⟩
        right
        refine ⟨if i < j ∧ k = i then 1 else 0, fun a g1 g2 => ?_⟩
        unfold markOne
        rw [g2 i (by omega), hj]
        simp only [Option.bind_some]
        rw [g2 j h, hk]
        simp only [Option.bind_some]
        exact setAt_eq _ (by omega)
      · left
        intro a g1 g2
        unfold markOne
        rw [g2 i (by omega), hj]
        simp only [Option.bind_some]
        rw [List.getElem?_eq_none (by omega)]
        rfl
    have keep : ∀ (a : List Nat) (i v : Nat), a.length = aux.length → (∀ x < nc, a[x]? = aux[x]?) →
        (a.set (nc + i) v).length = aux.length ∧ ∀ x < nc, (a.set (nc + i) v)[x]? = aux[x]? := by
      intro a i v g1 g2
      refine ⟨by simpa using g1, fun x hx => ?_⟩
      rw [List.getElem?_set, if_neg (by omega)]
      exact g2 x hx
    have hi' := hm i hi
    have hj' := hm j hj
    rcases one i hi'.1 hi'.2 with oi | ⟨vi, oi⟩ <;> rcases one j hj'.1 hj'.2 with oj | ⟨vj, oj⟩
    · rw [oi s q1 q2, oj s q1 q2]; rfl
    · rw [oi s q1 q2, oj s q1 q2]
      simp only [Option.bind_none, Option.bind_some]
      obtain ⟨k1, k2⟩ := keep s j vj q1 q2
      rw [oi _ k1 k2]
    · rw [oi s q1 q2, oj s q1 q2]
      simp only [Option.bind_none, Option.bind_some]
      obtain ⟨k1, k2⟩ := keep s i vi q1 q2
      rw [oj _ k1 k2]
    · rw [oi s q1 q2, oj s q1 q2]
      simp only [Option.bind_some]
      obtain ⟨k1, k2⟩ := keep s i vi q1 q2
      obtain ⟨k3, k4⟩ := keep s j vj q1 q2
      rw [oj _ k1 k2, oi _ k3 k4, List.set_comm _ _ (by omega)]

/-- Several writes. -/
def putAll {α : Type} (l : List α) (ws : List (Nat × α)) : List α := ws.foldl (fun l w => l.set w.1 w.2) l

theorem putAll_length {α : Type} (l : List α) (ws : List (Nat × α)) : (putAll l ws).length = l.length := by
  induction ws generalizing l with
  | nil => rfl
  | cons w ws ih => simpa [putAll] using ih (l.set w.1 w.2)

theorem putAll_set {α : Type} (l : List α) (ws : List (Nat × α)) (p : Nat) (v : α) (h : ∀ w ∈ ws, w.1 ≠ p) :
    putAll (l.set p v) ws = (putAll l ws).set p v := by
  induction ws generalizing l with
  | nil => rfl
  | cons w ws ih =>
    simp only [putAll, List.foldl_cons] at ih ⊢
    rw [List.set_comm _ _ (Ne.symm (h w (by simp)))]
    exact ih _ fun w hw => h w (by simp [hw])

theorem putAll_comm {α : Type} (l : List α) (ws us : List (Nat × α)) (h : ∀ w ∈ ws, ∀ u ∈ us, w.1 ≠ u.1) :
    putAll (putAll l ws) us = putAll (putAll l us) ws := by
  induction us generalizing l with
  | nil => rfl
  | cons u us ih =>
    simp only [putAll, List.foldl_cons] at ih ⊢
    rw [← putAll, ← putAll, ← putAll_set _ _ _ _ (fun w hw => h w hw u (by simp))]
    exact ih _ fun w hw u hu => h w hw u (by simp [hu])

section
variable {nc b e c : Nat} {N : Nat → Nat} [FloatOps F]

/-- The writes of one iteration of the merge loop. -/
def mergeWrites (cl : Nat → BvhNode F) (N : Nat → Nat) (ub chb k : Nat) : List (Nat × BvhNode F) :=
  if flag N k then [(ub + (N k - cnt (flag N) (N k)), parentOf cl N chb (N k)), (chb + 2 * cnt (flag N) k, cl k),
    (chb + 2 * cnt (flag N) k + 1, cl (N k))]
  else if N (N k) = k then [] else [(ub + (k - cnt (flag N) k), cl k)]

/-- Merging in any order. -/
theorem merge_order (hN : Partners c N) {aux : List Nat} {input output : List (BvhNode F)} {cl : Nat → BvhNode F}
    (hb : HasNb aux b c N) (hs : ∀ k < c, aux[nc + b + k]? = some (cnt (flag N) (k + 1)))
    (hcl : ∀ k < c, input[b + k]? = some (cl k))
    {ub chb : Nat} (hub : ub + (c - cnt (flag N) c) = chb) (hchb : chb + 2 * cnt (flag N) c = e)
    (hc : e = b + c) (ho : output.length = nc) (he : e ≤ nc) (hsmall : nc ≤ 2147483648)
    {order : List Nat} (hord : order.Perm (List.range' b (e - b))) :
    forOrder (mergeOne nc input aux b ub chb) order output =
      forRange (mergeOne nc input aux b ub chb) (e - b) b output := by
  subst hc
  have hcc := two_cnt_le hN
  have posU : ∀ k < c, flag N k = false → ub + (k - cnt (flag N) k) < chb := by
    intro k hk hf
    have := rank_lt hf hk; omega
  have posC : ∀ k < c, flag N k = true → chb + 2 * cnt (flag N) k + 1 < b + c := by
    intro k hk hf
    have := cnt_lt hf hk; omega
  have injU : ∀ j k, flag N j = false → flag N k = false → j ≠ k → j - cnt (flag N) j ≠ k - cnt (flag N) k := by
    intro j k hj hk hne
    rcases Nat.lt_or_gt_of_ne hne with h | h
    · have := rank_lt hj h; omega
    · have := rank_lt hk h; omega
  have injC : ∀ j k, flag N j = true → flag N k = true → j ≠ k → cnt (flag N) j ≠ cnt (flag N) k := by
    intro j k hj hk hne
    rcases Nat.lt_or_gt_of_ne hne with h | h
    · have := cnt_lt hj h; omega
    · have := cnt_lt hk h; omega
  have nf : ∀ k, N (N k) ≠ k → flag N k = false := by
    intro k h; rw [flag_false]; exact fun h' => h h'.2
  -- an iteration writes exactly its own slots
  have one : ∀ k < c, ∀ out : List (BvhNode F), out.length = nc →
      mergeOne nc input aux b ub chb (b + k) out = some (putAll out (mergeWrites cl N ub chb k)) := by
    intro k hk out q1
    have hNk := hN.lt k hk
    have hmi : aux[nc + (b + k)]? = some (cnt (flag N) (k + 1)) := by rw [← Nat.add_assoc]; exact hs k hk
    unfold mergeOne mergeWrites
    simp only [hb k hk, hb (N k) hNk, hmi, hcl k hk, Option.bind_some]
    have hle1 := cnt_le (flag N) k
    by_cases hm : N (N k) = k
    · rw [if_pos (by omega)]
      by_cases hlt : k < N k
      · have hf : flag N k = true := flag_true.2 ⟨hlt, hm⟩
        have hfj := flag_partner hf
        have hmj : aux[nc + (b + N k)]? = some (cnt (flag N) (N k)) := by
          rw [← Nat.add_assoc, hs (N k) hNk, cnt_succ_false hfj]
        have hle2 := cnt_le (flag N) (N k)
        have hp : ub + (b + N k) - b - cnt (flag N) (N k) = ub + (N k - cnt (flag N) (N k)) := by omega
        have p1 := posU (N k) hNk hfj
        have p2 := posC k hk hf
        have hpl : ub + (N k - cnt (flag N) (N k)) < out.length := by omega
        rw [if_pos (by omega), hf]
        simp only [hmj, Option.bind_some, csub_eq (show b ≤ ub + (b + N k) by omega),
          csub_eq (show cnt (flag N) (N k) ≤ ub + (b + N k) - b by omega), hp,
          List.getElem?_eq_getElem hpl, cnt_succ_true hf,
          csub_eq (show 1 ≤ cnt (flag N) k + 1 by omega), Nat.add_sub_cancel, hcl (N k) hNk, if_true]
        have hpar : (({ out[ub + (N k - cnt (flag N) (N k))] with bounds := (cl (N k)).bounds.unionOf (cl k).bounds }
            : BvhNode F).setCount none).setLeftFirst (some (chb + cnt (flag N) k * 2)) = parentOf cl N chb (N k) := by
          unfold BvhNode.setCount BvhNode.setLeftFirst parentOf
          simp only [hm]
          rw [asI32_lt (by omega), show chb + cnt (flag N) k * 2 = chb + 2 * cnt (flag N) k by omega]
        rw [hpar]
        simp only [setAt_eq _ hpl, Option.bind_some]
        rw [setAt_eq _ (by rw [List.length_set]; omega)]
        simp only [Option.bind_some]
        rw [setAt_eq _ (by rw [List.length_set, List.length_set]; omega)]
        rw [show chb + cnt (flag N) k * 2 = chb + 2 * cnt (flag N) k by omega]
        rfl
      · rw [if_neg (by omega)]
        have hf : flag N k = false := flag_false.2 (fun h => hlt h.1)
        rw [hf, if_neg (by simp), if_pos hm]
        rfl
    · have hf := nf k hm
      have p1 := posU k hk hf
      rw [if_neg (by omega), cnt_succ_false hf, csub_eq (by omega)]
      simp only [Option.bind_some]
      rw [csub_eq (by omega)]
      simp only [Option.bind_some]
      rw [show ub + (b + k) - b - cnt (flag N) k = ub + (k - cnt (flag N) k) by omega, setAt_eq _ (by omega), hf,
        if_neg (by simp), if_neg hm]
      rfl
  have apart : ∀ j < c, ∀ k < c, j ≠ k → ∀ w ∈ mergeWrites cl N ub chb j, ∀ u ∈ mergeWrites cl N ub chb k,
      w.1 ≠ u.1 := by
    -- positions of one iteration
    have shape : ∀ k < c, ∀ w ∈ mergeWrites cl N ub chb k,
        (∃ m < c, flag N m = false ∧ w.1 = ub + (m - cnt (flag N) m) ∧ (m = k ∧ N (N k) ≠ k ∨ flag N k = true ∧ m = N k)) ∨
        (flag N k = true ∧ (w.1 = chb + 2 * cnt (flag N) k ∨ w.1 = chb + 2 * cnt (flag N) k + 1)) := by
      intro k hk w hw
      unfold mergeWrites at hw
      split at hw
      · rename_i hf
        simp only [List.mem_cons, List.not_mem_nil, or_false] at hw
        rcases hw with rfl | rfl | rfl
        · exact .inl ⟨N k, hN.lt k hk, flag_partner hf, rfl, .inr ⟨hf, rfl⟩⟩
        · exact .inr ⟨hf, .inl rfl⟩
        · exact .inr ⟨hf, .inr rfl⟩
      · split at hw
        · simp at hw
        · rename_i hm
          simp only [List.mem_singleton] at hw
          subst hw
          exact .inl ⟨k, hk, nf k hm, rfl, .inl ⟨rfl, hm⟩⟩
    intro j hj k hk hjk w hw u hu
    rcases shape j hj w hw with ⟨m, hm, fm, ew, cm⟩ | ⟨fj, ew⟩ <;>
      rcases shape k hk u hu with ⟨m', hm', fm', eu, cm'⟩ | ⟨fk, eu⟩
    · have hne : m ≠ m' := by
        rintro rfl
        rcases cm with ⟨rfl, n1⟩ | ⟨f1, e1⟩ <;> rcases cm' with ⟨rfl, n2⟩ | ⟨f2, e2⟩
        · exact hjk rfl
        · exact n1 (by rw [e2, (flag_true.1 f2).2])
        · exact n2 (by rw [e1, (flag_true.1 f1).2])
        · exact hjk (by rw [← (flag_true.1 f1).2, ← e1, e2, (flag_true.1 f2).2])
      have := injU m m' fm fm' hne
      omega
    · have := posU m hm fm; omega
    · have := posU m' hm' fm'; omega
    · have := injC j k fj fk hjk; omega
  rw [← forOrder_range']
  have hmem : ∀ i ∈ order, ∃ k < c, i = b + k := fun i hi => by
    have := hord.mem_iff.1 hi
    rw [List.mem_range'_1] at this
    exact ⟨i - b, by omega, by omega⟩
  refine forOrder_perm (I := fun out => out.length = nc) hord ?_ ?_ output ho
  · intro i hi s s' q hf
    obtain ⟨k, hk, rfl⟩ := hmem i hi
    rw [one k hk s q] at hf
    cases hf
    rw [putAll_length]; exact q
  · intro i hi j hj hij s q
    obtain ⟨k, hk, rfl⟩ := hmem i hi
    obtain ⟨k', hk', rfl⟩ := hmem j hj
    rw [one k hk s q, one k' hk' s q]
    simp only [Option.bind_some]
    rw [one k' hk' _ (by rw [putAll_length]; exact q), one k hk _ (by rw [putAll_length]; exact q),
      putAll_comm _ _ _ (apart k hk k' hk' (by omega))]

/-- A round with parallel loops does the same as a sequential one. -/
theorem cluster_order {n : Nat} {sorted : List Nat} {boxes : List (Aabb F)} {nodes copy : List (BvhNode F)}
    {aux : List Nat} {b e pe : Nat} {tr : Nat → BTree F} (I : LocInv n sorted boxes nodes copy aux b e pe tr)
    (hn : n ≤ 2 ^ 29) (r t : Nat) (ht : 0 < t) (hb : 0 < b) (sh : Shuffle) (h1 : ∀ l, (sh.mark l).Perm l)
    (h2 : ∀ l, (sh.merge l).Perm l) :
    locbClusterPar sh r t (2 * n - 1) nodes copy aux b e pe = locbCluster r t (2 * n - 1) nodes copy aux b e pe := by
  have hcnt := I.count
  have hle := I.le
  have hpe := I.peLe
  have hA := I.lenA
  have s1 := searchAll_spec r t ht nodes b e (by omega) (by rw [I.lenN]; omega) aux (by rw [I.lenA]; omega)
  have hl1 : (auxAt r nodes b e aux e).length = aux.length := by simp [auxAt]
  unfold locbClusterPar locbCluster
  rw [s1]
  simp only [Option.bind_some]
  rw [mark_order (h1 _) (by omega) (by rw [hl1, hA]; omega) (fun i g1 g2 j hj => by
    unfold auxAt at hj
    rw [List.getElem?_mapIdx, List.getElem?_eq_getElem (by omega), Option.map_some, if_pos ⟨g1, g2⟩] at hj
    cases hj
    rcases nb_cases r nodes b e i g1 g2 (by omega) with h | h
    · left; omega
    · right; rw [hl1, hA]; omega)]
  cases hmark : markMerged (2 * n - 1) b e (auxAt r nodes b e aux e) with
  | none => rfl
  | some a2' =>
    have hnb := allFound_of_mark (by omega) (by omega) hA (by omega) hmark
    generalize hN' : (fun k => nbOf r nodes b e (b + k) - b) = N
    have hN'' : ∀ k, N k = nbOf r nodes b e (b + k) - b := fun k => by rw [← hN']
    have hN : Partners (e - b) N := by
      constructor
      · intro k hk
        have := hnb (b + k) (by omega) (by omega)
        rw [hN'' k]; omega
      · intro k hk
        have := hnb (b + k) (by omega) (by omega)
        rw [hN'' k]; omega
    have h2M := two_cnt_le hN
    generalize hMg : cnt (flag N) (e - b) = m at *
    have hnb1 : HasNb (auxAt r nodes b e aux e) b (e - b) N := by
      intro k hk
      have := hnb (b + k) (by omega) (by omega)
      unfold auxAt
      rw [List.getElem?_mapIdx, List.getElem?_eq_getElem (by rw [hA]; omega), Option.map_some, if_pos (by omega), hN'' k]
      congr 1; omega
    obtain ⟨a2, s2, hl2, hnb2, hf2⟩ := markMerged_spec (nc := 2 * n - 1) hN hnb1 (e := e) (by omega) (by omega)
      (by rw [hl1, hA]; omega)
    rw [hmark] at s2
    cases s2
    obtain ⟨a3, s3, hl3, hnb3, hf3⟩ := sumMerged_spec (nc := 2 * n - 1) (flag N) hnb2 (e := e) (by omega) (by omega)
      (by omega) (by rw [hl2, hl1, hA]; omega) hf2
    have hlast : a3[2 * n - 1 + (e - 1)]? = some m := by
      have := hf3 (e - b - 1) (by omega)
      rw [show e - b - 1 + 1 = e - b by omega, hMg] at this
      rw [← this]; congr 1; omega
    have hcl : ∀ k < e - b, nodes[b + k]? = some ((nodes[b + k]?).getD BvhNode.new) := by
      intro k hk
      obtain ⟨nd, h1, _⟩ := I.dec k (by omega)
      simp only [h1, Option.getD_some]
    simp only [Option.bind_some]
    rw [s3]; simp only [Option.bind_some, hlast]
    rw [csub_eq (by omega), csub_eq (by omega)]
    simp only [Option.bind_some]
    rw [csub_eq (by omega)]
    simp only [Option.bind_some]
    rw [show m * 2 = 2 * m by omega, show e - (2 * m + (e - b - m)) = b - m by omega]
    rw [merge_order (nc := 2 * n - 1) hN (output := copy) (ub := b - m)
      (chb := e - 2 * m) hnb3 hf3 hcl (e := e) (by rw [hMg]; omega) (by rw [hMg]; omega) (by omega) I.lenC (by omega)
      (by omega) (h2 _)]

theorem loop_order {n : Nat} {sorted : List Nat} {boxes : List (Aabb F)} (hn : n ≤ 2 ^ 29) (r t : Nat) (ht : 0 < t)
    (sh : Nat → Shuffle) (h1 : ∀ k l, ((sh k).mark l).Perm l) (h2 : ∀ k l, ((sh k).merge l).Perm l) (fuel : Nat) :
    ∀ (nodes copy : List (BvhNode F)) (aux : List Nat) (b e pe : Nat) (tr : Nat → BTree F),
      LocInv n sorted boxes nodes copy aux b e pe tr →
      locbLoopPar sh r t (2 * n - 1) fuel nodes copy aux b e pe = locbLoop r t (2 * n - 1) fuel nodes copy aux b e pe := by
  induction fuel with
  | zero => intros; rfl
  | succ fuel ih =>
    intro nodes copy aux b e pe tr I
    have := I.count
    unfold locbLoopPar locbLoop
    split
    · rw [cluster_order I hn r t ht (by omega) _ (h1 fuel) (h2 fuel)]
      apply Option.bind_congr
      intro s hs
      have hf := cluster_found ht (by omega) (by have := I.le; have := I.peLe; omega) I.lenN I.lenA (by omega) hs
      obtain ⟨out, aux', e1, _, I'⟩ := round_spec I (by omega) r t ht (by omega) hf
      rw [e1] at hs
      cases hs
      exact ih _ _ _ _ _ _ _ I'
    · rfl

theorem build_order {aabbs : List (Aabb F)} {centers : List (Vec3 F)} {t fuel : Nat} (ht : 0 < t)
    (hs : aabbs.length ≤ 2 ^ 29) (sh : Nat → Shuffle) (h1 : ∀ k l, ((sh k).mark l).Perm l)
    (h2 : ∀ k l, ((sh k).merge l).Perm l) :
    locbBuildPar sh t fuel aabbs centers = locbBuild t fuel aabbs centers := by
  unfold locbBuildPar locbBuild
  simp only
  split
  · rfl
  · rename_i hne
    split
    · rfl
    · rename_i h3
      have hl : centers.length = aabbs.length := by
        by_cases h : centers.length = aabbs.length
        · exact h
        · exact absurd (.inl h) hne
      obtain ⟨sorted, codes, e1, hp⟩ := sorted_of hl
        (MortonEncoder.new (Aabb.unionOfList aabbs) MortonEncoder.maxGridDim)
      rw [e1]
      simp only [Option.bind_some]
      obtain ⟨leaves, tr, e2, I, _⟩ := init_inv (n := aabbs.length) rfl hp (by omega) (by omega)
        (List.replicate (2 * aabbs.length - 1)
          ((({ bounds := Aabb.ofPoints2 (Vec3.splat FloatOps.zero) (Vec3.splat FloatOps.zero) } : BvhNode F).setCount
            none).setLeftFirst (some 0))) (by simp)
      rw [e2]
      simp only [Option.bind_some]
      rw [show 2 * aabbs.length - 1 - aabbs.length = aabbs.length - 1 by omega, loop_order hs 14 t ht sh h1 h2 fuel _ _ _ _ _ _ _ I]

end
end Rtbvh
