import Verif.Proofs.LocbSearch
import Verif.Props.Utils
import Mathlib.Data.Finset.Card
import Mathlib.Data.Finset.Image
/- Marking, prefix sum and merging of one clustering round. -/
namespace Rtbvh
variable {F : Type}

/-- Number of `k < n` with `G k`. -/
def cnt (G : Nat → Bool) : Nat → Nat
  | 0 => 0
  | k + 1 => cnt G k + if G k then 1 else 0

theorem cnt_succ_true {G : Nat → Bool} {k : Nat} (h : G k = true) : cnt G (k + 1) = cnt G k + 1 := by
  simp [cnt, h]
theorem cnt_succ_false {G : Nat → Bool} {k : Nat} (h : G k = false) : cnt G (k + 1) = cnt G k := by
  simp [cnt, h]
theorem cnt_le (G : Nat → Bool) (k : Nat) : cnt G k ≤ k := by
  induction k with
  | zero => simp [cnt]
  | succ k ih => simp only [cnt]; split <;> omega
theorem cnt_mono (G : Nat → Bool) {j k : Nat} (h : j ≤ k) : cnt G j ≤ cnt G k := by
  induction h with
  | refl => exact Nat.le_refl _
  | step _ ih => simp only [cnt]; split <;> omega
theorem cnt_lt {G : Nat → Bool} {j k : Nat} (hj : G j = true) (h : j < k) : cnt G j < cnt G k := by
  have := cnt_mono G (show j + 1 ≤ k from h)
  rw [cnt_succ_true hj] at this; omega
theorem cnt_diff (G : Nat → Bool) {j k : Nat} (h : j ≤ k) : cnt G k - cnt G j ≤ k - j := by
  induction h with
  | refl => omega
  | step hjk ih => have hjk : j ≤ _ := hjk; simp only [cnt]; split <;> omega
/-- Position among the elements without `G`. -/
theorem rank_lt {G : Nat → Bool} {j k : Nat} (hj : G j = false) (h : j < k) : j - cnt G j < k - cnt G k := by
  have h1 := cnt_diff G (show j + 1 ≤ k from h)
  rw [cnt_succ_false hj] at h1
  have h2 := cnt_le G j
  have h3 := cnt_le G k
  have h4 := cnt_mono G (show j ≤ k by omega)
  omega
theorem cnt_card (G : Nat → Bool) (n : Nat) : cnt G n = ((Finset.range n).filter fun k => G k = true).card := by
  induction n with
  | zero => simp [cnt]
  | succ n ih =>
    rw [cnt, ih, Finset.range_add_one, Finset.filter_insert]
    split
    · rw [Finset.card_insert_of_notMem (by simp)]
    · rfl

/-- A partner assignment on `c` clusters: in range, never oneself. -/
structure Partners (c : Nat) (N : Nat → Nat) : Prop where
  lt : ∀ k < c, N k < c
  ne : ∀ k < c, N k ≠ k

/-- The lower one of two clusters that chose each other. -/
def flag (N : Nat → Nat) (k : Nat) : Bool := decide (k < N k ∧ N (N k) = k)

theorem flag_true {N : Nat → Nat} {k : Nat} : flag N k = true ↔ k < N k ∧ N (N k) = k := by simp [flag]
theorem flag_false {N : Nat → Nat} {k : Nat} : flag N k = false ↔ ¬(k < N k ∧ N (N k) = k) := by simp [flag]
theorem flag_partner {N : Nat → Nat} {k : Nat} (h : flag N k = true) : flag N (N k) = false := by
  rw [flag_true] at h
  rw [flag_false, h.2]; omega

theorem two_cnt_le {c : Nat} {N : Nat → Nat} (h : Partners c N) : 2 * cnt (flag N) c ≤ c := by
  have h1 := cnt_card (flag N) c
  have h2 : ((Finset.range c).filter fun k => flag N k = true).card +
      ((Finset.range c).filter fun k => ¬ flag N k = true).card = c := by
    rw [Finset.card_filter_add_card_filter_not, Finset.card_range]
  have h3 : ((Finset.range c).filter fun k => flag N k = true).card ≤
      ((Finset.range c).filter fun k => ¬ flag N k = true).card := by
    apply Finset.card_le_card_of_injOn N
    · intro k hk
      simp only [Finset.coe_filter, Finset.mem_range, Set.mem_setOf_eq] at hk ⊢
      exact ⟨h.lt k hk.1, by rw [flag_partner hk.2]; simp⟩
    · intro j hj k hk he
      simp only [Finset.coe_filter, Finset.mem_range, Set.mem_setOf_eq, flag_true] at hj hk
      rw [← hj.2.2, he, hk.2.2]
  omega

section
variable {nc b e c : Nat} {N : Nat → Nat}

/-- The auxiliary data after the search: neighbours are stored. -/
def HasNb (aux : List Nat) (b c : Nat) (N : Nat → Nat) : Prop := ∀ k < c, aux[b + k]? = some (b + N k)

theorem markMerged_spec (hN : Partners c N) {aux : List Nat} (hb : HasNb aux b c N) (hc : e = b + c) (he : e ≤ nc)
    (hl : nc + e ≤ aux.length) :
    ∃ aux', markMerged nc b e aux = some aux' ∧ aux'.length = aux.length ∧ HasNb aux' b c N ∧
      ∀ k < c, aux'[nc + b + k]? = some (if flag N k then 1 else 0) := by
  subst hc
  obtain ⟨a, e1, h1, h2, h3⟩ := forRange_inv
    (f := fun i aux => (aux[i]?).bind fun j => (aux[j]?).bind fun k =>
      setAt aux (nc + i) (if i < j ∧ k = i then 1 else 0))
    (fun i a => a.length = aux.length ∧ HasNb a b c N ∧
      ∀ k, b + k < i → k < c → a[nc + b + k]? = some (if flag N k then 1 else 0))
    (k := b + c - b) (a := b) (s := aux) ⟨rfl, hb, fun k h => by omega⟩
    (by
      intro i a hi hi' ⟨q1, q2, q3⟩
      obtain ⟨k, rfl⟩ : ∃ k, i = b + k := ⟨i - b, by omega⟩
      have hk : k < c := by omega
      refine ⟨a.set (nc + (b + k)) (if flag N k then 1 else 0), ?_, by simpa using q1, ?_, ?_⟩
      · simp only [q2 k hk, Option.bind_some, q2 (N k) (hN.lt k hk)]
        rw [setAt_eq _ (by omega)]
        congr 2
        by_cases hf : flag N k = true
        · rw [if_pos hf, if_pos]
          rw [flag_true] at hf; omega
        · rw [if_neg hf, if_neg]
          intro hh
          apply hf
          rw [flag_true]; omega
      · intro k' hk'
        rw [List.getElem?_set, if_neg (by omega)]
        exact q2 k' hk'
      · intro k' g1 g2
        rw [List.getElem?_set]
        by_cases hkk : k' = k
        · subst hkk; rw [if_pos (by omega), if_pos (by omega)]
        · rw [if_neg (by omega)]
          exact q3 k' (by omega) g2)
  exact ⟨a, e1, h1, h2, fun k hk => h3 k (by omega) hk⟩

theorem sum_take_flags {l : List Nat} (G : Nat → Bool) {c : Nat}
    (h : ∀ k < c, l[k]? = some (if G k then 1 else 0)) (k : Nat) (hk : k ≤ c) : (l.take k).sum = cnt G k := by
  induction k with
  | zero => simp [cnt]
  | succ k ih =>
    have := h k (by omega)
    rw [List.take_add_one, this, List.sum_append, ih (by omega)]
    simp [cnt]

theorem sumMerged_spec (G : Nat → Bool) {aux : List Nat} (hb : HasNb aux b c N) (hc : e = b + c) (hc0 : 0 < c)
    (he : e ≤ nc) (hl : nc + e ≤ aux.length) (hf : ∀ k < c, aux[nc + b + k]? = some (if G k then 1 else 0)) :
    ∃ aux', sumMerged nc b e aux = some aux' ∧ aux'.length = aux.length ∧ HasNb aux' b c N ∧
      ∀ k < c, aux'[nc + b + k]? = some (cnt G (k + 1)) := by
  subst hc
  have hlen : ((aux.drop (nc + b)).take (b + c - b)).length = c := by
    simp only [List.length_take, List.length_drop]; omega
  have key := (C53_prefix_sum ((aux.drop (nc + b)).take (b + c - b)) ((aux.drop (nc + b)).take (b + c - b)) c hc0
    (by omega) (by omega)).2
  generalize hsl : (aux.drop (nc + b)).take (b + c - b) = sl at key hlen
  rw [List.take_of_length_le (by omega), List.drop_of_length_le (by omega), List.append_nil] at key
  have hs : (sums 0 sl).length = c := by
    have : ∀ (s : Nat) (l : List Nat), (sums s l).length = l.length := by
      intro s l
      induction l generalizing s with
      | nil => rfl
      | cons a as ih => simp [sums, ih]
    rw [this, hlen]
  refine ⟨aux.take (nc + b) ++ sums 0 sl ++ aux.drop (nc + (b + c)), ?_, ?_, ?_, ?_⟩
  · unfold sumMerged
    rw [if_pos hl]
    rw [hsl, show b + c - b = c by omega, key]; rfl
  · simp only [List.length_append, List.length_take, List.length_drop, hs]; omega
  · intro k hk
    rw [List.append_assoc, List.getElem?_append_left (by simp only [List.length_take]; omega), List.getElem?_take,
      if_pos (by omega)]
    exact hb k hk
  · intro k hk
    rw [List.append_assoc, List.getElem?_append_right (by simp only [List.length_take]; omega),
      List.getElem?_append_left (by rw [hs]; simp only [List.length_take]; omega)]
    have hmin : (aux.take (nc + b)).length = nc + b := by simp only [List.length_take]; omega
    rw [hmin, show nc + b + k - (nc + b) = k by omega, sums_get _ _ _ (by omega), Nat.zero_add,
      sum_take_flags G (c := c) _ (k + 1) (by omega)]
    intro k' hk'
    rw [← hsl, List.getElem?_take, if_pos (by omega), List.getElem?_drop]
    exact hf k' hk'

variable [FloatOps F]

/-- The node written for two merged clusters, `j` being the higher one. -/
def parentOf (cl : Nat → BvhNode F) (N : Nat → Nat) (chb j : Nat) : BvhNode F :=
  { bounds := { (cl j).bounds.unionOf (cl (N j)).bounds with
                extra1 := -1, extra2 := ((chb + 2 * cnt (flag N) (N j) : Nat) : Int) } }

theorem asI32_lt {x : Nat} (h : x < 2147483648) : asI32 x = (x : Int) := by
  unfold asI32
  rw [Nat.mod_eq_of_lt (by omega), if_pos h]

theorem csub_eq {x y : Nat} (h : y ≤ x) : csub x y = some (x - y) := by simp [csub, h]

theorem merge_spec (hN : Partners c N) {aux : List Nat} {input output : List (BvhNode F)} {cl : Nat → BvhNode F}
    (hb : HasNb aux b c N) (hs : ∀ k < c, aux[nc + b + k]? = some (cnt (flag N) (k + 1)))
    (hcl : ∀ k < c, input[b + k]? = some (cl k))
    {ub chb : Nat} (hub : ub + (c - cnt (flag N) c) = chb) (hchb : chb + 2 * cnt (flag N) c = e)
    (hc : e = b + c) (ho : output.length = nc) (he : e ≤ nc) (hsmall : nc ≤ 2147483648) :
    ∃ out, forRange (mergeOne nc input aux b ub chb) (e - b) b output = some out ∧ out.length = nc ∧
      (∀ x, e ≤ x → out[x]? = output[x]?) ∧
      (∀ k < c, flag N k = true →
        out[ub + (N k - cnt (flag N) (N k))]? = some (parentOf cl N chb (N k)) ∧
        out[chb + 2 * cnt (flag N) k]? = some (cl k) ∧ out[chb + 2 * cnt (flag N) k + 1]? = some (cl (N k))) ∧
      (∀ k < c, N (N k) ≠ k → out[ub + (k - cnt (flag N) k)]? = some (cl k)) := by
  subst hc
  have hcc := two_cnt_le hN
  -- positions
  have posU : ∀ k < c, flag N k = false → ub + (k - cnt (flag N) k) < chb := by
    intro k hk hf
    have := rank_lt hf hk; omega
  have posC : ∀ k < c, flag N k = true → chb + 2 * cnt (flag N) k + 1 < b + c := by
    intro k hk hf
    have := cnt_lt hf hk; omega
  have injU : ∀ j k, flag N j = false → flag N k = false → j ≠ k → j - cnt (flag N) j ≠ k - cnt (flag N) k := by
    intro j k hj hk hne
    rcases Nat.lt_or_gt_of_ne hne with h | h
    · have := rank_lt hj h; omega
    · have := rank_lt hk h; omega
  have injC : ∀ j k, flag N j = true → flag N k = true → j ≠ k → cnt (flag N) j ≠ cnt (flag N) k := by
    intro j k hj hk hne
    rcases Nat.lt_or_gt_of_ne hne with h | h
    · have := cnt_lt hj h; omega
    · have := cnt_lt hk h; omega
  have nf : ∀ k, N (N k) ≠ k → flag N k = false := by
    intro k h; rw [flag_false]; exact fun h' => h h'.2
  obtain ⟨out, e1, h1, h2, h3, h4⟩ := forRange_inv (f := mergeOne nc input aux b ub chb)
    (fun i out => out.length = nc ∧ (∀ x, b + c ≤ x → out[x]? = output[x]?) ∧
      (∀ k, b + k < i → k < c → flag N k = true →
        out[ub + (N k - cnt (flag N) (N k))]? = some (parentOf cl N chb (N k)) ∧
        out[chb + 2 * cnt (flag N) k]? = some (cl k) ∧ out[chb + 2 * cnt (flag N) k + 1]? = some (cl (N k))) ∧
      (∀ k, b + k < i → k < c → N (N k) ≠ k → out[ub + (k - cnt (flag N) k)]? = some (cl k)))
    (k := b + c - b) (a := b) (s := output) ⟨ho, fun _ _ => rfl, fun k h => by omega, fun k h => by omega⟩
    (by
      intro i out hi hi' ⟨q1, q2, q3, q4⟩
      obtain ⟨k, rfl⟩ : ∃ k, i = b + k := ⟨i - b, by omega⟩
      have hk : k < c := by omega
      have hNk := hN.lt k hk
      have hmi : aux[nc + (b + k)]? = some (cnt (flag N) (k + 1)) := by rw [← Nat.add_assoc]; exact hs k hk
      unfold mergeOne
      simp only [hb k hk, hb (N k) hNk, hmi, hcl k hk, Option.bind_some]
      have hle1 := cnt_le (flag N) k
      by_cases hm : N (N k) = k
      · rw [if_pos (by omega)]
        by_cases hlt : k < N k
        · -- a pair, seen from its lower member
          have hf : flag N k = true := flag_true.2 ⟨hlt, hm⟩
          have hfj := flag_partner hf
          have hmj : aux[nc + (b + N k)]? = some (cnt (flag N) (N k)) := by
            rw [← Nat.add_assoc, hs (N k) hNk, cnt_succ_false hfj]
          have hle2 := cnt_le (flag N) (N k)
          have hp : ub + (b + N k) - b - cnt (flag N) (N k) = ub + (N k - cnt (flag N) (N k)) := by omega
          have p1 := posU (N k) hNk hfj
          have p2 := posC k hk hf
          have hpl : ub + (N k - cnt (flag N) (N k)) < out.length := by omega
          rw [if_pos (by omega)]
          simp only [hmj, Option.bind_some, csub_eq (show b ≤ ub + (b + N k) by omega),
            csub_eq (show cnt (flag N) (N k) ≤ ub + (b + N k) - b by omega), hp,
            List.getElem?_eq_getElem hpl, cnt_succ_true hf,
            csub_eq (show 1 ≤ cnt (flag N) k + 1 by omega), Nat.add_sub_cancel, hcl (N k) hNk]
          have hpar : (({ out[ub + (N k - cnt (flag N) (N k))] with bounds := (cl (N k)).bounds.unionOf (cl k).bounds }
              : BvhNode F).setCount none).setLeftFirst (some (chb + cnt (flag N) k * 2)) = parentOf cl N chb (N k) := by
            unfold BvhNode.setCount BvhNode.setLeftFirst parentOf
            simp only [hm]
            rw [asI32_lt (by omega), show chb + cnt (flag N) k * 2 = chb + 2 * cnt (flag N) k by omega]
          rw [hpar]
          simp only [setAt_eq _ hpl, Option.bind_some]
          rw [setAt_eq _ (by rw [List.length_set]; omega)]
          simp only [Option.bind_some]
          rw [setAt_eq _ (by rw [List.length_set, List.length_set]; omega)]
          refine ⟨_, rfl, by simp only [List.length_set]; exact q1, ?_, ?_, ?_⟩
          · intro x hx
            rw [List.getElem?_set, if_neg (by omega), List.getElem?_set, if_neg (by omega), List.getElem?_set,
              if_neg (by omega)]
            exact q2 x hx
          · intro k' g1 g2 g3
            by_cases hkk : k' = k
            · subst hkk
              refine ⟨?_, ?_, ?_⟩
              · rw [List.getElem?_set, if_neg (by omega), List.getElem?_set, if_neg (by omega), List.getElem?_set,
                  if_pos rfl, if_pos hpl]
              · rw [List.getElem?_set, if_neg (by omega), List.getElem?_set, if_pos (by omega),
                  if_pos (by rw [List.length_set]; omega)]
              · rw [List.getElem?_set, if_pos (by omega), if_pos (by rw [List.length_set, List.length_set]; omega)]
            · have o := q3 k' (by omega) g2 g3
              have p3 := posU (N k') (hN.lt k' g2) (flag_partner g3)
              have p4 := posC k' g2 g3
              have i1 := injC k' k g3 hf hkk
              have i2 := injU (N k') (N k) (flag_partner g3) hfj (fun h => hkk (by
                rw [← (flag_true.1 g3).2, h, hm]))
              refine ⟨?_, ?_, ?_⟩
              · rw [List.getElem?_set, if_neg (by omega), List.getElem?_set, if_neg (by omega), List.getElem?_set,
                  if_neg (by omega)]
                exact o.1
              · rw [List.getElem?_set, if_neg (by omega), List.getElem?_set, if_neg (by omega), List.getElem?_set,
                  if_neg (by omega)]
                exact o.2.1
              · rw [List.getElem?_set, if_neg (by omega), List.getElem?_set, if_neg (by omega), List.getElem?_set,
                  if_neg (by omega)]
                exact o.2.2
          · intro k' g1 g2 g3
            have hkk : k' ≠ k := fun h => g3 (by rw [h]; exact hm)
            have o := q4 k' (by omega) g2 g3
            have p3 := posU k' g2 (nf k' g3)
            have i2 := injU k' (N k) (nf k' g3) hfj (fun h => g3 (by rw [h, hm]))
            rw [List.getElem?_set, if_neg (by omega), List.getElem?_set, if_neg (by omega), List.getElem?_set,
              if_neg (by omega)]
            exact o
        · -- the higher member of a pair: nothing happens
          rw [if_neg (by omega)]
          have hf : flag N k = false := flag_false.2 (fun h => hlt h.1)
          refine ⟨out, rfl, q1, q2, ?_, ?_⟩
          · intro k' g1 g2 g3
            by_cases hkk : k' = k
            · subst hkk; rw [hf] at g3; cases g3
            · exact q3 k' (by omega) g2 g3
          · intro k' g1 g2 g3
            by_cases hkk : k' = k
            · subst hkk; exact absurd hm g3
            · exact q4 k' (by omega) g2 g3
      · -- not paired: copied
        rw [if_neg (by omega)]
        have hf := nf k hm
        rw [cnt_succ_false hf]
        have hp : ub + (b + k) - b - cnt (flag N) k = ub + (k - cnt (flag N) k) := by omega
        have p1 := posU k hk hf
        have hpl : ub + (k - cnt (flag N) k) < out.length := by omega
        simp only [csub_eq (show b ≤ ub + (b + k) by omega), Option.bind_some,
          csub_eq (show cnt (flag N) k ≤ ub + (b + k) - b by omega), hp, setAt_eq _ hpl]
        refine ⟨_, rfl, by simp only [List.length_set]; exact q1, ?_, ?_, ?_⟩
        · intro x hx
          rw [List.getElem?_set, if_neg (by omega)]
          exact q2 x hx
        · intro k' g1 g2 g3
          have hkk : k' ≠ k := fun h => by rw [h, hf] at g3; cases g3
          have o := q3 k' (by omega) g2 g3
          have i2 := injU (N k') k (flag_partner g3) hf (fun h => hm (by
            rw [← h, (flag_true.1 g3).2]))
          have p4 := posC k' g2 g3
          refine ⟨?_, ?_, ?_⟩
          · rw [List.getElem?_set, if_neg (by omega)]; exact o.1
          · rw [List.getElem?_set, if_neg (by omega)]; exact o.2.1
          · rw [List.getElem?_set, if_neg (by omega)]; exact o.2.2
        · intro k' g1 g2 g3
          rw [List.getElem?_set]
          by_cases hkk : k' = k
          · subst hkk; rw [if_pos rfl, if_pos hpl]
          · have i2 := injU k' k (nf k' g3) hf hkk
            rw [if_neg (by omega)]
            exact q4 k' (by omega) g2 g3)
  exact ⟨out, e1, h1, h2, fun k hk => h3 k (by omega) hk, fun k hk => h4 k (by omega) hk⟩

theorem copy_spec {input output : List (BvhNode F)} {pe : Nat} (he : e ≤ pe) (hi : input.length = nc)
    (ho : output.length = nc) (hp : pe ≤ nc) :
    ∃ out, forRange (fun x out => (input[x]?).bind fun nd => setAt out x nd) (pe - e) e output = some out ∧
      out.length = nc ∧ ∀ x, out[x]? = if e ≤ x ∧ x < pe then input[x]? else output[x]? := by
  obtain ⟨out, e1, h1, h2⟩ := forRange_inv (f := fun x (out : List (BvhNode F)) => (input[x]?).bind fun nd => setAt out x nd)
    (fun i out => out.length = nc ∧ ∀ x, out[x]? = if e ≤ x ∧ x < i then input[x]? else output[x]?)
    (k := pe - e) (a := e) (s := output) ⟨ho, fun x => by rw [if_neg (by omega)]⟩
    (by
      intro i out g1 g2 ⟨q1, q2⟩
      have hil : i < input.length := by omega
      refine ⟨out.set i input[i], ?_, by simpa using q1, ?_⟩
      · simp only [List.getElem?_eq_getElem hil, Option.bind_some]
        exact setAt_eq _ (by omega)
      · intro x
        rw [List.getElem?_set]
        by_cases hx : i = x
        · subst hx
          rw [if_pos rfl, if_pos (by omega), if_pos (by omega), List.getElem?_eq_getElem hil]
        · rw [if_neg hx, q2]
          by_cases h : e ≤ x ∧ x < i
          · rw [if_pos h, if_pos (by omega)]
          · rw [if_neg h, if_neg (by omega)])
  refine ⟨out, e1, h1, fun x => ?_⟩
  rw [h2, show e + (pe - e) = pe by omega]

end
end Rtbvh
