import Verif.Model.Utils
/- Lemmas about `partition` (src/utils.rs). -/
namespace Rtbvh
variable {α : Type}

theorem swapAt_eq {l : List α} {i j : Nat} (hi : i < l.length) (hj : j < l.length) :
    swapAt l i j = some ((l.set i l[j]).set j l[i]) := by
  simp [swapAt, hi, hj]

theorem swap_perm {l : List α} {i j : Nat} (hi : i < l.length) (hj : j < l.length) :
    ((l.set i l[j]).set j l[i]).Perm l := List.set_set_perm hi hj

theorem partitionLoop_spec (check : α → Bool) (k : Nat) :
    ∀ (i count : Nat) (l : List α), i + k ≤ l.length → count ≤ i →
    (∀ j (h : j < l.length), j < count → check l[j] = true) →
    (∀ j (h : j < l.length), count ≤ j → j < i → check l[j] = false) →
    ∃ c l', partitionLoop check k i count l = some (c, l') ∧ l'.Perm l ∧ c ≤ i + k ∧
      (∀ j (h : j < l'.length), j < c → check l'[j] = true) ∧
      (∀ j (h : j < l'.length), c ≤ j → j < i + k → check l'[j] = false) := by
  induction k with
  | zero => intro i count l h1 h2 h3 h4; exact ⟨count, l, rfl, .refl _, by omega, h3, by simpa using h4⟩
  | succ k ih =>
    intro i count l h1 h2 h3 h4
    have hi : i < l.length := by omega
    have hc : count < l.length := by omega
    unfold partitionLoop
    rw [List.getElem?_eq_getElem hi]
    simp only
    by_cases hchk : check l[i] = true
    · rw [if_pos hchk, swapAt_eq hi hc]
      simp only
      obtain ⟨c, l', e, p, b, q1, q2⟩ := ih (i + 1) (count + 1) ((l.set i l[count]).set count l[i])
        (by simp; omega) (by omega)
        (by
          intro j hj hj2
          by_cases e : j = count
          · subst e; simp [hchk]
          · rw [List.getElem_set_ne (by omega), List.getElem_set_ne (by omega)]
            exact h3 j _ (by omega))
        (by
          intro j hj hj2 hj3
          rw [List.getElem_set_ne (by omega)]
          by_cases e : j = i
          · subst e; simp; exact h4 count hc (by omega) (by omega)
          · rw [List.getElem_set_ne (by omega)]; exact h4 j _ (by omega) (by omega))
      refine ⟨c, l', e, p.trans (swap_perm hi hc), by omega, q1, ?_⟩
      intro j hj a b; exact q2 j hj a (by omega)
    · rw [if_neg hchk]
      obtain ⟨c, l', e, p, b, q1, q2⟩ := ih (i + 1) count l (by omega) (by omega) h3
        (by
          intro j hj a b
          by_cases e : j = i
          · subst e; simpa using hchk
          · exact h4 j hj a (by omega))
      refine ⟨c, l', e, p, by omega, q1, ?_⟩
      intro j hj a b; exact q2 j hj a (by omega)

theorem partition_spec (check : α → Bool) (l : List α) :
    ∃ c l', partition l 0 l.length check = some (c, l') ∧ l'.Perm l ∧ c ≤ l.length ∧
      (∀ a ∈ l'.take c, check a = true) ∧ (∀ a ∈ l'.drop c, check a = false) := by
  obtain ⟨c, l', e, p, b, q1, q2⟩ := partitionLoop_spec check l.length 0 0 l (by simp) (by simp)
    (by intro j _ h; omega) (by intro j _ _ h; omega)
  have hl := p.length_eq
  refine ⟨c, l', by simpa [partition] using e, p, by simpa using b, ?_, ?_⟩
  · intro a ha
    obtain ⟨j, hj, rfl⟩ := List.mem_iff_getElem.1 ha
    simp at hj
    rw [List.getElem_take]; exact q1 j _ (by omega)
  · intro a ha
    obtain ⟨j, hj, rfl⟩ := List.mem_iff_getElem.1 ha
    simp at hj
    rw [List.getElem_drop]; exact q2 _ _ (by omega) (by omega)

theorem partition_unique {check : α → Bool} {l l' : List α} {c : Nat}
    (h : partition l 0 l.length check = some (c, l')) :
    l'.Perm l ∧ c ≤ l.length ∧ (∀ a ∈ l'.take c, check a = true) ∧ (∀ a ∈ l'.drop c, check a = false) ∧
      c = l.countP check := by
  obtain ⟨c₁, l₁, e, p, b, q1, q2⟩ := partition_spec check l
  rw [h] at e
  obtain ⟨rfl, rfl⟩ : c = c₁ ∧ l' = l₁ := by simpa using e
  refine ⟨p, b, q1, q2, ?_⟩
  rw [← p.countP_eq, ← List.take_append_drop c l', List.countP_append]
  rw [List.countP_eq_length.2 (by simpa using q1), List.countP_eq_zero.2 (by simpa using q2)]
  simp [p.length_eq]; omega

theorem partitionLoop_range (check : α → Bool) (k : Nat) :
    ∀ (i count : Nat) (l : List α), i + k ≤ l.length → count ≤ i →
    ∃ c l', partitionLoop check k i count l = some (c, l') ∧ l'.Perm l ∧ c ≤ i + k ∧
      l'.take c = l.take count ++ ((l.drop i).take k).filter check ∧ l'.drop (i + k) = l.drop (i + k) ∧
      c = count + ((l.drop i).take k).countP check := by
  induction k with
  | zero => intro i count l h1 h2; exact ⟨count, l, rfl, .refl _, by omega, by simp, by simp, by simp⟩
  | succ k ih =>
    intro i count l h1 h2
    have hi : i < l.length := by omega
    have hc : count < l.length := by omega
    unfold partitionLoop
    rw [List.getElem?_eq_getElem hi]
    have hd : (l.drop i).take (k + 1) = l[i] :: ((l.drop (i + 1)).take k) := by
      rw [List.drop_eq_getElem_cons hi, List.take_succ_cons]
    by_cases hchk : check l[i] = true
    · simp only
      rw [if_pos hchk, swapAt_eq hi hc]
      simp only
      obtain ⟨c, l', e, p, b, q1, q2, q3⟩ := ih (i + 1) (count + 1) ((l.set i l[count]).set count l[i])
        (by simp; omega) (by omega)
      have hdr : ∀ m, i < m → ((l.set i l[count]).set count l[i]).drop m = l.drop m := by
        intro m hm
        rw [List.drop_set_of_lt (by omega), List.drop_set_of_lt hm]
      have htk : ((l.set i l[count]).set count l[i]).take (count + 1) = l.take count ++ [l[i]] := by
        rw [List.take_add_one, List.take_set_of_le (Nat.le_refl _), List.take_set_of_le h2]
        simp [hc]
      refine ⟨c, l', e, p.trans (swap_perm hi hc), by omega, ?_, ?_, ?_⟩
      · rw [q1, htk, hdr _ (by omega), hd]; simp [hchk]
      · rw [show i + (k + 1) = i + 1 + k by omega, q2, hdr _ (by omega)]
      · rw [q3, hdr _ (by omega), hd]; simp [hchk]; omega
    · simp only
      rw [if_neg hchk]
      obtain ⟨c, l', e, p, b, q1, q2, q3⟩ := ih (i + 1) count l (by omega) (by omega)
      refine ⟨c, l', e, p, by omega, ?_, ?_, ?_⟩
      · rw [q1, hd]; simp [hchk]
      · rw [show i + (k + 1) = i + 1 + k by omega, q2]
      · rw [q3, hd]; simp [hchk]

theorem partitionLoop_past (check : α → Bool) (k : Nat) :
    ∀ (i count : Nat) (l : List α), count ≤ i → 0 < k → l.length < i + k → partitionLoop check k i count l = none := by
  induction k with
  | zero => intro i count l _ h; omega
  | succ k ih =>
    intro i count l hci _ h
    unfold partitionLoop
    by_cases hi : i < l.length
    · rw [List.getElem?_eq_getElem hi]
      simp only
      have hc : count < l.length := by omega
      by_cases hchk : check l[i] = true
      · rw [if_pos hchk, swapAt_eq hi hc]
        exact ih _ _ _ (by omega) (by omega) (by simp; omega)
      · rw [if_neg hchk]
        exact ih _ _ _ (by omega) (by omega) (by omega)
    · rw [List.getElem?_eq_none (by omega)]

end Rtbvh
