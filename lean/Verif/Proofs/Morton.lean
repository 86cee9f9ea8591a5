import Mathlib.Tactic.IntervalCases
import Mathlib.Tactic.NormNum
import Verif.Model.Morton
import Verif.Spec.Morton
/- Morton codes. -/
namespace Rtbvh

theorem mortonSplit_eq (x : BitVec 32) : mortonSplit x =
    let a := (x.setWidth 64 ||| x.setWidth 64 <<< 32) &&& 0xffff#64
    let b := (a ||| a <<< 16) &&& 0xff0000ff#64
    let c := (b ||| b <<< 8) &&& 0xf00f00f00f#64
    let d := (c ||| c <<< 4) &&& 0xc30c30c30c3#64
    let e := (d ||| d <<< 2) &&& 0x249249249249#64
    e.setWidth 32 := by
  have h : roundUpLog2 32 32 0 = 5 := by decide
  unfold mortonSplit
  rw [h]
  rfl

theorem mortonSplit_bit (x : BitVec 32) (i : Nat) (hi : i < 32) :
    (mortonSplit x).getLsbD i = (decide (i % 3 = 0) && x.getLsbD (i / 3)) := by
  rw [mortonSplit_eq]
  simp only [BitVec.getLsbD_setWidth, BitVec.getLsbD_and, BitVec.getLsbD_or, BitVec.getLsbD_shiftLeft]
  interval_cases i <;> simp

theorem spread_zero : spread 0 = 0 := by unfold spread; rfl
theorem spread_eq (n : Nat) : spread n = n % 2 + 8 * spread (n / 2) := by
  by_cases h : n = 0
  · subst h; rw [spread_zero]
  · conv => lhs; unfold spread
    rw [if_neg h]

theorem spread_lt {a b : Nat} (h : a < b) : spread a < spread b := by
  induction b using Nat.strong_induction_on generalizing a with
  | _ b ih =>
    rw [spread_eq a, spread_eq b]
    rcases Nat.lt_or_ge (a / 2) (b / 2) with h2 | h2
    · have := ih (b / 2) (by omega) h2
      omega
    · have : a / 2 = b / 2 := by omega
      rw [this]; omega

theorem spread_mono {a b : Nat} (h : a ≤ b) : spread a ≤ spread b := by
  rcases Nat.lt_or_eq_of_le h with h | rfl
  · exact Nat.le_of_lt (spread_lt h)
  · exact Nat.le_refl _

theorem spread_inj {a b : Nat} (h : spread a = spread b) : a = b := by
  rcases Nat.lt_trichotomy a b with h' | h' | h'
  · have := spread_lt h'; omega
  · exact h'
  · have := spread_lt h'; omega

theorem spread_lt_pow (k : Nat) {a : Nat} (h : a < 2 ^ k) : 7 * spread a < 8 ^ k := by
  induction k generalizing a with
  | zero => have : a = 0 := by simpa using h
            subst this; rw [spread_zero]; decide
  | succ k ih =>
    rw [spread_eq]
    have := ih (a := a / 2) (by rw [Nat.pow_succ] at h; omega)
    rw [Nat.pow_succ]; omega

/-- Interleaving of three numbers. -/
def inter (a b c : Nat) : Nat := spread a + 2 * spread b + 4 * spread c

theorem inter_eq (a b c : Nat) :
    inter a b c = a % 2 + 2 * (b % 2) + 4 * (c % 2) + 8 * inter (a / 2) (b / 2) (c / 2) := by
  unfold inter
  rw [spread_eq a, spread_eq b, spread_eq c]; omega

theorem testBit_inter (i a b c : Nat) : (inter a b c).testBit i =
    if i % 3 = 0 then a.testBit (i / 3) else if i % 3 = 1 then b.testBit (i / 3) else c.testBit (i / 3) := by
  induction i using Nat.strong_induction_on generalizing a b c with
  | _ i ih =>
    rw [inter_eq]
    rcases Nat.lt_or_ge i 3 with h | h
    · have h0 : i / 3 = 0 := by omega
      rw [h0]
      interval_cases i <;> simp only [Nat.testBit_eq_decide_div_mod_eq] <;> norm_num <;> omega
    · have e : i = (i - 3) + 3 := by omega
      rw [e, Nat.testBit_add]
      have e2 : (a % 2 + 2 * (b % 2) + 4 * (c % 2) + 8 * inter (a / 2) (b / 2) (c / 2)) / 2 ^ 3 =
        inter (a / 2) (b / 2) (c / 2) := by
        have : a % 2 + 2 * (b % 2) + 4 * (c % 2) < 8 := by omega
        omega
      rw [e2, ih _ (by omega), show (i - 3 + 3) % 3 = (i - 3) % 3 by omega, show (i - 3 + 3) / 3 = (i - 3) / 3 + 1 by omega]
      simp only [Nat.testBit_succ]

theorem spread_as_inter (a : Nat) : spread a = inter a 0 0 := by
  unfold inter; rw [spread_zero]; omega

theorem mortonSplit_toNat (x : BitVec 32) : (mortonSplit x).toNat = spread (x.toNat % 2048) := by
  apply Nat.eq_of_testBit_eq
  intro i
  rw [BitVec.testBit_toNat, spread_as_inter, testBit_inter]
  by_cases hi : i < 32
  · rw [mortonSplit_bit x i hi]
    by_cases h3 : i % 3 = 0
    · simp only [h3, decide_true, Bool.true_and, if_true]
      rw [show (2048 : Nat) = 2 ^ 11 by rfl, Nat.testBit_mod_two_pow, BitVec.testBit_toNat]
      rw [decide_eq_true (show i / 3 < 11 by omega)]; simp
    · simp [h3]
  · rw [BitVec.getLsbD_of_ge _ _ (by omega)]
    by_cases h3 : i % 3 = 0
    · rw [if_pos h3, show (2048 : Nat) = 2 ^ 11 by rfl, Nat.testBit_mod_two_pow,
        decide_eq_false (show ¬ i / 3 < 11 by omega)]; simp
    · simp [h3]

theorem mortonEncode_toNat {x y z : BitVec 32} (hx : x.toNat < 1024) (hy : y.toNat < 1024) (hz : z.toNat < 1024) :
    (mortonEncode x y z).toNat = inter x.toNat y.toNat z.toNat := by
  have bit : ∀ (v : BitVec 32), v.toNat < 1024 → ∀ k, 10 ≤ k → v.getLsbD k = false := by
    intro v hv k hk
    rw [← BitVec.testBit_toNat]
    exact Nat.testBit_lt_two_pow (Nat.lt_of_lt_of_le hv (by
      rw [show (1024 : Nat) = 2 ^ 10 by rfl]; exact Nat.pow_le_pow_right (by omega) hk))
  apply Nat.eq_of_testBit_eq
  intro i
  rw [BitVec.testBit_toNat, testBit_inter]
  unfold mortonEncode
  by_cases hi : i < 32
  · rw [BitVec.getLsbD_or, BitVec.getLsbD_or, BitVec.getLsbD_shiftLeft, BitVec.getLsbD_shiftLeft,
      mortonSplit_bit x i hi, mortonSplit_bit y (i - 1) (by omega), mortonSplit_bit z (i - 2) (by omega)]
    simp only [BitVec.testBit_toNat]
    have hm : i % 3 = 0 ∨ i % 3 = 1 ∨ i % 3 = 2 := by omega
    rcases hm with hm | hm | hm
    · rw [if_pos hm, hm]
      by_cases h0 : i = 0
      · subst h0; simp
      · rw [decide_eq_false (show ¬ (i - 1) % 3 = 0 by omega), decide_eq_false (p := (i - 2) % 3 = 0) (by omega)]
        simp
    · rw [if_neg (by omega), if_pos hm, hm]
      rw [decide_eq_true (show (i - 1) % 3 = 0 by omega), show (i - 1) / 3 = i / 3 by omega]
      by_cases h1 : i = 1
      · subst h1; simp
      · rw [decide_eq_false (p := (i - 2) % 3 = 0) (by omega), decide_eq_false (p := i < 1) (by omega)]
        simp [hi]
    · rw [if_neg (by omega), if_neg (by omega), hm]
      rw [decide_eq_false (p := (i - 1) % 3 = 0) (by omega), decide_eq_true (p := (i - 2) % 3 = 0) (by omega),
        decide_eq_false (p := i < 2) (by omega), show (i - 2) / 3 = i / 3 by omega]
      simp [hi]
  · rw [BitVec.getLsbD_of_ge _ _ (by omega)]
    simp only [BitVec.testBit_toNat]
    rw [bit x hx _ (by omega), bit y hy _ (by omega), bit z hz _ (by omega)]
    simp

theorem inter_inj {a b c a' b' c' : Nat} (h : inter a b c = inter a' b' c') : a = a' ∧ b = b' ∧ c = c' := by
  have key : ∀ i, (inter a b c).testBit i = (inter a' b' c').testBit i := fun i => by rw [h]
  refine ⟨?_, ?_, ?_⟩ <;> apply Nat.eq_of_testBit_eq <;> intro k
  · have := key (3 * k)
    rw [testBit_inter, testBit_inter] at this
    simpa [show 3 * k % 3 = 0 by omega] using this
  · have := key (3 * k + 1)
    rw [testBit_inter, testBit_inter] at this
    simpa [show (3 * k + 1) % 3 = 1 by omega, show (3 * k + 1) / 3 = k by omega] using this
  · have := key (3 * k + 2)
    rw [testBit_inter, testBit_inter] at this
    simpa [show (3 * k + 2) % 3 = 2 by omega, show (3 * k + 2) / 3 = k by omega] using this

end Rtbvh
