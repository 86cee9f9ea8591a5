import Verif.Model.Float
/-
Executable model of IEEE-754 binary32 (`f32`): signed zeros, subnormals, infinities, one NaN, round to nearest even.
A finite number is a sign and a multiple `k` of the smallest subnormal `2^-149`.  NaN payloads and signs are not
represented.
-/
namespace Rtbvh

/-- `2^128` in units of `2^-149`: where infinity begins. -/
def f32Top : Nat := 2 ^ 277

/-- `k * 2^-149` is a (non-negative, finite) `f32`: 24 significant bits, below `2^128`. -/
def rep (k : Nat) : Bool := k % 2 ^ (k.log2 - 23) == 0 && decide (k < f32Top)

/-- The rational `num / den` (in units of `2^-149`) rounded to 24 significant bits, ties to even; subnormals have a
fixed exponent, so the unit is never finer than 1. -/
def rnd (num den : Nat) : Nat :=
  let e := (num / den).log2 - 23
  let d := den * 2 ^ e
  let m := num / d
  let r := num % d
  (if d < 2 * r ∨ (2 * r = d ∧ m % 2 = 1) then m + 1 else m) * 2 ^ e

theorem log2_bounds {n : Nat} (h : n ≠ 0) : 2 ^ n.log2 ≤ n ∧ n < 2 ^ (n.log2 + 1) :=
  ⟨Nat.log2_self_le h, Nat.lt_log2_self⟩

theorem log2_eq {n k : Nat} (h1 : 2 ^ k ≤ n) (h2 : n < 2 ^ (k + 1)) : n.log2 = k := by
  have hn : n ≠ 0 := by have := Nat.two_pow_pos k; omega
  have h3 : k ≤ n.log2 := (Nat.le_log2 hn).2 h1
  have h4 : n.log2 < k + 1 := (Nat.log2_lt hn).2 h2
  omega

theorem log2_mono {a b : Nat} (h : a ≤ b) : a.log2 ≤ b.log2 := by
  by_cases ha : a = 0
  · subst ha; simp
  · exact (Nat.le_log2 (by omega)).2 (Nat.le_trans (Nat.log2_self_le ha) h)

/-- The mantissa before rounding has 24 bits as soon as the unit is above 1. -/
theorem mant_bounds (num den : Nat) :
    num / (den * 2 ^ ((num / den).log2 - 23)) < 2 ^ 24 ∧
    (0 < (num / den).log2 - 23 → 2 ^ 23 ≤ num / (den * 2 ^ ((num / den).log2 - 23))) := by
  rw [← Nat.div_div_eq_div_mul]
  generalize num / den = q
  by_cases hq : q = 0
  · subst hq; simp
  obtain ⟨h1, h2⟩ := log2_bounds hq
  constructor
  · rw [Nat.div_lt_iff_lt_mul (Nat.two_pow_pos _), ← Nat.pow_add]
    refine Nat.lt_of_lt_of_le h2 (Nat.pow_le_pow_right (by omega) (by omega))
  · intro he
    rw [Nat.le_div_iff_mul_le (Nat.two_pow_pos _), ← Nat.pow_add]
    rw [show 23 + (q.log2 - 23) = q.log2 by omega]
    exact h1

theorem rep_mul_pow {m e : Nat} (hm : m ≤ 2 ^ 24) (he : 0 < e → 2 ^ 23 ≤ m) (hlt : m * 2 ^ e < f32Top) :
    rep (m * 2 ^ e) = true := by
  unfold rep
  simp only [Bool.and_eq_true, beq_iff_eq, decide_eq_true_eq]
  refine ⟨?_, hlt⟩
  by_cases h24 : m = 2 ^ 24
  · subst h24
    rw [← Nat.pow_add, log2_eq (k := 24 + e) (Nat.le_refl _) (by rw [Nat.pow_lt_pow_iff_right (by omega)]; omega)]
    exact Nat.mod_eq_zero_of_dvd (Nat.pow_dvd_pow 2 (by omega))
  · have hm : m < 2 ^ 24 := by omega
    by_cases he0 : e = 0
    · subst he0
      simp only [Nat.pow_zero, Nat.mul_one]
      have : m.log2 - 23 = 0 := by
        by_cases h0 : m = 0
        · subst h0; simp
        · have := (Nat.log2_lt h0).2 hm; omega
      rw [this]; simp [Nat.mod_one]
    · have hge := he (by omega)
      have hl : (m * 2 ^ e).log2 = 23 + e := by
        apply log2_eq
        · rw [Nat.pow_add]; exact Nat.mul_le_mul_right _ hge
        · rw [show 23 + e + 1 = 24 + e by omega, Nat.pow_add]
          exact Nat.mul_lt_mul_of_pos_right hm (Nat.two_pow_pos _)
      rw [hl, show 23 + e - 23 = e by omega]
      exact Nat.mul_mod_left _ _

theorem rnd_rep {num den : Nat} (h : rnd num den < f32Top) : rep (rnd num den) = true := by
  unfold rnd at h ⊢
  obtain ⟨b1, b2⟩ := mant_bounds num den
  simp only at h ⊢
  split at h
  · rename_i hc; rw [if_pos hc]
    exact rep_mul_pow (by omega) (fun he => by have := b2 he; omega) h
  · rename_i hc; rw [if_neg hc]
    exact rep_mul_pow (by omega) b2 h

/-- `f32`. -/
inductive F32
  | nan
  | inf (neg : Bool)
  | fin (neg : Bool) (k : Nat) (h : rep k = true)
deriving DecidableEq

namespace F32

/-- Sign and magnitude `num / den` units of `2^-149`, rounded, overflowing to infinity. -/
def round (neg : Bool) (num den : Nat) : F32 :=
  if h : rnd num den < f32Top then .fin neg (rnd num den) (rnd_rep h) else .inf neg

/-- An exact integer number of units; `negZero` is the sign of a zero result. -/
def ofUnits (s : Int) (negZero : Bool) : F32 :=
  round (if s = 0 then negZero else decide (s < 0)) s.natAbs 1

/-- Signed number of units of a finite value, `± 2^277` for infinities (NaN: 0, never used). -/
def ord : F32 → Int
  | nan => 0
  | inf neg => if neg then -(f32Top : Int) else (f32Top : Int)
  | fin neg k _ => if neg then -(k : Int) else (k : Int)

/-- Is it NaN? -/
def isNaN : F32 → Bool
  | nan => true
  | _ => false

/-- Negation flips the sign bit. -/
def neg : F32 → F32
  | nan => nan
  | inf s => inf (!s)
  | fin s k h => fin (!s) k h

/-- Addition. -/
def add : F32 → F32 → F32
  | nan, _ => nan
  | _, nan => nan
  | inf s, inf s' => if s = s' then inf s else nan
  | inf s, fin _ _ _ => inf s
  | fin _ _ _, inf s => inf s
  | a@(fin s _ _), b@(fin s' _ _) => ofUnits (a.ord + b.ord) (s && s')

/-- Subtraction. -/
def sub (a b : F32) : F32 := add a b.neg

/-- Multiplication. -/
def mul : F32 → F32 → F32
  | nan, _ => nan
  | _, nan => nan
  | inf s, inf s' => inf (s != s')
  | inf s, fin s' k _ => if k = 0 then nan else inf (s != s')
  | fin s k _, inf s' => if k = 0 then nan else inf (s != s')
  | fin s k _, fin s' k' _ => round (s != s') (k * k') (2 ^ 149)

/-- Division. -/
def div : F32 → F32 → F32
  | nan, _ => nan
  | _, nan => nan
  | inf _, inf _ => nan
  | inf s, fin s' _ _ => inf (s != s')
  | fin s _ _, inf s' => round (s != s') 0 1
  | fin s k _, fin s' k' _ =>
    if k' = 0 then if k = 0 then nan else inf (s != s') else round (s != s') (k * 2 ^ 149) k'

/-- `a <= b`: false if one is NaN; the two zeros are equal. -/
def le (a b : F32) : Bool := !a.isNaN && !b.isNaN && decide (a.ord ≤ b.ord)
/-- `a < b`. -/
def lt (a b : F32) : Bool := !a.isNaN && !b.isNaN && decide (a.ord < b.ord)

/-- `f32::min`: a NaN operand is ignored. -/
def min (a b : F32) : F32 := if a.isNaN then b else if b.isNaN then a else if b.lt a then b else a
/-- `f32::max`: a NaN operand is ignored. -/
def max (a b : F32) : F32 := if a.isNaN then b else if b.isNaN then a else if a.lt b then b else a
/-- `minps`: `a < b ? a : b`. -/
def vmin (a b : F32) : F32 := if a.lt b then a else b
/-- `maxps`: `a > b ? a : b`. -/
def vmax (a b : F32) : F32 := if b.lt a then a else b

/-- `f32::abs`. -/
def abs : F32 → F32
  | nan => nan
  | inf _ => inf false
  | fin _ k h => fin false k h

/-- The decimal literal `m * 10^e`. -/
def lit (m e : Int) : F32 :=
  if e ≥ 0 then round (decide (m < 0)) (m.natAbs * 10 ^ e.toNat * 2 ^ 149) 1
  else round (decide (m < 0)) (m.natAbs * 2 ^ 149) (10 ^ (-e).toNat)

/-- Truncation to an integer. -/
def trunc : F32 → Int
  | nan => 0
  | inf s => if s then -(2 ^ 128) else 2 ^ 128
  | fin s k _ => if s then -((k / 2 ^ 149 : Nat) : Int) else ((k / 2 ^ 149 : Nat) : Int)

end F32

/-- The operations of `f32` as used in src/aabb.rs 74-400, src/ray.rs 63-235, src/builders/binned_sah.rs 80-282. -/
instance instFloatOpsF32 : FloatOps F32 where
  add := F32.add
  sub := F32.sub
  mul := F32.mul
  div := F32.div
  neg := F32.neg
  abs := F32.abs
  lt := F32.lt
  le := F32.le
  min := F32.min
  max := F32.max
  vmin := F32.vmin
  vmax := F32.vmax
  isNaN := F32.isNaN
  ofNat n := F32.round false (n * 2 ^ 149) 1
  lit := F32.lit
  maxFinite := F32.round false ((2 ^ 24 - 1) * 2 ^ 253) 1
  toNat a := Min.min a.trunc.toNat (2 ^ 64 - 1)
  toI32 a := Max.max (Min.min a.trunc 2147483647) (-2147483648)

end Rtbvh
