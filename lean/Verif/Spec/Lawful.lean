import Verif.Model.Float
/- Laws of floating-point numbers assumed by the rounding-aware theorems. -/
namespace Rtbvh
open FloatOps
variable {F : Type} [FloatOps F]

/-- `a` is a number, possibly infinite. -/
def Num (a : F) : Prop := FloatOps.isNaN a = false
/-- `a` is a finite number. -/
def Fin' (a : F) : Prop := (FloatOps.abs a <=. (maxFinite : F)) = true

/-- NaN-aware laws of a floating-point type: order, min/max, and monotone rounding of `+`, `-`, `*`.  Proved for exact
rationals and for the IEEE binary32 model. -/
class LawfulFloat (F : Type) [FloatOps F] : Prop where
  le_num : ∀ {a b : F}, (a <=. b) = true → Num a ∧ Num b
  le_refl : ∀ {a : F}, Num a → (a <=. a) = true
  le_trans : ∀ {a b c : F}, (a <=. b) = true → (b <=. c) = true → (a <=. c) = true
  le_total : ∀ {a b : F}, Num a → Num b → (a <=. b) = true ∨ (b <=. a) = true
  lt_iff : ∀ {a b : F}, (a <. b) = true ↔ Num a ∧ Num b ∧ (b <=. a) = false
  min_num : ∀ {a b : F}, Num a → Num b →
    (FloatOps.min a b = a ∧ (a <=. b) = true) ∨ (FloatOps.min a b = b ∧ (b <=. a) = true)
  min_nan_left : ∀ {a b : F}, FloatOps.isNaN a = true → FloatOps.min a b = b
  min_nan_right : ∀ {a b : F}, FloatOps.isNaN b = true → FloatOps.isNaN a = false → FloatOps.min a b = a
  max_num : ∀ {a b : F}, Num a → Num b →
    (FloatOps.max a b = a ∧ (b <=. a) = true) ∨ (FloatOps.max a b = b ∧ (a <=. b) = true)
  max_nan_left : ∀ {a b : F}, FloatOps.isNaN a = true → FloatOps.max a b = b
  max_nan_right : ∀ {a b : F}, FloatOps.isNaN b = true → FloatOps.isNaN a = false → FloatOps.max a b = a
  vmin_eq : ∀ a b : F, vmin a b = if (a <. b) = true then a else b
  vmax_eq : ∀ a b : F, vmax a b = if (b <. a) = true then a else b
  add_mono : ∀ {a b : F} (c : F), (a <=. b) = true → Num (a +. c) → Num (b +. c) → (a +. c <=. b +. c) = true
  add_mono2 : ∀ {a a' b b' : F}, (a <=. a') = true → (b <=. b') = true → Num (a +. b) → Num (a' +. b') →
    (a +. b <=. a' +. b') = true
  sub_mono : ∀ {a b : F} (c : F), (a <=. b) = true → Num (a -. c) → Num (b -. c) → (a -. c <=. b -. c) = true
  sub_le : ∀ {a d : F}, ((zero : F) <=. d) = true → Num (a -. d) → (a -. d <=. a) = true
  le_add : ∀ {a d : F}, ((zero : F) <=. d) = true → Num (a +. d) → (a <=. a +. d) = true
  add_le : ∀ {a d : F}, (d <=. (zero : F)) = true → Num (a +. d) → (a +. d <=. a) = true
  add_fin : ∀ {a d : F}, Num a → Fin' d → Num (a +. d)
  sub_fin : ∀ {a d : F}, Num a → Fin' d → Num (a -. d)
  mul_mono : ∀ {a b c : F}, ((zero : F) <=. c) = true → (a <=. b) = true → Num (a *. c) → Num (b *. c) →
    (a *. c <=. b *. c) = true
  mul_anti : ∀ {a b c : F}, (c <=. (zero : F)) = true → (a <=. b) = true → Num (a *. c) → Num (b *. c) →
    (b *. c <=. a *. c) = true
  mul_fin : ∀ {a c : F}, Num a → Fin' c → ((c <=. (zero : F)) = false ∨ ((zero : F) <=. c) = false) → Num (a *. c)
  mul_num : ∀ {a c : F}, Num (a *. c) → Num a ∧ Num c
  add_num : ∀ {a c : F}, Num (a +. c) → Num a ∧ Num c
  sub_num : ∀ {a c : F}, Num (a -. c) → Num a ∧ Num c
  recip_pos : ∀ {d : F}, ((zero : F) <. d) = true → ((zero : F) <=. one /. d) = true
  recip_neg : ∀ {d : F}, (d <. (zero : F)) = true → (one /. d <=. (zero : F)) = true
  lit_num : ∀ m e : Int, Num (lit m e : F)
  lit_nonneg : ∀ {m : Int} (e : Int), 0 ≤ m → ((zero : F) <=. lit m e) = true
  lit_fin : ∀ {m e : Int}, m.natAbs ≤ 10 → -100 ≤ e → e ≤ 34 → Fin' (lit m e : F)
  ofNat_num : ∀ n : Nat, Num (ofNat n : F)
  ofNat_nonneg : ∀ n : Nat, ((zero : F) <=. ofNat n) = true
  mul_nonneg : ∀ {a b : F}, ((zero : F) <=. a) = true → ((zero : F) <=. b) = true → Num (a *. b) →
    ((zero : F) <=. a *. b) = true
  toI32_mono : ∀ {a b : F}, (a <=. b) = true → toI32 a ≤ toI32 b
  add_comm : ∀ a b : F, a +. b = b +. a
  mul_comm : ∀ a b : F, a *. b = b *. a
  sub_anti : ∀ {a b : F} (c : F), (a <=. b) = true → Num (c -. a) → Num (c -. b) → (c -. b <=. c -. a) = true
  sub_nonneg : ∀ {a b : F}, Fin' a → (a <=. b) = true → ((zero : F) <=. b -. a) = true
  add_nonneg : ∀ {a b : F}, ((zero : F) <=. a) = true → ((zero : F) <=. b) = true → ((zero : F) <=. a +. b) = true
  fin_between : ∀ {a b c : F}, Fin' a → Fin' c → (a <=. b) = true → (b <=. c) = true → Fin' b
  fin_num : ∀ {a : F}, Fin' a → Num a
  mul_fin_fin : ∀ {a b : F}, Fin' a → Fin' b → Num (a *. b)

end Rtbvh
