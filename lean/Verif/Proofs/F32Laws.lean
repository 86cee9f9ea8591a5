import Verif.Model.F32
import Verif.Spec.Lawful
/- The binary32 model satisfies the laws of `LawfulFloat`. -/
namespace Rtbvh

theorem rnd_mono {n₁ n₂ d : Nat} (hd : 0 < d) (h : n₁ ≤ n₂) : rnd n₁ d ≤ rnd n₂ d := by
  obtain ⟨b1, c1⟩ := mant_bounds n₁ d
  obtain ⟨b2, c2⟩ := mant_bounds n₂ d
  have he : (n₁ / d).log2 - 23 ≤ (n₂ / d).log2 - 23 := by
    have := log2_mono (Nat.div_le_div_right (c := d) h); omega
  unfold rnd
  simp only
  generalize (n₁ / d).log2 - 23 = e₁ at *
  generalize (n₂ / d).log2 - 23 = e₂ at *
  by_cases heq : e₁ = e₂
  · subst heq
    apply Nat.mul_le_mul_right
    have hD : 0 < d * 2 ^ e₁ := Nat.mul_pos hd (Nat.two_pow_pos _)
    generalize d * 2 ^ e₁ = D at *
    have hm : n₁ / D ≤ n₂ / D := Nat.div_le_div_right h
    have q1 := Nat.div_add_mod n₁ D
    have q2 := Nat.div_add_mod n₂ D
    by_cases hlt : n₁ / D < n₂ / D
    · split <;> split <;> omega
    · have e : n₁ / D = n₂ / D := by omega
      rw [e] at q1 ⊢
      have hr : n₁ % D ≤ n₂ % D := by omega
      split <;> split <;> omega
  · have hlt : e₁ < e₂ := by omega
    have hge := c2 (by omega)
    refine Nat.le_trans (m := 2 ^ 24 * 2 ^ e₁) (Nat.mul_le_mul_right _ (by split <;> omega)) ?_
    refine Nat.le_trans (m := 2 ^ 23 * 2 ^ e₂) ?_ (Nat.mul_le_mul_right _ (by split <;> omega))
    rw [← Nat.pow_add, ← Nat.pow_add]
    exact Nat.pow_le_pow_right (by omega) (by omega)

theorem rnd_of_rep {k : Nat} (h : rep k = true) : rnd k 1 = k := by
  unfold rep at h
  simp only [Bool.and_eq_true, beq_iff_eq] at h
  unfold rnd
  simp only [Nat.div_one, Nat.one_mul, h.1, Nat.mul_zero]
  have := Nat.two_pow_pos (k.log2 - 23)
  rw [if_neg (by omega)]
  exact Nat.div_mul_cancel (Nat.dvd_of_mod_eq_zero h.1)

theorem rnd_zero (d : Nat) : rnd 0 d = 0 := by
  unfold rnd; simp

theorem f32Top_pos : 0 < f32Top := Nat.two_pow_pos _

/-- Every representable magnitude is at most the largest finite one. -/
theorem rep_le_max {k : Nat} (h : rep k = true) : k ≤ (2 ^ 24 - 1) * 2 ^ 253 := by
  unfold rep at h
  simp only [Bool.and_eq_true, beq_iff_eq, decide_eq_true_eq] at h
  obtain ⟨h1, h2⟩ := h
  have ht : f32Top = 2 ^ 24 * 2 ^ 253 := by unfold f32Top; rw [← Nat.pow_add]
  have hp : 2 ^ 276 = 2 ^ 23 * 2 ^ 253 := by rw [← Nat.pow_add]
  by_cases hk : k < 2 ^ 276
  · rw [hp] at hk
    exact Nat.le_trans (Nat.le_of_lt hk) (Nat.mul_le_mul_right _ (by decide))
  · have hl : k.log2 = 276 := log2_eq (by omega) (by rw [show 276 + 1 = 277 from rfl]; exact h2)
    rw [hl, show 276 - 23 = 253 from rfl] at h1
    obtain ⟨m, rfl⟩ := Nat.dvd_of_mod_eq_zero h1
    rw [ht, Nat.mul_comm] at h2
    have := Nat.lt_of_mul_lt_mul_right h2
    rw [Nat.mul_comm]
    exact Nat.mul_le_mul_right _ (by omega)

namespace F32

/-- Magnitude after rounding, clamped. -/
def mag (n d : Nat) : Nat := Min.min (rnd n d) f32Top

theorem mag_mono {n₁ n₂ d : Nat} (hd : 0 < d) (h : n₁ ≤ n₂) : mag n₁ d ≤ mag n₂ d := by
  have := rnd_mono hd h; unfold mag; omega

theorem ord_round (s : Bool) (n d : Nat) :
    (round s n d).ord = if s then -((mag n d : Nat) : Int) else ((mag n d : Nat) : Int) := by
  unfold round mag
  split
  · rename_i h; rw [Nat.min_eq_left (Nat.le_of_lt h)]; rfl
  · rename_i h; rw [Nat.min_eq_right (by omega)]; rfl

theorem isNaN_round (s : Bool) (n d : Nat) : (round s n d).isNaN = false := by
  unfold round; split <;> rfl

theorem mag_zero (d : Nat) : mag 0 d = 0 := by simp [mag, rnd_zero]

theorem mag_rep {k : Nat} (h : rep k = true) : mag k 1 = k := by
  have h2 := rep_le_max h
  unfold mag
  rw [rnd_of_rep h]
  unfold rep at h
  simp only [Bool.and_eq_true, decide_eq_true_eq] at h
  exact Nat.min_eq_left (Nat.le_of_lt h.2)

/-- Rounding of a signed number of units. -/
def smag (s : Int) : Int := if s < 0 then -((mag s.natAbs 1 : Nat) : Int) else ((mag s.natAbs 1 : Nat) : Int)

theorem ord_ofUnits (s : Int) (z : Bool) : (ofUnits s z).ord = smag s := by
  unfold ofUnits smag
  rw [ord_round]
  by_cases h0 : s = 0
  · subst h0; simp [mag_zero]
  · simp [h0]

theorem isNaN_ofUnits (s : Int) (z : Bool) : (ofUnits s z).isNaN = false := isNaN_round _ _ _

theorem smag_mono {a b : Int} (h : a ≤ b) : smag a ≤ smag b := by
  unfold smag
  split <;> split
  · have := mag_mono (d := 1) (by omega) (show b.natAbs ≤ a.natAbs by omega); omega
  · omega
  · omega
  · have := mag_mono (d := 1) (by omega) (show a.natAbs ≤ b.natAbs by omega); omega

theorem smag_bounds (a : Int) : -(f32Top : Int) ≤ smag a ∧ smag a ≤ (f32Top : Int) := by
  have : mag a.natAbs 1 ≤ f32Top := Nat.min_le_right _ _
  unfold smag; split <;> omega

theorem smag_ord_fin (s : Bool) (k : Nat) (h : rep k = true) : smag (fin s k h).ord = (fin s k h).ord := by
  unfold smag ord
  have := mag_rep h
  cases s
  · simp only [Bool.false_eq_true, if_false]; rw [if_neg (by omega), Int.natAbs_natCast, this]
  · simp only [if_true, Int.natAbs_neg, Int.natAbs_natCast, this]
    by_cases hk : k = 0
    · subst hk; simp
    · rw [if_pos (by omega)]

theorem ord_bounds (a : F32) : -(f32Top : Int) ≤ a.ord ∧ a.ord ≤ (f32Top : Int) := by
  have := f32Top_pos
  cases a with
  | nan => simp only [ord]; omega
  | inf s => cases s <;> simp only [ord] <;> simp <;> omega
  | fin s k h =>
    have : k < f32Top := by
      unfold rep at h; simp only [Bool.and_eq_true, decide_eq_true_eq] at h; exact h.2
    cases s <;> simp only [ord] <;> simp <;> omega

theorem le_iff {a b : F32} : a.le b = true ↔ a.isNaN = false ∧ b.isNaN = false ∧ a.ord ≤ b.ord := by
  simp [le, and_assoc]
theorem lt_iff' {a b : F32} : a.lt b = true ↔ a.isNaN = false ∧ b.isNaN = false ∧ a.ord < b.ord := by
  simp [lt, and_assoc]

theorem ord_neg (a : F32) : a.neg.ord = -a.ord := by
  cases a with
  | nan => rfl
  | inf s => cases s <;> simp [neg, ord]
  | fin s k h => cases s <;> simp [neg, ord]

theorem isNaN_neg (a : F32) : a.neg.isNaN = a.isNaN := by cases a <;> rfl

theorem fin_lt_top (k : Nat) (h : rep k = true) : k < f32Top := by
  unfold rep at h; simp only [Bool.and_eq_true, decide_eq_true_eq] at h; exact h.2

theorem ord_inf (s : Bool) : (inf s).ord = if s then -(f32Top : Int) else (f32Top : Int) := rfl

theorem le_add_core {a b c : F32} (h : a.ord ≤ b.ord) (ha : (a.add c).isNaN = false) (hb : (b.add c).isNaN = false) :
    (a.add c).ord ≤ (b.add c).ord := by
  cases c with
  | nan => cases a <;> simp [add, isNaN] at ha
  | inf sc =>
    cases a with
    | nan => simp [add, isNaN] at ha
    | inf sa =>
      cases b with
      | nan => simp [add, isNaN] at hb
      | inf sb =>
        simp only [add] at ha hb ⊢
        split at ha <;> split at hb <;> simp_all [isNaN]
      | fin sb kb hkb =>
        simp only [add] at ha ⊢
        split at ha <;> simp_all [isNaN]
    | fin sa ka hka =>
      cases b with
      | nan => simp [add, isNaN] at hb
      | inf sb =>
        simp only [add] at hb ⊢
        split at hb <;> simp_all [isNaN]
      | fin sb kb hkb => simp [add]
  | fin sc kc hkc =>
    cases a with
    | nan => simp [add, isNaN] at ha
    | inf sa =>
      cases b with
      | nan => simp [add, isNaN] at hb
      | inf sb => exact h
      | fin sb kb hkb =>
        simp only [add]
        have := ord_bounds (ofUnits ((fin sb kb hkb).ord + (fin sc kc hkc).ord) (sb && sc))
        have hlt := fin_lt_top kb hkb
        cases sa
        · exfalso; cases sb <;> simp [ord] at h <;> omega
        · rw [ord_inf]; simp only [if_true]; exact this.1
    | fin sa ka hka =>
      cases b with
      | nan => simp [add, isNaN] at hb
      | inf sb =>
        simp only [add]
        have := ord_bounds (ofUnits ((fin sa ka hka).ord + (fin sc kc hkc).ord) (sa && sc))
        have hlt := fin_lt_top ka hka
        cases sb
        · rw [ord_inf]; simp only [Bool.false_eq_true, if_false]; exact this.2
        · exfalso; cases sa <;> simp [ord] at h <;> omega
      | fin sb kb hkb =>
        simp only [add, ord_ofUnits]
        exact smag_mono (by omega)

theorem add_comm' (a b : F32) : a.add b = b.add a := by
  cases a <;> cases b <;> simp only [add]
  · split <;> simp_all [eq_comm]
  · rw [Int.add_comm, Bool.and_comm]

theorem le_add_core2 {a a' b b' : F32} (h : a.ord ≤ a'.ord) (h' : b.ord ≤ b'.ord) (na' : a'.isNaN = false)
    (nb : b.isNaN = false) (ha : (a.add b).isNaN = false) (hb : (a'.add b').isNaN = false) :
    (a.add b).ord ≤ (a'.add b').ord := by
  cases hn : (a'.add b).isNaN with
  | false =>
    refine Int.le_trans (le_add_core h ha hn) ?_
    rw [add_comm' a' b, add_comm' a' b']
    exact le_add_core h' (by rw [add_comm']; exact hn) (by rw [add_comm']; exact hb)
  | true =>
    have htop := f32Top_pos
    cases a' with
    | nan => simp [isNaN] at na'
    | fin s k hk =>
      cases b with
      | nan => simp [isNaN] at nb
      | inf _ => simp [add, isNaN] at hn
      | fin _ _ _ => simp [add, isNaN_ofUnits] at hn
    | inf s =>
      cases b with
      | nan => simp [isNaN] at nb
      | fin _ _ _ => simp [add, isNaN] at hn
      | inf t =>
        cases a with
        | nan => simp [add, isNaN] at ha
        | inf u =>
          simp only [add] at ha hn ⊢
          split at ha
          · rename_i e
            subst e
            split at hn
            · simp [isNaN] at hn
            · cases s <;> cases u <;> simp_all [ord] <;> first | omega | exact (ord_bounds _).1
          · simp [isNaN] at ha
        | fin u k hk =>
          have hlt := fin_lt_top k hk
          simp only [add] at ha hn ⊢
          split at hn
          · simp [isNaN] at hn
          · cases s <;> cases t <;> simp_all [ord]
            · exact (ord_bounds _).1
            · cases u <;> simp_all <;> omega

theorem add_ge {a d : F32} (hd : 0 ≤ d.ord) (hn : (a.add d).isNaN = false) : a.ord ≤ (a.add d).ord := by
  cases a with
  | nan => simp [add, isNaN] at hn
  | inf sa =>
    cases d with
    | nan => simp [add, isNaN] at hn
    | inf sd => simp only [add] at hn ⊢; split at hn <;> simp_all [isNaN]
    | fin sd kd hkd => simp [add]
  | fin sa ka hka =>
    cases d with
    | nan => simp [add, isNaN] at hn
    | inf sd =>
      simp only [add]
      cases sd
      · rw [ord_inf]; exact (ord_bounds _).2
      · have := f32Top_pos; simp [ord] at hd; omega
    | fin sd kd hkd =>
      simp only [add, ord_ofUnits]
      rw [← smag_ord_fin sa ka hka]
      apply smag_mono
      rw [smag_ord_fin sa ka hka]; omega

theorem add_le {a d : F32} (hd : d.ord ≤ 0) (hn : (a.add d).isNaN = false) : (a.add d).ord ≤ a.ord := by
  cases a with
  | nan => simp [add, isNaN] at hn
  | inf sa =>
    cases d with
    | nan => simp [add, isNaN] at hn
    | inf sd => simp only [add] at hn ⊢; split at hn <;> simp_all [isNaN]
    | fin sd kd hkd => simp [add]
  | fin sa ka hka =>
    cases d with
    | nan => simp [add, isNaN] at hn
    | inf sd =>
      simp only [add]
      cases sd
      · have := f32Top_pos; simp [ord] at hd; omega
      · rw [ord_inf]; exact (ord_bounds _).1
    | fin sd kd hkd =>
      simp only [add, ord_ofUnits]
      rw [← smag_ord_fin sa ka hka]
      apply smag_mono
      rw [smag_ord_fin sa ka hka]; omega

/-- Signed product of units. -/
theorem ord_mul_fin (s s' : Bool) (k k' : Nat) (h : rep k = true) (h' : rep k' = true) :
    ((fin s k h).mul (fin s' k' h')).ord =
      if s != s' then -((mag (k * k') (2 ^ 149) : Nat) : Int) else ((mag (k * k') (2 ^ 149) : Nat) : Int) := by
  simp only [mul, ord_round]

theorem mul_mono_core {a b c : F32} (hc : 0 ≤ c.ord) (h : a.ord ≤ b.ord) (ha : (a.mul c).isNaN = false)
    (hb : (b.mul c).isNaN = false) : (a.mul c).ord ≤ (b.mul c).ord := by
  have htop := f32Top_pos
  cases c with
  | nan => cases a <;> simp [mul, isNaN] at ha
  | inf sc =>
    cases sc with
    | true => simp [ord] at hc; omega
    | false =>
      have key : ∀ x : F32, (x.mul (inf false)).isNaN = false → x.ord ≠ 0 ∧
          (x.mul (inf false)).ord = if x.ord < 0 then -(f32Top : Int) else (f32Top : Int) := by
        intro x hx
        cases x with
        | nan => simp [mul, isNaN] at hx
        | inf s => cases s <;> simp [mul, ord] <;> omega
        | fin s k hk =>
          simp only [mul] at hx ⊢
          by_cases h0 : k = 0
          · rw [if_pos h0] at hx; simp [isNaN] at hx
          · rw [if_neg h0]
            cases s <;> simp [ord] <;> omega
      obtain ⟨na, ea⟩ := key a ha
      obtain ⟨nb, eb⟩ := key b hb
      rw [ea, eb]
      split <;> split <;> omega
  | fin sc kc hkc =>
    by_cases hz : kc = 0
    · subst hz
      have key : ∀ x : F32, (x.mul (fin sc 0 hkc)).isNaN = false → (x.mul (fin sc 0 hkc)).ord = 0 := by
        intro x hx
        cases x with
        | nan => simp [mul, isNaN] at hx
        | inf s => simp [mul, isNaN] at hx
        | fin s k hk => rw [ord_mul_fin]; simp [mag_zero]
      rw [key a ha, key b hb]; exact Int.le_refl _
    · have hs : sc = false := by
        cases sc with
        | false => rfl
        | true => simp [ord] at hc; omega
      subst hs
      have key : ∀ x : F32, (x.mul (fin false kc hkc)).isNaN = false →
          (∀ m : Nat, 0 ≤ x.ord → (m : Int) ≤ x.ord → mag (m * kc) (2 ^ 149) ≤ f32Top ∧
            ((mag (m * kc) (2 ^ 149) : Nat) : Int) ≤ (x.mul (fin false kc hkc)).ord) ∧ True := by
        intro x hx; refine ⟨fun m h0 hm => ⟨Nat.min_le_right _ _, ?_⟩, trivial⟩
        cases x with
        | nan => simp [mul, isNaN] at hx
        | inf s =>
          cases s with
          | true => simp [ord] at h0; omega
          | false =>
            simp only [mul, if_neg hz]
            have : mag (m * kc) (2 ^ 149) ≤ f32Top := Nat.min_le_right _ _
            simp [ord]; omega
        | fin s k hk =>
          rw [ord_mul_fin]
          cases s with
          | false =>
            simp only [ord, Bool.false_eq_true, if_false] at hm
            have : mag (m * kc) (2 ^ 149) ≤ mag (k * kc) (2 ^ 149) :=
              mag_mono (Nat.two_pow_pos _) (Nat.mul_le_mul_right _ (by omega))
            simp; omega
          | true =>
            simp only [ord, if_true] at hm h0
            have : m = 0 := by omega
            subst this
            have : k = 0 := by omega
            subst this
            simp [mag_zero]
      -- compare through the smaller operand's own product
      cases a with
      | nan => simp [mul, isNaN] at ha
      | inf sa =>
        cases sa with
        | true =>
          have e : ((inf true).mul (fin false kc hkc)).ord = -(f32Top : Int) := by
            simp [mul, if_neg hz, ord]
          rw [e]
          exact (ord_bounds (b.mul (fin false kc hkc))).1
        | false =>
          have hb' : b = inf false := by
            have := (ord_bounds b).2
            cases b with
            | nan => simp [mul, isNaN] at hb
            | inf sb => cases sb with
              | false => rfl
              | true => simp [ord] at h; omega
            | fin sb kb hkb => have := fin_lt_top kb hkb; cases sb <;> simp [ord] at h <;> omega
          rw [hb']; exact Int.le_refl _
      | fin sa ka hka =>
        cases sa with
        | false =>
          have h' : (ka : Int) ≤ b.ord := h
          have hb0 : 0 ≤ b.ord := by omega
          have := ((key b hb).1 ka hb0 h').2
          rw [ord_mul_fin]; simpa using this
        | true =>
          rw [ord_mul_fin]
          simp only [Bool.true_bne, Bool.not_false, if_true]
          -- upper bound of b
          cases b with
          | nan => simp [mul, isNaN] at hb
          | inf sb =>
            cases sb with
            | false =>
              simp only [mul, if_neg hz]
              have : mag (ka * kc) (2 ^ 149) ≤ f32Top := Nat.min_le_right _ _
              simp [ord]
            | true => have := fin_lt_top ka hka; simp [ord] at h; omega
          | fin sb kb hkb =>
            rw [ord_mul_fin]
            cases sb with
            | false => simp
            | true =>
              simp only [ord, if_true] at h
              have : mag (kb * kc) (2 ^ 149) ≤ mag (ka * kc) (2 ^ 149) :=
                mag_mono (Nat.two_pow_pos _) (Nat.mul_le_mul_right _ (by omega))
              simp; omega

theorem mul_neg (a c : F32) : a.mul c.neg = (a.mul c).neg := by
  cases a with
  | nan => rfl
  | inf s =>
    cases c with
    | nan => rfl
    | inf s' => cases s <;> cases s' <;> rfl
    | fin s' k h => simp only [mul, neg]; split <;> cases s <;> cases s' <;> rfl
  | fin s k h =>
    cases c with
    | nan => rfl
    | inf s' => simp only [mul, neg]; split <;> cases s <;> cases s' <;> rfl
    | fin s' k' h' =>
      simp only [mul, neg, round]
      split <;> cases s <;> cases s' <;> rfl

theorem neg_neg (a : F32) : a.neg.neg = a := by
  cases a <;> simp [neg]

theorem mul_anti_core {a b c : F32} (hc : c.ord ≤ 0) (h : a.ord ≤ b.ord) (ha : (a.mul c).isNaN = false)
    (hb : (b.mul c).isNaN = false) : (b.mul c).ord ≤ (a.mul c).ord := by
  have := mul_mono_core (a := a) (b := b) (c := c.neg) (by rw [ord_neg]; omega) h
    (by rw [mul_neg, isNaN_neg]; exact ha) (by rw [mul_neg, isNaN_neg]; exact hb)
  rw [mul_neg, mul_neg, ord_neg, ord_neg] at this
  omega

theorem lit_ord_nonneg {m : Int} (e : Int) (hm : 0 ≤ m) : 0 ≤ (lit m e).ord := by
  unfold lit
  have : decide (m < 0) = false := by simp; omega
  rw [this]
  split <;> rw [ord_round] <;> simp

theorem lit_isNaN (m e : Int) : (lit m e).isNaN = false := by
  unfold lit; split <;> exact isNaN_round _ _ _

theorem ord_zero : (lit 0 0).ord = 0 := by
  unfold lit; rw [if_pos (by omega), ord_round]; simp [mag_zero]

theorem max_eq : round false ((2 ^ 24 - 1) * 2 ^ 253) 1 = fin false ((2 ^ 24 - 1) * 2 ^ 253) (by decide) := by
  decide +kernel

theorem ord_abs (a : F32) : a.abs.ord = (a.ord.natAbs : Int) := by
  cases a with
  | nan => rfl
  | inf s => cases s <;> simp [abs, ord]
  | fin s k h => cases s <;> simp [abs, ord]

theorem isNaN_abs (a : F32) : a.abs.isNaN = a.isNaN := by cases a <;> rfl

/-- The finite numbers are exactly the `fin`s. -/
theorem finite_iff (a : F32) : a.abs.le (round false ((2 ^ 24 - 1) * 2 ^ 253) 1) = true ↔ ∃ s k h, a = fin s k h := by
  rw [max_eq, le_iff, isNaN_abs, ord_abs]
  cases a with
  | nan => simp [isNaN]
  | inf s =>
    simp only [isNaN, reduceCtorEq, exists_false, iff_false, true_and]
    intro h
    have : ((inf s).ord.natAbs : Int) = (f32Top : Int) := by cases s <;> simp [ord]
    rw [this] at h
    revert h
    simp only [ord]
    decide +kernel
  | fin s k h =>
    constructor
    · intro _; exact ⟨s, k, h, rfl⟩
    · intro _
      refine ⟨rfl, rfl, ?_⟩
      have := rep_le_max h
      have e : ((fin s k h).ord.natAbs : Int) = (k : Int) := by cases s <;> simp [ord]
      rw [e]
      exact Int.ofNat_le.2 this

end F32

theorem num_f32 {a : F32} : Num a ↔ a.isNaN = false := Iff.rfl
theorem fin_f32 {a : F32} : Fin' a ↔ ∃ s k h, a = F32.fin s k h := F32.finite_iff a

theorem rnd_lt_top {n d : Nat} (h : n / d < 2 ^ 276) : rnd n d < f32Top := by
  have h1 := (mant_bounds n d).1
  have hl : (n / d).log2 - 23 ≤ 252 := by
    by_cases h0 : n / d = 0
    · rw [h0]; simp
    · have := (Nat.log2_lt h0).2 h; omega
  unfold rnd
  simp only
  refine Nat.lt_of_le_of_lt (m := 2 ^ 24 * 2 ^ 252) ?_ (by unfold f32Top; decide +kernel)
  refine Nat.le_trans (Nat.mul_le_mul_right _ (m := 2 ^ 24) (by split <;> omega)) ?_
  exact Nat.mul_le_mul_left _ (Nat.pow_le_pow_right (by omega) hl)

theorem round_fin {s : Bool} {n d : Nat} (h : n / d < 2 ^ 276) : ∃ h', F32.round s n d = F32.fin s (rnd n d) h' := by
  unfold F32.round
  rw [dif_pos (rnd_lt_top h)]
  exact ⟨_, rfl⟩

theorem lit_fin_f32 {m e : Int} (hm : m.natAbs ≤ 10) (h2 : e ≤ 34) : Fin' (F32.lit m e) := by
  rw [fin_f32]
  unfold F32.lit
  split
  · have hb : m.natAbs * 10 ^ e.toNat * 2 ^ 149 / 1 < 2 ^ 276 := by
      rw [Nat.div_one]
      have h10 : 10 ^ e.toNat ≤ 10 ^ 34 := Nat.pow_le_pow_right (by omega) (by omega)
      refine Nat.lt_of_le_of_lt (Nat.mul_le_mul_right _ (Nat.mul_le_mul hm h10)) (by decide +kernel)
    obtain ⟨h', e'⟩ := round_fin (s := decide (m < 0)) hb
    exact ⟨_, _, h', e'⟩
  · have hb : m.natAbs * 2 ^ 149 / 10 ^ (-e).toNat < 2 ^ 276 := by
      refine Nat.lt_of_le_of_lt (Nat.div_le_self _ _) ?_
      exact Nat.lt_of_le_of_lt (Nat.mul_le_mul_right _ hm) (by decide +kernel)
    obtain ⟨h', e'⟩ := round_fin (s := decide (m < 0)) hb
    exact ⟨_, _, h', e'⟩

theorem add_isNaN_fin {a d : F32} (ha : a.isNaN = false) (hd : Fin' d) : (a.add d).isNaN = false := by
  obtain ⟨s, k, h, rfl⟩ := fin_f32.1 hd
  cases a with
  | nan => simp [F32.isNaN] at ha
  | inf s' => rfl
  | fin s' k' h' => exact F32.isNaN_ofUnits _ _

open F32 in
theorem num_of_add {a c : F32} (h : (a.add c).isNaN = false) : a.isNaN = false := by
  cases a <;> simp_all [F32.add, F32.isNaN]

theorem mul_num_f32 {a c : F32} (h : (a.mul c).isNaN = false) : a.isNaN = false ∧ c.isNaN = false := by
  cases a <;> cases c <;> simp_all [F32.mul, F32.isNaN]
theorem add_num_f32 {a c : F32} (h : (a.add c).isNaN = false) : a.isNaN = false ∧ c.isNaN = false := by
  cases a <;> cases c <;> simp_all [F32.add, F32.isNaN]

theorem one_f32 : ∃ h, F32.lit 1 0 = F32.fin false (2 ^ 149) h := ⟨by decide +kernel, by decide +kernel⟩

theorem recip_f32 (d : F32) (hd : d.isNaN = false) (h0 : d.ord ≠ 0) : (F32.div (F32.lit 1 0) d).isNaN = false ∧
    (0 < d.ord → 0 ≤ (F32.div (F32.lit 1 0) d).ord) ∧ (d.ord < 0 → (F32.div (F32.lit 1 0) d).ord ≤ 0) := by
  obtain ⟨h, e⟩ := one_f32
  rw [e]
  have := f32Top_pos
  cases d with
  | nan => simp [F32.isNaN] at hd
  | inf s =>
    refine ⟨F32.isNaN_round _ _ _, ?_, ?_⟩ <;> intro _ <;> simp only [F32.div] <;> rw [F32.ord_round] <;>
      simp [F32.mag_zero]
  | fin s k hk =>
    have hk0 : k ≠ 0 := by rintro rfl; apply h0; cases s <;> simp [F32.ord]
    simp only [F32.div, if_neg hk0]
    refine ⟨F32.isNaN_round _ _ _, ?_, ?_⟩ <;> intro hs <;> rw [F32.ord_round] <;> cases s <;> simp [F32.ord] at hs ⊢
    all_goals omega

theorem mul_ord_nonneg {a b : F32} (ha : 0 ≤ a.ord) (hb : 0 ≤ b.ord) (hn : (a.mul b).isNaN = false) :
    0 ≤ (a.mul b).ord := by
  have top := f32Top_pos
  cases a with
  | nan => simp [F32.mul, F32.isNaN] at hn
  | inf s =>
    have hs : s = false := by cases s with
      | false => rfl
      | true => simp [F32.ord] at ha; omega
    subst hs
    cases b with
    | nan => simp [F32.mul, F32.isNaN] at hn
    | inf s =>
      cases s
      · simp [F32.mul, F32.ord]
      · simp [F32.ord] at hb; omega
    | fin s k h =>
      by_cases hk : k = 0
      · simp [F32.mul, hk, F32.isNaN] at hn
      · cases s
        · simp [F32.mul, hk, F32.ord]
        · simp [F32.ord] at hb; omega
  | fin s k h =>
    cases b with
    | nan => simp [F32.mul, F32.isNaN] at hn
    | inf s' =>
      have hs : s' = false := by cases s' with
        | false => rfl
        | true => simp [F32.ord] at hb; omega
      subst hs
      by_cases hk : k = 0
      · simp [F32.mul, hk, F32.isNaN] at hn
      · cases s
        · simp [F32.mul, hk, F32.ord]
        · simp [F32.ord] at ha; omega
    | fin s' k' h' =>
      show 0 ≤ (F32.round (s != s') (k * k') (2 ^ 149)).ord
      rw [F32.ord_round]
      split
      · rename_i hs
        have : k * k' = 0 := by
          cases s <;> cases s' <;> simp at hs <;> simp [F32.ord] at ha hb <;> simp [*]
        rw [this, F32.mag_zero]; simp
      · omega

theorem trunc_mono {a b : F32} (ha : a.isNaN = false) (hb : b.isNaN = false) (h : a.ord ≤ b.ord) :
    a.trunc ≤ b.trunc := by
  have key : ∀ k, rep k = true → k / 2 ^ 149 < 2 ^ 128 := by
    intro k hk
    have := F32.fin_lt_top k hk
    unfold f32Top at this
    rw [Nat.div_lt_iff_lt_mul (Nat.two_pow_pos _), ← Nat.pow_add]; exact this
  have dv : ∀ {k k' : Nat}, k ≤ k' → k / 2 ^ 149 ≤ k' / 2 ^ 149 := fun h => Nat.div_le_div_right h
  cases a with
  | nan => simp [F32.isNaN] at ha
  | inf s =>
    cases b with
    | nan => simp [F32.isNaN] at hb
    | inf s' => 
      cases s <;> cases s' <;> simp [F32.ord, F32.trunc] at h ⊢
      have := f32Top_pos; omega
    | fin s' k' h' =>
      have l := F32.fin_lt_top k' h'
      have k1 := key k' h'
      cases s <;> cases s' <;> simp only [F32.ord, F32.trunc, if_true, if_false, Bool.false_eq_true] at h ⊢ <;> omega
  | fin s k hk =>
    have l := F32.fin_lt_top k hk
    have k1 := key k hk
    cases b with
    | nan => simp [F32.isNaN] at hb
    | inf s' =>
      cases s <;> cases s' <;> simp only [F32.ord, F32.trunc, if_true, if_false, Bool.false_eq_true] at h ⊢ <;> omega
    | fin s' k' h' =>
      have d1 := @dv k k'
      have d2 := @dv k' k
      cases s <;> cases s' <;> simp only [F32.ord, F32.trunc, if_true, if_false, Bool.false_eq_true] at h ⊢
      · have := d1 (by omega); omega
      · have a0 : k = 0 := by omega
        have b0 : k' = 0 := by omega
        subst a0 b0; simp
      · omega
      · have := d2 (by omega); omega

theorem add_comm_f32 (a b : F32) : a.add b = b.add a := by
  cases a with
  | nan => cases b <;> rfl
  | inf s =>
    cases b with
    | nan => rfl
    | inf s' => cases s <;> cases s' <;> rfl
    | fin => rfl
  | fin s k h =>
    cases b with
    | nan => rfl
    | inf s' => rfl
    | fin s' k' h' => simp only [F32.add]; rw [Int.add_comm, Bool.and_comm]

theorem mul_comm_f32 (a b : F32) : a.mul b = b.mul a := by
  have x : ∀ s s' : Bool, (s != s') = (s' != s) := by decide
  cases a with
  | nan => cases b <;> rfl
  | inf s =>
    cases b with
    | nan => rfl
    | inf s' => simp only [F32.mul]; rw [x]
    | fin s' k' h' => simp only [F32.mul]; rw [x]
  | fin s k h =>
    cases b with
    | nan => rfl
    | inf s' => simp only [F32.mul]; rw [x]
    | fin s' k' h' => simp only [F32.mul]; rw [x, Nat.mul_comm]

theorem smag_nonneg {x : Int} (h : 0 ≤ x) : 0 ≤ F32.smag x := by
  have := F32.smag_mono h
  have h0 : F32.smag 0 = 0 := by simp [F32.smag, F32.mag_zero]
  omega

theorem add_ord_nonneg {a b : F32} (ha : a.isNaN = false) (hb : b.isNaN = false) (h : 0 ≤ a.ord) (h' : 0 ≤ b.ord) :
    (a.add b).isNaN = false ∧ 0 ≤ (a.add b).ord := by
  have top := f32Top_pos
  have pos : ∀ s, 0 ≤ (F32.inf s).ord → s = false := by
    intro s h; cases s with
    | false => rfl
    | true => simp [F32.ord] at h; omega
  cases a with
  | nan => simp [F32.isNaN] at ha
  | inf s =>
    cases b with
    | nan => simp [F32.isNaN] at hb
    | inf s' => rw [pos s h, pos s' h']; exact ⟨rfl, by simp [F32.add, F32.ord]⟩
    | fin => exact ⟨rfl, h⟩
  | fin s k hk =>
    cases b with
    | nan => simp [F32.isNaN] at hb
    | inf s' => exact ⟨rfl, h'⟩
    | fin s' k' hk' =>
      refine ⟨F32.isNaN_ofUnits _ _, ?_⟩
      simp only [F32.add]
      rw [F32.ord_ofUnits]
      exact smag_nonneg (by omega)

theorem sub_ord_nonneg {a b : F32} (ha : Fin' a) (hb : b.isNaN = false) (h : a.ord ≤ b.ord) :
    (b.sub a).isNaN = false ∧ 0 ≤ (b.sub a).ord := by
  have top := f32Top_pos
  obtain ⟨s, k, hk, rfl⟩ := fin_f32.1 ha
  have hlt := F32.fin_lt_top k hk
  cases b with
  | nan => simp [F32.isNaN] at hb
  | inf s' =>
    refine ⟨rfl, ?_⟩
    cases s' with
    | false => simp [F32.sub, F32.neg, F32.add, F32.ord]
    | true => exfalso; cases s <;> simp [F32.ord] at h <;> omega
  | fin s' k' hk' =>
    refine ⟨F32.isNaN_ofUnits _ _, ?_⟩
    simp only [F32.sub, F32.neg, F32.add]
    rw [F32.ord_ofUnits]
    apply smag_nonneg
    have := F32.ord_neg (F32.fin s k hk)
    simp only [F32.neg] at this
    omega

instance instLawfulF32 : LawfulFloat F32 where
  add_comm := add_comm_f32
  mul_comm := mul_comm_f32
  sub_anti {a b} c h h1 h2 := by
    have h0 := F32.le_iff.1 h
    refine F32.le_iff.2 ⟨h2, h1, ?_⟩
    change (F32.add c b.neg).isNaN = false at h2
    change (F32.add c a.neg).isNaN = false at h1
    show (F32.add c b.neg).ord ≤ (F32.add c a.neg).ord
    rw [add_comm_f32] at h1 h2 ⊢
    rw [add_comm_f32 c a.neg]
    exact F32.le_add_core (by rw [F32.ord_neg, F32.ord_neg]; omega) h2 h1
  sub_nonneg {a b} ha h := by
    have h0 := F32.le_iff.1 h
    have := sub_ord_nonneg ha h0.2.1 h0.2.2
    refine F32.le_iff.2 ⟨F32.lit_isNaN 0 0, this.1, ?_⟩
    change (F32.lit 0 0).ord ≤ _
    rw [F32.ord_zero]; exact this.2
  add_nonneg {a b} ha hb := by
    have h1 := F32.le_iff.1 ha
    have h2 := F32.le_iff.1 hb
    change _ ∧ _ ∧ (F32.lit 0 0).ord ≤ _ at h1
    change _ ∧ _ ∧ (F32.lit 0 0).ord ≤ _ at h2
    rw [F32.ord_zero] at h1 h2
    have := add_ord_nonneg h1.2.1 h2.2.1 h1.2.2 h2.2.2
    refine F32.le_iff.2 ⟨F32.lit_isNaN 0 0, this.1, ?_⟩
    change (F32.lit 0 0).ord ≤ _
    rw [F32.ord_zero]; exact this.2
  fin_between {a b c} ha hc h h' := by
    obtain ⟨s, k, hk, rfl⟩ := fin_f32.1 ha
    obtain ⟨s', k', hk', rfl⟩ := fin_f32.1 hc
    have h := F32.le_iff.1 h
    have h' := F32.le_iff.1 h'
    have l1 := F32.fin_lt_top k hk
    have l2 := F32.fin_lt_top k' hk'
    cases b with
    | nan => simp [F32.isNaN] at h
    | inf t =>
      exfalso
      cases t <;> cases s <;> cases s' <;> simp [F32.ord] at h h' <;> omega
    | fin t k2 hk2 => exact fin_f32.2 ⟨_, _, _, rfl⟩
  fin_num {a} h := by obtain ⟨s, k, hk, rfl⟩ := fin_f32.1 h; rfl
  mul_fin_fin {a b} ha hb := by
    obtain ⟨s, k, hk, rfl⟩ := fin_f32.1 ha
    obtain ⟨s', k', hk', rfl⟩ := fin_f32.1 hb
    exact F32.isNaN_round _ _ _
  le_num h := ⟨(F32.le_iff.1 h).1, (F32.le_iff.1 h).2.1⟩
  le_refl h := F32.le_iff.2 ⟨h, h, Int.le_refl _⟩
  le_trans h h' :=
    F32.le_iff.2 ⟨(F32.le_iff.1 h).1, (F32.le_iff.1 h').2.1, Int.le_trans (F32.le_iff.1 h).2.2 (F32.le_iff.1 h').2.2⟩
  le_total {a b} ha hb := by
    rcases Int.le_total a.ord b.ord with h | h
    · exact .inl (F32.le_iff.2 ⟨ha, hb, h⟩)
    · exact .inr (F32.le_iff.2 ⟨hb, ha, h⟩)
  lt_iff {a b} := by
    show F32.lt a b = true ↔ _ ∧ _ ∧ F32.le b a = false
    rw [F32.lt_iff', num_f32, num_f32]
    constructor
    · rintro ⟨h1, h2, h3⟩; refine ⟨h1, h2, ?_⟩; rw [← Bool.not_eq_true, F32.le_iff]; rintro ⟨_, _, h⟩; omega
    · rintro ⟨h1, h2, h3⟩; refine ⟨h1, h2, ?_⟩
      rw [← Bool.not_eq_true, F32.le_iff] at h3
      exact Int.not_le.1 (fun h => h3 ⟨h2, h1, h⟩)
  min_num {a b} ha hb := by
    show (F32.min a b = a ∧ F32.le a b = true) ∨ (F32.min a b = b ∧ F32.le b a = true)
    rw [num_f32] at ha hb
    rw [F32.le_iff, F32.le_iff]
    unfold F32.min
    rw [ha, hb]
    by_cases h : b.lt a = true
    · rw [h]; have := (F32.lt_iff'.1 h).2.2; right; simp; omega
    · rw [F32.lt_iff'] at h
      have h' : ¬ b.lt a = true := by rwa [F32.lt_iff']
      left; simp [h']; exact Int.not_lt.1 (fun x => h ⟨hb, ha, x⟩)
  min_nan_left {a b} h := by show F32.min a b = b; unfold F32.min; rw [show a.isNaN = true from h]; rfl
  min_nan_right {a b} h h' := by
    show F32.min a b = a; unfold F32.min; rw [show b.isNaN = true from h, show a.isNaN = false from h']; rfl
  max_num {a b} ha hb := by
    show (F32.max a b = a ∧ F32.le b a = true) ∨ (F32.max a b = b ∧ F32.le a b = true)
    rw [num_f32] at ha hb
    rw [F32.le_iff, F32.le_iff]
    unfold F32.max
    rw [ha, hb]
    by_cases h : a.lt b = true
    · rw [h]; have := (F32.lt_iff'.1 h).2.2; right; simp; omega
    · rw [F32.lt_iff'] at h
      have h' : ¬ a.lt b = true := by rwa [F32.lt_iff']
      left; simp [h']; exact Int.not_lt.1 (fun x => h ⟨ha, hb, x⟩)
  max_nan_left {a b} h := by show F32.max a b = b; unfold F32.max; rw [show a.isNaN = true from h]; rfl
  max_nan_right {a b} h h' := by
    show F32.max a b = a; unfold F32.max; rw [show b.isNaN = true from h, show a.isNaN = false from h']; rfl
  vmin_eq _ _ := rfl
  vmax_eq _ _ := rfl
  add_mono c h h1 h2 := F32.le_iff.2 ⟨h1, h2, F32.le_add_core (F32.le_iff.1 h).2.2 h1 h2⟩
  add_mono2 h h' h1 h2 := F32.le_iff.2 ⟨h1, h2,
    F32.le_add_core2 (F32.le_iff.1 h).2.2 (F32.le_iff.1 h').2.2 (F32.le_iff.1 h).2.1 (F32.le_iff.1 h').1 h1 h2⟩
  sub_mono c h h1 h2 := F32.le_iff.2 ⟨h1, h2, F32.le_add_core (F32.le_iff.1 h).2.2 h1 h2⟩
  sub_le {a d} h h1 := by
    have h0 := (F32.le_iff.1 h).2.2
    change (F32.lit 0 0).ord ≤ _ at h0
    rw [F32.ord_zero] at h0
    exact F32.le_iff.2 ⟨h1, num_of_add h1, F32.add_le (d := d.neg) (by rw [F32.ord_neg]; omega) h1⟩
  le_add {a d} h h1 := by
    have h0 := (F32.le_iff.1 h).2.2
    change (F32.lit 0 0).ord ≤ _ at h0
    rw [F32.ord_zero] at h0
    exact F32.le_iff.2 ⟨num_of_add h1, h1, F32.add_ge h0 h1⟩
  add_le {a d} h h1 := by
    have h0 := (F32.le_iff.1 h).2.2
    change _ ≤ (F32.lit 0 0).ord at h0
    rw [F32.ord_zero] at h0
    exact F32.le_iff.2 ⟨h1, num_of_add h1, F32.add_le h0 h1⟩
  add_fin h h' := add_isNaN_fin h h'
  sub_fin {a d} h h' := by
    obtain ⟨s, k, hk, rfl⟩ := fin_f32.1 h'
    exact add_isNaN_fin h (fin_f32.2 ⟨!s, k, hk, rfl⟩)
  mul_mono {a b c} h h' h1 h2 := by
    have h0 := (F32.le_iff.1 h).2.2
    change (F32.lit 0 0).ord ≤ _ at h0
    rw [F32.ord_zero] at h0
    exact F32.le_iff.2 ⟨h1, h2, F32.mul_mono_core h0 (F32.le_iff.1 h').2.2 h1 h2⟩
  mul_anti {a b c} h h' h1 h2 := by
    have h0 := (F32.le_iff.1 h).2.2
    change _ ≤ (F32.lit 0 0).ord at h0
    rw [F32.ord_zero] at h0
    exact F32.le_iff.2 ⟨h2, h1, F32.mul_anti_core h0 (F32.le_iff.1 h').2.2 h1 h2⟩
  mul_fin {a c} ha hc h0 := by
    obtain ⟨s, k, hk, rfl⟩ := fin_f32.1 hc
    have hk0 : k ≠ 0 := by
      rintro rfl
      rcases h0 with h | h
      · change F32.le _ (F32.lit 0 0) = false at h
        rw [← Bool.not_eq_true, F32.le_iff, F32.ord_zero] at h
        exact h ⟨rfl, F32.lit_isNaN 0 0, by cases s <;> simp [F32.ord]⟩
      · change F32.le (F32.lit 0 0) _ = false at h
        rw [← Bool.not_eq_true, F32.le_iff, F32.ord_zero] at h
        exact h ⟨F32.lit_isNaN 0 0, rfl, by cases s <;> simp [F32.ord]⟩
    show (F32.mul a _).isNaN = false
    cases a with
    | nan => exact absurd ha (by simp [Num, FloatOps.isNaN, F32.isNaN])
    | inf s' => simp only [F32.mul, if_neg hk0, F32.isNaN]
    | fin s' k' h' => exact F32.isNaN_round _ _ _
  mul_num h := mul_num_f32 h
  add_num h := add_num_f32 h
  sub_num {a c} h := by
    have := add_num_f32 (c := c.neg) h
    exact ⟨this.1, by have := this.2; rwa [F32.isNaN_neg] at this⟩
  recip_pos {d} h := by
    have h := F32.lt_iff'.1 h
    change _ ∧ _ ∧ (F32.lit 0 0).ord < _ at h
    rw [F32.ord_zero] at h
    have r := recip_f32 d h.2.1 (by omega)
    refine F32.le_iff.2 ⟨F32.lit_isNaN 0 0, r.1, ?_⟩
    change (F32.lit 0 0).ord ≤ _
    rw [F32.ord_zero]
    exact r.2.1 h.2.2
  recip_neg {d} h := by
    have h := F32.lt_iff'.1 h
    change _ ∧ _ ∧ _ < (F32.lit 0 0).ord at h
    rw [F32.ord_zero] at h
    have r := recip_f32 d h.1 (by omega)
    refine F32.le_iff.2 ⟨r.1, F32.lit_isNaN 0 0, ?_⟩
    change _ ≤ (F32.lit 0 0).ord
    rw [F32.ord_zero]
    exact r.2.2 h.2.2
  lit_num m e := F32.lit_isNaN m e
  lit_nonneg {m} e hm := by
    refine F32.le_iff.2 ⟨F32.lit_isNaN 0 0, F32.lit_isNaN _ _, ?_⟩
    change (F32.lit 0 0).ord ≤ _
    rw [F32.ord_zero]; exact F32.lit_ord_nonneg e hm
  lit_fin h1 _ h3 := lit_fin_f32 h1 h3
  ofNat_num n := F32.isNaN_round _ _ _
  ofNat_nonneg n := by
    refine F32.le_iff.2 ⟨F32.lit_isNaN 0 0, F32.isNaN_round _ _ _, ?_⟩
    change (F32.lit 0 0).ord ≤ (F32.round _ _ _).ord
    rw [F32.ord_zero, F32.ord_round]; simp
  mul_nonneg {a b} ha hb hn := by
    have ha := F32.le_iff.1 ha
    have hb := F32.le_iff.1 hb
    change _ ∧ _ ∧ (F32.lit 0 0).ord ≤ _ at ha
    change _ ∧ _ ∧ (F32.lit 0 0).ord ≤ _ at hb
    rw [F32.ord_zero] at ha hb
    refine F32.le_iff.2 ⟨F32.lit_isNaN 0 0, hn, ?_⟩
    change (F32.lit 0 0).ord ≤ _
    rw [F32.ord_zero]
    exact mul_ord_nonneg ha.2.2 hb.2.2 hn
  toI32_mono {a b} h := by
    have h := F32.le_iff.1 h
    change Max.max (Min.min a.trunc _) _ ≤ Max.max (Min.min b.trunc _) _
    have := trunc_mono h.1 h.2.1 h.2.2
    omega

end Rtbvh
