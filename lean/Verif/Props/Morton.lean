import Verif.Proofs.Morton
import Verif.Proofs.F32Laws
import Verif.Proofs.ExactLaws
import Verif.Model.Exact
import Verif.Model.F32
import Mathlib.Tactic.Linarith
import Mathlib.Tactic.FieldSimp
import Mathlib.Tactic.Ring
import Mathlib.Tactic.FinCases
import Mathlib.Tactic.ByContra
import Mathlib.Data.List.Nodup
/- C14-C17: Morton codes (src/morton.rs). -/
namespace Rtbvh
open FloatOps

/-- C14. -/
theorem C14_morton_split (x : BitVec 32) :
    (∀ k, k ≤ 10 → (mortonSplit x).getLsbD (3 * k) = x.getLsbD k) ∧
    (∀ i, i % 3 ≠ 0 → (mortonSplit x).getLsbD i = false) := by
  constructor
  · intro k hk
    rw [mortonSplit_bit x _ (by omega)]
    simp
  · intro i hi
    by_cases h : i < 32
    · rw [mortonSplit_bit x i h]; simp [hi]
    · exact BitVec.getLsbD_of_ge _ _ (by omega)

/-- C14, as a number: the result is the spread of the low 11 bits. -/
theorem C14_morton_split_value (x : BitVec 32) : (mortonSplit x).toNat = spread (x.toNat % 2048) :=
  mortonSplit_toNat x

example : mortonSplit 0b110010#32 = 0b1001000000001000#32 := by decide
example : spread 0b110010 = 0b1001000000001000 := by simp [spread]

/-- C15: below 2^30, injective, monotone. -/
theorem C15_morton_encode {x y z : BitVec 32} (hx : x.toNat < 1024) (hy : y.toNat < 1024) (hz : z.toNat < 1024) :
    (mortonEncode x y z).toNat < 2 ^ 30 ∧
    (∀ {x' y' z' : BitVec 32}, x'.toNat < 1024 → y'.toNat < 1024 → z'.toNat < 1024 →
      mortonEncode x y z = mortonEncode x' y' z' → x = x' ∧ y = y' ∧ z = z') ∧
    (∀ {x' y' z' : BitVec 32}, x'.toNat < 1024 → y'.toNat < 1024 → z'.toNat < 1024 →
      x ≤ x' → y ≤ y' → z ≤ z' → mortonEncode x y z ≤ mortonEncode x' y' z') := by
  refine ⟨?_, ?_, ?_⟩
  · rw [mortonEncode_toNat hx hy hz]
    unfold inter
    have a := spread_lt_pow 10 (a := x.toNat) (by simpa using hx)
    have b := spread_lt_pow 10 (a := y.toNat) (by simpa using hy)
    have c := spread_lt_pow 10 (a := z.toNat) (by simpa using hz)
    omega
  · intro x' y' z' hx' hy' hz' h
    have h := congrArg BitVec.toNat h
    rw [mortonEncode_toNat hx hy hz, mortonEncode_toNat hx' hy' hz'] at h
    obtain ⟨a, b, c⟩ := inter_inj h
    exact ⟨BitVec.eq_of_toNat_eq a, BitVec.eq_of_toNat_eq b, BitVec.eq_of_toNat_eq c⟩
  · intro x' y' z' hx' hy' hz' h1 h2 h3
    rw [BitVec.le_def] at *
    rw [mortonEncode_toNat hx hy hz, mortonEncode_toNat hx' hy' hz']
    unfold inter
    have a := spread_mono h1
    have b := spread_mono h2
    have c := spread_mono h3
    omega

/-- C15, which bit goes where: bit `k` of `x`, `y`, `z` is bit `3k`, `3k+1`, `3k+2` of the code. -/
theorem C15_bits {x y z : BitVec 32} (hx : x.toNat < 1024) (hy : y.toNat < 1024) (hz : z.toNat < 1024) (k : Nat) :
    (mortonEncode x y z).getLsbD (3 * k) = x.getLsbD k ∧
    (mortonEncode x y z).getLsbD (3 * k + 1) = y.getLsbD k ∧
    (mortonEncode x y z).getLsbD (3 * k + 2) = z.getLsbD k := by
  simp only [← BitVec.testBit_toNat, mortonEncode_toNat hx hy hz, testBit_inter]
  refine ⟨?_, ?_, ?_⟩
  · rw [if_pos (by omega)]; congr 1; omega
  · rw [if_neg (by omega), if_pos (by omega)]; congr 1; omega
  · rw [if_neg (by omega), if_neg (by omega)]; congr 1; omega

example : mortonEncode 5#32 3#32 1023#32 ≠ mortonEncode 5#32 3#32 1022#32 := by
  intro h
  have := (C15_morton_encode (x := 5#32) (y := 3#32) (z := 1023#32) (by decide) (by decide) (by decide)).2.1
    (by decide) (by decide) (by decide) h
  exact absurd this.2.2 (by decide)

/-- The bound 1024 is needed: coordinate 2048 is lost altogether. -/
theorem C15_bound_needed : mortonEncode 2048#32 0#32 0#32 = mortonEncode 0#32 0#32 0#32 := by decide

section
variable {F : Type} [FloatOps F]

theorem clampCell_toNat (e : MortonEncoder F) (p : F) (h1 : 1 ≤ e.gridDim) (h2 : e.gridDim ≤ 1024) :
    ((e.clampCell p).toNat : Int) = Min.min ((e.gridDim : Int) - 1) (Max.max (toI32 p) 0) := by
  unfold MortonEncoder.clampCell
  rw [BitVec.toNat_ofInt]
  generalize toI32 p = t
  rw [Int.toNat_of_nonneg (Int.emod_nonneg _ (by decide))]
  rw [Int.emod_eq_of_lt] <;> omega

theorem clampCell_lt (e : MortonEncoder F) (p : F) (h1 : 1 ≤ e.gridDim) (h2 : e.gridDim ≤ 1024) :
    (e.clampCell p).toNat < 1024 := by
  have := clampCell_toNat e p h1 h2
  omega

/-- C16: whatever the float operations do (NaN, infinities, points outside the box), every encoder built by `new`
with a grid between 1 and `MAX_GRID_DIM` yields a code below 2^30. -/
theorem C16_encode_total (box : Aabb F) (dim : Nat) (h1 : 1 ≤ dim) (h2 : dim ≤ MortonEncoder.maxGridDim)
    (point : Vec3 F) : ((MortonEncoder.new box dim).encode point).toNat < 2 ^ 30 := by
  have h2 : dim ≤ 1024 := h2
  exact (C15_morton_encode (clampCell_lt _ _ h1 h2) (clampCell_lt _ _ h1 h2) (clampCell_lt _ _ h1 h2)).1

example : ((MortonEncoder.new (F := F32) Aabb.new 1024).encode ⟨.nan, .inf true, lit 3 20⟩).toNat < 2 ^ 30 :=
  C16_encode_total _ _ (by decide) (by decide) _

/-- C58: with rounding, for a box of positive extent, moving a point up never lowers its code, as long as its grid
position is not NaN. -/
theorem C58_encode_monotone [LawfulFloat F] (box : Aabb F) (dim : Nat) (h1 : 1 ≤ dim)
    (h2 : dim ≤ MortonEncoder.maxGridDim)
    (hd : ∀ a, ((zero : F) <. box.diagonal.get a) = true) (p q : Vec3 F)
    (hpq : ∀ a, (p.get a <=. q.get a) = true)
    (hp : ∀ a, Num (((MortonEncoder.new box dim).gridPos p).get a))
    (hq : ∀ a, Num (((MortonEncoder.new box dim).gridPos q).get a)) :
    (MortonEncoder.new box dim).encode p ≤ (MortonEncoder.new box dim).encode q := by
  have h2 : dim ≤ 1024 := h2
  have wnn : ∀ a, ((zero : F) <=. (MortonEncoder.new box dim).worldToGrid.get a) = true := by
    intro a
    have hn : Num ((MortonEncoder.new box dim).worldToGrid.get a) := by
      have := LawfulFloat.add_num (a := p.get a *. (MortonEncoder.new box dim).worldToGrid.get a)
        (c := (MortonEncoder.new box dim).gridOffset.get a) (by have := hp a; revert this; fin_cases a <;> exact id)
      exact (LawfulFloat.mul_num this.1).2
    have e : (MortonEncoder.new box dim).worldToGrid.get a = ofNat dim *. (one /. box.diagonal.get a) := by
      fin_cases a <;> rfl
    rw [e] at hn ⊢
    exact LawfulFloat.mul_nonneg (LawfulFloat.ofNat_nonneg _) (LawfulFloat.recip_pos (hd a)) hn
  have cell : ∀ a, (MortonEncoder.new box dim).clampCell (((MortonEncoder.new box dim).gridPos p).get a) ≤
      (MortonEncoder.new box dim).clampCell (((MortonEncoder.new box dim).gridPos q).get a) := by
    intro a
    have e : ∀ r : Vec3 F, ((MortonEncoder.new box dim).gridPos r).get a =
        r.get a *. (MortonEncoder.new box dim).worldToGrid.get a +. (MortonEncoder.new box dim).gridOffset.get a := by
      intro r; fin_cases a <;> rfl
    have np := hp a
    have nq := hq a
    have hle : ((((MortonEncoder.new box dim).gridPos p).get a) <=. (((MortonEncoder.new box dim).gridPos q).get a)) =
        true := by
      rw [e] at np nq ⊢
      rw [e]
      exact LawfulFloat.add_mono _ (LawfulFloat.mul_mono (wnn a) (hpq a) (LawfulFloat.add_num np).1
        (LawfulFloat.add_num nq).1) np nq
    have := LawfulFloat.toI32_mono hle
    rw [BitVec.le_def]
    have c1 := clampCell_toNat (MortonEncoder.new box dim) (((MortonEncoder.new box dim).gridPos p).get a) h1 h2
    have c2 := clampCell_toNat (MortonEncoder.new box dim) (((MortonEncoder.new box dim).gridPos q).get a) h1 h2
    omega
  exact (C15_morton_encode (clampCell_lt _ _ h1 h2) (clampCell_lt _ _ h1 h2) (clampCell_lt _ _ h1 h2)).2.2
    (clampCell_lt _ _ h1 h2) (clampCell_lt _ _ h1 h2) (clampCell_lt _ _ h1 h2) (cell 0) (cell 1) (cell 2)

/-- The hypotheses of `C58_encode_monotone` are met by an ordinary box in `f32`. -/
example :
    let box : Aabb F32 := Aabb.ofPoints2 ⟨lit (-1) 0, lit (-2) 0, lit 0 0⟩ ⟨lit 3 0, lit 1 1, lit 7 0⟩
    (MortonEncoder.new box 1024).encode ⟨lit 1 (-1), lit 1 0, lit 2 0⟩ ≤
      (MortonEncoder.new box 1024).encode ⟨lit 5 (-1), lit 1 0, lit 3 0⟩ := by
  intro box
  refine C58_encode_monotone box 1024 (by decide) (by decide) ?_ _ _ ?_ ?_ ?_ <;> (try unfold Num) <;> decide +kernel
end

/-- C58: in exact arithmetic the code of a point of a box of positive extent interleaves the three cell numbers
`⌊dim * (p - min) / (max - min)⌋`, the upper faces being counted in the last cell. -/
theorem C58_encode_cells (box : Aabb Rat) (dim : Nat) (h1 : 1 ≤ dim) (h2 : dim ≤ MortonEncoder.maxGridDim)
    (hd : ∀ a, box.min.get a < box.max.get a) (p : Vec3 Rat)
    (hp : ∀ a, box.min.get a ≤ p.get a ∧ p.get a ≤ box.max.get a)
    (cell : Fin 3 → Nat)
    (hc : ∀ a, (cell a : Rat) ≤ dim * (p.get a - box.min.get a) / (box.max.get a - box.min.get a) ∧
      dim * (p.get a - box.min.get a) / (box.max.get a - box.min.get a) < cell a + 1) (k : Nat) :
    let code := (MortonEncoder.new box dim).encode p
    code.getLsbD (3 * k) = (Min.min (cell 0) (dim - 1)).testBit k ∧
    code.getLsbD (3 * k + 1) = (Min.min (cell 1) (dim - 1)).testBit k ∧
    code.getLsbD (3 * k + 2) = (Min.min (cell 2) (dim - 1)).testBit k := by
  have h2 : dim ≤ 1024 := h2
  have key : ∀ a, ((MortonEncoder.new box dim).clampCell (((MortonEncoder.new box dim).gridPos p).get a)).toNat =
      Min.min (cell a) (dim - 1) := by
    intro a
    have c := clampCell_toNat (MortonEncoder.new box dim) (((MortonEncoder.new box dim).gridPos p).get a) h1 h2
    have pos : 0 < box.max.get a - box.min.get a := by linarith [hd a]
    have e : ((MortonEncoder.new box dim).gridPos p).get a =
        dim * (p.get a - box.min.get a) / (box.max.get a - box.min.get a) := by
      have : ((MortonEncoder.new box dim).gridPos p).get a =
          p.get a * ((dim : Rat) * (FloatOps.one / (box.max.get a - box.min.get a))) +
          -(box.min.get a) * ((dim : Rat) * (FloatOps.one / (box.max.get a - box.min.get a))) := by
        fin_cases a <;> rfl
      rw [this, rat_one]; field_simp; ring
    have nn : 0 ≤ dim * (p.get a - box.min.get a) / (box.max.get a - box.min.get a) := by
      have := (hp a).1
      apply div_nonneg _ pos.le
      apply mul_nonneg (by positivity); linarith
    have fl : (dim * (p.get a - box.min.get a) / (box.max.get a - box.min.get a)).floor = (cell a : Int) := by
      obtain ⟨l, u⟩ := hc a
      apply le_antisymm
      · rw [← Int.lt_add_one_iff]
        rw [Rat.floor_lt_iff]; push_cast; exact u
      · rw [Rat.le_floor_iff]; exact_mod_cast l
    have ub : dim * (p.get a - box.min.get a) / (box.max.get a - box.min.get a) ≤ dim := by
      rw [div_le_iff₀ pos]
      apply mul_le_mul_of_nonneg_left _ (by positivity)
      linarith [(hp a).2]
    have cu : cell a ≤ dim := by
      have := le_trans (hc a).1 ub
      exact_mod_cast this
    have ti : toI32 (((MortonEncoder.new box dim).gridPos p).get a) = (cell a : Int) := by
      rw [e]
      show (if _ ≥ (0 : Rat) then Min.min _ 2147483647 else _) = _
      rw [if_pos nn, fl]; omega
    rw [ti] at c
    change _ = Min.min ((dim : Int) - 1) _ at c
    omega
  have l := fun a => clampCell_lt (MortonEncoder.new box dim) (((MortonEncoder.new box dim).gridPos p).get a) h1 h2
  have b := C15_bits (l 0) (l 1) (l 2) k
  refine ⟨?_, ?_, ?_⟩
  · exact b.1.trans (by rw [← BitVec.testBit_toNat, key])
  · exact b.2.1.trans (by rw [← BitVec.testBit_toNat, key])
  · exact b.2.2.trans (by rw [← BitVec.testBit_toNat, key])

example (k : Nat) :
    ((MortonEncoder.new (Aabb.ofPoints2 (⟨0, -1, 2⟩ : Vec3 Rat) ⟨4, 1, 3⟩) 8).encode ⟨3, 0, 3⟩).getLsbD (3 * k) =
      (6 : Nat).testBit k := by
  have := (C58_encode_cells (Aabb.ofPoints2 (⟨0, -1, 2⟩ : Vec3 Rat) ⟨4, 1, 3⟩) 8 (by decide) (by decide)
    (by intro a; fin_cases a <;> simp [Aabb.ofPoints2, Vec3.get] <;> norm_num) ⟨3, 0, 3⟩
    (by intro a; fin_cases a <;> simp [Aabb.ofPoints2, Vec3.get] <;> norm_num) (fun a => match a with | 0 => 6 | 1 => 4 | 2 => 8)
    (by intro a; fin_cases a <;> simp [Aabb.ofPoints2, Vec3.get] <;> norm_num) k).1
  simpa using this

section
variable {F : Type} [FloatOps F]

theorem stable_unique {codes l l' : List Nat} (h : StableSorted codes l) (h' : StableSorted codes l') : l = l' := by
  have lex : ∀ {l}, StableSorted codes l →
      l.Pairwise fun a b => codes.getD a 0 < codes.getD b 0 ∨ (codes.getD a 0 = codes.getD b 0 ∧ a < b) := by
    intro l h
    refine (h.sorted.and h.stable).imp ?_
    intro a b ⟨h1, h2⟩
    rcases Nat.lt_or_eq_of_le h1 with h | h
    · exact .inl h
    · exact .inr ⟨h, h2 h⟩
  refine List.Perm.eq_of_pairwise (le := fun a b => codes.getD a 0 < codes.getD b 0 ∨ (codes.getD a 0 = codes.getD b 0 ∧ a < b)) ?_
    (lex h) (lex h') (h.perm.trans h'.perm.symm)
  intro a b _ _ h1 h2
  omega

theorem insertByCode_perm (codes : List Nat) (a : Nat) (l : List Nat) :
    (MortonEncoder.insertByCode codes a l).Perm (a :: l) := by
  induction l with
  | nil => exact .refl _
  | cons b l ih =>
    unfold MortonEncoder.insertByCode
    split
    · exact .refl _
    · exact (ih.cons b).trans (.swap _ _ _)

theorem insertByCode_sorted (codes : List Nat) (a : Nat) (l : List Nat)
    (hl : l.Pairwise fun a b => codes.getD a 0 ≤ codes.getD b 0 ∧ (codes.getD a 0 = codes.getD b 0 → a < b))
    (ha : ∀ b ∈ l, a < b) :
    (MortonEncoder.insertByCode codes a l).Pairwise fun a b =>
      codes.getD a 0 ≤ codes.getD b 0 ∧ (codes.getD a 0 = codes.getD b 0 → a < b) := by
  induction l with
  | nil => simp [MortonEncoder.insertByCode]
  | cons b l ih =>
    unfold MortonEncoder.insertByCode
    rw [List.pairwise_cons] at hl
    split
    · rename_i h
      refine List.pairwise_cons.2 ⟨?_, List.pairwise_cons.2 hl⟩
      intro c hc
      refine ⟨?_, fun _ => ha c hc⟩
      rcases List.mem_cons.1 hc with rfl | hc
      · exact h
      · exact h.trans (hl.1 c hc).1
    · rename_i h
      refine List.pairwise_cons.2 ⟨?_, ih hl.2 fun c hc => ha c (List.mem_cons_of_mem _ hc)⟩
      intro c hc
      rcases List.mem_cons.1 ((insertByCode_perm codes a l).subset hc) with rfl | hc
      · omega
      · exact hl.1 c hc

theorem foldr_insertByCode (codes l : List Nat) (hl : l.Pairwise (· < ·)) :
    (l.foldr (MortonEncoder.insertByCode codes) []).Perm l ∧
    (l.foldr (MortonEncoder.insertByCode codes) []).Pairwise fun a b =>
      codes.getD a 0 ≤ codes.getD b 0 ∧ (codes.getD a 0 = codes.getD b 0 → a < b) := by
  induction l with
  | nil => simp
  | cons a l ih =>
    rw [List.pairwise_cons] at hl
    obtain ⟨p, s⟩ := ih hl.2
    exact ⟨(insertByCode_perm _ _ _).trans (p.cons a), insertByCode_sorted codes a _ s fun b hb => hl.1 b (p.subset hb)⟩

/-- C17: a permutation of `0..n`, sorted by code, stable; with the code of each primitive in input order.  It never
panics when there are as many boxes as primitives, and no other list has these properties. -/
theorem C17_sorted_indices (e : MortonEncoder F) (aabbs : List (Aabb F)) (centers : List (Vec3 F))
    (hlen : aabbs.length = centers.length) :
    ∃ indices codes, e.getSortedIndices aabbs centers = some (indices, codes) ∧
      codes = centers.map (fun c => (e.encode c).toNat) ∧ StableSorted codes indices ∧
      ∀ other, StableSorted codes other → other = indices := by
  refine ⟨(List.range centers.length).foldr (MortonEncoder.insertByCode (centers.map (fun c => (e.encode c).toNat))) [],
    centers.map (fun c => (e.encode c).toNat), ?_, rfl, ?_⟩
  · unfold MortonEncoder.getSortedIndices MortonEncoder.codes
    rw [if_pos (by omega), hlen, List.take_length]
  · have st : StableSorted (centers.map (fun c => (e.encode c).toNat)) _ :=
      have h := foldr_insertByCode (centers.map (fun c => (e.encode c).toNat)) (List.range centers.length)
        List.pairwise_lt_range
      ⟨by rw [List.length_map]; exact h.1, h.2.imp fun h => h.1, h.2.imp fun h => h.2⟩
    exact ⟨st, fun other h => stable_unique h st⟩

example : (MortonEncoder.new (Aabb.ofPoints2 (⟨0, 0, 0⟩ : Vec3 Rat) ⟨4, 4, 4⟩) 4).getSortedIndices
    [Aabb.new, Aabb.new, Aabb.new, Aabb.new] [⟨3, 3, 3⟩, ⟨1, 0, 0⟩, ⟨0, 1, 0⟩, ⟨1, 0, 0⟩] =
      some ([1, 3, 2, 0], [63, 1, 2, 1]) := by
  decide +kernel
end

end Rtbvh
