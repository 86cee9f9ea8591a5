import Verif.Proofs.F32Laws
import Verif.Props.Spatial
/- The size hypotheses of the theorems on spatial builds as bounds on the number of primitives, in single precision
(C59, C61, C81). -/
namespace Rtbvh
open FloatOps

/-- The index array of a spatial build, for `f32`, does not get shorter when there are more primitives. -/
theorem referenceLimit_mono {m n : Nat} (h : m ≤ n) (hn : n < 2 ^ 100) : referenceLimit F32 m ≤ referenceLimit F32 n := by
  have hord : ∀ k, k < 2 ^ 100 → ∃ h', F32.round false (k * 2 ^ 149) 1 = F32.fin false (rnd (k * 2 ^ 149) 1) h' := by
    intro k hk
    refine round_fin ?_
    rw [Nat.div_one, show (2 : Nat) ^ 276 = 2 ^ 127 * 2 ^ 149 by rw [← Nat.pow_add]]
    exact Nat.mul_lt_mul_of_pos_right (Nat.lt_of_lt_of_le hk (Nat.pow_le_pow_right (by omega) (by omega))) (Nat.two_pow_pos _)
  obtain ⟨hl, el⟩ : ∃ h', F32.lit 75 (-2) = F32.fin false (3 * 2 ^ 147) h' := ⟨by decide +kernel, by decide +kernel⟩
  obtain ⟨hm', em⟩ := hord m (by omega)
  obtain ⟨hn', en⟩ := hord n hn
  have nan : ∀ k h', (F32.mul (F32.fin false k h') (F32.lit 75 (-2))).isNaN = false := by
    intro k h'
    rw [el]
    exact F32.isNaN_round _ _ _
  have ho : (F32.fin false (rnd (m * 2 ^ 149) 1) hm').ord ≤ (F32.fin false (rnd (n * 2 ^ 149) 1) hn').ord := by
    have := rnd_mono (n₁ := m * 2 ^ 149) (n₂ := n * 2 ^ 149) (d := 1) (by omega) (Nat.mul_le_mul_right _ h)
    simp only [F32.ord]
    exact Int.ofNat_le.2 this
  have ht := trunc_mono (nan _ hm') (nan _ hn') (F32.mul_mono_core (F32.lit_ord_nonneg (-2) (by omega)) ho (nan _ hm') (nan _ hn'))
  unfold referenceLimit
  refine Nat.add_le_add h ?_
  change Min.min (F32.mul (F32.round false (m * 2 ^ 149) 1) (F32.lit 75 (-2))).trunc.toNat (2 ^ 64 - 1) ≤
    Min.min (F32.mul (F32.round false (n * 2 ^ 149) 1) (F32.lit 75 (-2))).trunc.toNat (2 ^ 64 - 1)
  rw [em, en]
  have := Int.toNat_le_toNat ht
  omega

/-- The link words of a spatial build have room for every scene of up to six hundred million primitives; from 614 million
on they have not. -/
theorem spatial_links_fit (n : Nat) :
    (n ≤ 600000000 → referenceLimit F32 n < 2 ^ 30) ∧ (614000000 ≤ n → n < 2 ^ 100 → 2 ^ 30 ≤ referenceLimit F32 n) :=
  ⟨fun h => Nat.lt_of_le_of_lt (referenceLimit_mono h (by decide)) (by decide +kernel),
   fun h h' => Nat.le_trans (by decide +kernel) (referenceLimit_mono h h')⟩

/-- Up to nine and a half million primitives, all counters of a spatial build are exact as `f32`. -/
theorem spatial_counts_exact (n : Nat) (h : n ≤ 9500000) : referenceLimit F32 n ≤ 2 ^ 24 :=
  Nat.le_trans (referenceLimit_mono h (by decide)) (by decide +kernel)

/-- C59: in single precision, a legal use of the other builders with up to six hundred million primitives is a legal use of
`construct_spatial_sah`. -/
theorem C59_f32_legal (b : Builder F32) (order : List Nat) (sort : Fin 3 → List (Ref F32) → Option (List (Ref F32)))
    (h : b.Legal order) (hn : b.primitives.length ≤ 600000000) (hs : ∀ a l l', sort a l = some l' → l'.Perm l) :
    b.LegalSpatial order sort := { h with fits := (spatial_links_fit _).1 hn, sorts := hs }

/-- Every mesh of up to six hundred million triangles is a legal scene. -/
theorem mesh_legal (ts : List (Triangle F32)) (order : List Nat) (hne : ts ≠ []) (ho : order.Perm (List.range ts.length))
    (hn : ts.length ≤ 600000000) : (triScene ts).LegalSpatial order refSort :=
  triScene_legal ts order hne ho (by omega) ((spatial_links_fit _).1 hn)

example : (triScene [sliver 0 1, sliver 2 3]).LegalSpatial [1, 0] refSort := by
  refine mesh_legal _ _ (by simp) ?_ (by decide)
  decide

end Rtbvh
