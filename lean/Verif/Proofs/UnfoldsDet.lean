import Verif.Spec.Tree
namespace Rtbvh
variable {F : Type}

/-- A node array denotes at most one tree at each index. -/
theorem Unfolds.det {nodes : List (BvhNode F)} {i : Nat} {t t' : BTree F} (h : Unfolds nodes i t)
    (h' : Unfolds nodes i t') : t = t' := by
  induction h generalizing t' with
  | leaf h hc hf =>
    cases h' with
    | leaf h2 hc2 hf2 =>
      rw [h] at h2; cases h2
      rw [hc] at hc2; rw [hf] at hf2
      have := Int.ofNat.inj hc2; have := Int.ofNat.inj hf2
      subst_vars; rfl
    | node h2 hc2 hf2 => rw [h] at h2; cases h2; omega
  | node h hc hl _ _ ihl ihr =>
    cases h' with
    | leaf h2 hc2 hf2 => rw [h] at h2; cases h2; omega
    | node h2 hc2 hl2 ul ur =>
      rw [h] at h2; cases h2
      rw [hl] at hl2
      have := Int.ofNat.inj hl2
      subst this
      rw [ihl ul, ihr ur]

end Rtbvh
