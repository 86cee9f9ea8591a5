/- What a Morton code is, independent of how the code computes it. -/
namespace Rtbvh

/-- `spread n` has bit `k` of `n` at position `3 k` and zeros elsewhere. -/
def spread (n : Nat) : Nat := if n = 0 then 0 else n % 2 + 8 * spread (n / 2)
decreasing_by omega

/-- `indices` lists `0..codes.length` sorted by code, equal codes in input order. -/
structure StableSorted (codes indices : List Nat) : Prop where
  perm : indices.Perm (List.range codes.length)
  sorted : indices.Pairwise fun a b => codes.getD a 0 ≤ codes.getD b 0
  stable : indices.Pairwise fun a b => codes.getD a 0 = codes.getD b 0 → a < b

end Rtbvh
