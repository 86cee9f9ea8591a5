import Verif.Spec.Tree
import Verif.Spec.Contain
/- The rule of locally ordered clustering, independent of how src/builders/locb.rs computes it. -/
namespace Rtbvh
variable {F : Type} [FloatOps F]
open FloatOps

/-- Half the surface area of the smallest box around clusters `i` and `j` of a row of clusters. -/
def joinArea (ts : List (BTree F)) (i j : Nat) : Option F :=
  (ts[Min.min i j]?).bind fun a => (ts[Max.max i j]?).map fun b => (a.bounds.unionOf b.bounds).halfArea

/-- Different clusters at most 14 places apart. -/
def Near (i j : Nat) : Prop := i ≠ j ∧ i ≤ j + 14 ∧ j ≤ i + 14

/-- Cluster `j` is the nearest neighbour of cluster `i`: of all clusters near `i` it makes the smallest common box; of
several such clusters it is the first. -/
def NearestOf (ts : List (BTree F)) (i j : Nat) : Prop :=
  Near i j ∧ ∃ a, joinArea ts i j = some a ∧ ∀ k a', Near i k → joinArea ts i k = some a' →
    (a <=. a') = true ∧ (k < j → (a <. a') = true)

/-- Each is the nearest neighbour of the other. -/
def Mutual (ts : List (BTree F)) (i j : Nat) : Prop := NearestOf ts i j ∧ NearestOf ts j i

/-- The row after treating the first `k` clusters of one round: mutual nearest neighbours are joined, at the place of
the later one and with the earlier one as left child; every other cluster stays. -/
inductive RoundTo (ts : List (BTree F)) : Nat → List (BTree F) → Prop
  | start : RoundTo ts 0 []
  | stays {k : Nat} {out : List (BTree F)} {t : BTree F} (h : RoundTo ts k out) (ht : ts[k]? = some t)
      (alone : ∀ j, ¬ Mutual ts k j) : RoundTo ts (k + 1) (out ++ [t])
  | waits {k j : Nat} {out : List (BTree F)} (h : RoundTo ts k out) (hm : Mutual ts k j) (hj : k < j) :
      RoundTo ts (k + 1) out
  | joins {k j : Nat} {out : List (BTree F)} {t u : BTree F} (h : RoundTo ts k out) (hm : Mutual ts k j) (hj : j < k)
      (ht : ts[k]? = some t) (hu : ts[j]? = some u) :
      RoundTo ts (k + 1) (out ++ [.node (t.bounds.unionOf u.bounds) u t])

/-- Rounds are repeated until one cluster `T` is left. -/
inductive Clusters : List (BTree F) → BTree F → Prop
  | done {T : BTree F} : Clusters [T] T
  | round {ts ts' : List (BTree F)} {T : BTree F} (h2 : 2 ≤ ts.length) (h : RoundTo ts ts.length ts')
      (rest : Clusters ts' T) : Clusters ts T

/-- The first row: one leaf for each primitive of `indices`, around its box padded by `1e-4`. -/
def startRow (boxes : List (Aabb F)) (indices : List Nat) : List (BTree F) :=
  indices.mapIdx fun i p => .leaf (padAt boxes p).clean i 1

end Rtbvh
