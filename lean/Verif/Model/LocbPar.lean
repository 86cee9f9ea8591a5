import Verif.Model.Locb
/- The clustering build with the iterations of its two parallel loops in any order. -/
namespace Rtbvh
variable {F : Type}

/-- Rayon's `for_each` on a parallel iterator (src/builders/locb.rs 158-167, 217-240): every index once, in the order in
which the worker threads get to them.  Simplification: an iteration is one atomic step. -/
def forOrder {σ : Type} (f : Nat → σ → Option σ) : (order : List Nat) → σ → Option σ
  | [], s => some s
  | i :: is, s => (f i s).bind (forOrder f is)

/-- The orders in which the threads execute the iterations of the two parallel loops of a round: functions of the list of
indices. -/
structure Shuffle where
  mark : List Nat → List Nat
  merge : List Nat → List Nat

section
variable [FloatOps F]

/-- `cluster` with both loops parallel (src/builders/locb.rs 48-245: the marking loop is parallel without `wasm_support`,
the merging loop with it). -/
def locbClusterPar (sh : Shuffle) (r t nc : Nat) (input output : List (BvhNode F)) (aux : List Nat) (b e pe : Nat) :
    Option (List (BvhNode F) × List Nat × Nat × Nat) :=
  (searchAll r t input b e aux).bind fun aux =>
  (forOrder (markOne nc) (sh.mark (List.range' b (e - b))) aux).bind fun aux =>
  (sumMerged nc b e aux).bind fun aux =>
  (aux[nc + (e - 1)]?).bind fun merged =>
  (csub (e - b) merged).bind fun unmerged =>
  (csub e (merged * 2)).bind fun chb =>
  (csub e (merged * 2 + unmerged)).bind fun ub =>
  (forOrder (mergeOne nc input aux b ub chb) (sh.merge (List.range' b (e - b))) output).bind fun out =>
  (forRange (fun x out => (input[x]?).bind fun nd => setAt out x nd) (pe - e) e out).map fun out =>
  (out, aux, ub, chb)

/-- The `while` loop (src/builders/locb.rs 303-319); `sh k` are the orders of the round with `k` more rounds allowed. -/
def locbLoopPar (sh : Nat → Shuffle) (r t nc : Nat) : (fuel : Nat) → (nodes copy : List (BvhNode F)) → (aux : List Nat) →
    (b e pe : Nat) → Option (Option (List (BvhNode F)))
  | 0, nodes, _, _, b, e, _ => if e - b > 1 then some none else some (some nodes)
  | fuel + 1, nodes, copy, aux, b, e, pe =>
    if e - b > 1 then
      (locbClusterPar (sh fuel) r t nc nodes copy aux b e pe).bind fun s =>
        locbLoopPar sh r t nc fuel s.1 nodes s.2.1 s.2.2.1 s.2.2.2 e
    else some (some nodes)

/-- `build` (src/builders/locb.rs 249-328) with parallel loops. -/
def locbBuildPar (sh : Nat → Shuffle) (t fuel : Nat) (aabbs : List (Aabb F)) (centers : List (Vec3 F)) :
    Option (Option (Bvh F)) :=
  let worldBounds := Aabb.unionOfList aabbs
  let encoder := MortonEncoder.new worldBounds MortonEncoder.maxGridDim
  if centers.length ≠ aabbs.length ∨ centers = [] ∨ aabbs = [] then some (some Bvh.default)
  else
    let n := aabbs.length
    if n ≤ 2 then
      some (some { nodes := [(({ bounds := worldBounds } : BvhNode F).setLeftFirst (some 0)).setCount (some n)]
                   primIndices := List.range n, buildType := .locallyOrderedClustered })
    else
      (encoder.getSortedIndices aabbs centers).bind fun sorted =>
      let nc := 2 * n - 1
      let empty : BvhNode F :=
        (({ bounds := Aabb.ofPoints2 (Vec3.splat FloatOps.zero) (Vec3.splat FloatOps.zero) } : BvhNode F).setCount
          none).setLeftFirst (some 0)
      let nodes := List.replicate nc empty
      (forRange (fun i nodes =>
          (sorted.1[i]?).bind fun p => (locbLeaf aabbs i p).bind fun nd => setAt nodes (nc - n + i) nd)
        n 0 nodes).bind fun leaves =>
      (locbLoopPar sh 14 t nc fuel leaves nodes (List.replicate (nc * 3) nc) (nc - n) nc nc).map fun r =>
        r.map fun nodes => { nodes := nodes, primIndices := sorted.1, buildType := .locallyOrderedClustered }

/-- `construct_locally_ordered_clustered` (src/bvh.rs 113-137) with parallel loops. -/
def Builder.constructLocbPar (b : Builder F) (sh : Nat → Shuffle) (order : List Nat) (t fuel : Nat) :
    Except BuildError (Option (Option (Bvh F))) :=
  match b.check order with
  | .error e => .error e
  | .ok aabbs => .ok (locbBuildPar sh t fuel aabbs (b.primitives.map Prim.center))

end
end Rtbvh
