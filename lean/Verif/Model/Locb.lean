import Verif.Model.Morton
/- Model of src/builders/locb.rs (locally ordered clustering) and of `Builder::construct_locally_ordered_clustered`.
`none` is a panic or an access outside an array; `as usize` casts of `u32` values are the identity. -/
namespace Rtbvh
variable {F : Type}

/-- `a - b` on `usize` (src/builders/locb.rs 179-185, 199-200): underflow is a failure. -/
def csub (a b : Nat) : Option Nat := if b ≤ a then some (a - b) else none

/-- `array[i] = a`, `UnsafeSliceWrapper::set` (src/utils.rs 139-144): a write outside the array is a failure. -/
def setAt {α : Type} (l : List α) (i : Nat) (a : α) : Option (List α) :=
  if i < l.length then some (l.set i a) else none

/-- A `for i in a..b` loop with body `f`: `k = b - a` iterations from `i = a` (as in src/builders/locb.rs 82-90). -/
def forRange {σ : Type} (f : Nat → σ → Option σ) : (k i : Nat) → σ → Option σ
  | 0, _, s => some s
  | k + 1, i, s => (f i s).bind (forRange f k (i + 1))

/-- `search_range` (src/builders/locb.rs 36-45) with search radius `r`. -/
def searchRange (r i b e : Nat) : Nat × Nat := (if i > b + r then i - r else b, Min.min (i + r + 1) e)

/-- The matrix of distances: the pointer array `distance_matrix` with the rows it points to
(src/builders/locb.rs 71-80). -/
abbrev DistMat (F : Type) := List (List F)

/-- `*distance_matrix[row].add(col) = v` (src/builders/locb.rs 85-88, 121-123). -/
def DistMat.write (m : DistMat F) (row col : Nat) (v : F) : Option (DistMat F) :=
  (m[row]?).bind fun l => (setAt l col v).bind fun l' => setAt m row l'

/-- `*distance_matrix[row].add(col)` (src/builders/locb.rs 100). -/
def DistMat.read (m : DistMat F) (row col : Nat) : Option F := (m[row]?).bind fun l => l[col]?

/-- Rotation of the rows (src/builders/locb.rs 134-142). -/
def DistMat.rotate (m : DistMat F) (r : Nat) : Option (DistMat F) :=
  (m[r]?).bind fun last => (moveBackward m 0 r (r + 1)).bind fun m' => setAt m' 0 last

/-- `best_distance` and `best_neighbour` (src/builders/locb.rs 95-96). -/
structure Best (F : Type) where
  distance : F
  neighbour : Int

section
variable [FloatOps F]
open FloatOps

/-- `input[i].bounds.union_of(&input[j].bounds).half_area()` (src/builders/locb.rs 86-87, 112). -/
def pairDist (input : List (BvhNode F)) (i j : Nat) : Option F :=
  (input[i]?).bind fun a => (input[j]?).map fun b => (a.bounds.unionOf b.bounds).halfArea

/-- `if distance < best_distance { .. }` (src/builders/locb.rs 103-106, 124-127). -/
def Best.offer (best : Best F) (d : F) (j : Nat) : Best F :=
  if d <. best.distance then ⟨d, (j : Int)⟩ else best

/-- Initialisation of the distance matrix (src/builders/locb.rs 82-90). -/
def fillMatrix (r : Nat) (input : List (BvhNode F)) (b e cb : Nat) (m : DistMat F) : Option (DistMat F) :=
  forRange (fun i m =>
    forRange (fun j m => (pairDist input i j).bind fun d => m.write (cb - i) (j - i - 1) d)
      ((searchRange r i b e).2 - (i + 1)) (i + 1) m)
    (cb - (searchRange r cb b e).1) (searchRange r cb b e).1 m

/-- The nearest neighbour search of one `i` (src/builders/locb.rs 93-128). -/
def searchOne (r : Nat) (input : List (BvhNode F)) (b e i : Nat) (m : DistMat F) : Option (DistMat F × Best F) :=
  (forRange (fun j best => (m.read (i - j) (i - j - 1)).map fun d => best.offer d j)
    (i - (searchRange r i b e).1) (searchRange r i b e).1 (⟨maxFinite, -1⟩ : Best F)).bind fun best =>
  forRange (fun j (s : DistMat F × Best F) =>
      (pairDist input i j).bind fun d => (s.1.write 0 (j - i - 1) d).map fun m => (m, s.2.offer d j))
    ((searchRange r i b e).2 - (i + 1)) (i + 1) (m, best)

/-- The work of one `thread_id` on `chunk_begin..chunk_end` (src/builders/locb.rs 71-143).  `neighbours` is the front
part of `aux`; `best_neighbour as u32` turns `-1` into `u32::MAX`. -/
def searchChunk (r : Nat) (input : List (BvhNode F)) (b e cb ce : Nat) (aux : List Nat) : Option (List Nat) :=
  (fillMatrix r input b e cb (List.replicate (r + 1) (List.replicate r zero))).bind fun m =>
  (forRange (fun i (s : DistMat F × List Nat) =>
      (searchOne r input b e i s.1).bind fun mb =>
      (setAt s.2 i (asU32 mb.2.neighbour)).bind fun aux =>
      (mb.1.rotate r).map fun m => (m, aux))
    (ce - cb) cb (m, aux)).map Prod.snd

/-- The loop over `thread_id` (src/builders/locb.rs 58-69, 144), `t` being `num_cpus::get()`. -/
def searchAll (r t : Nat) (input : List (BvhNode F)) (b e : Nat) (aux : List Nat) : Option (List Nat) :=
  let chunkSize := (e - b) / t
  forRange (fun id aux =>
      let cb := b + id * chunkSize
      let ce := if id ≠ t - 1 then cb + chunkSize else e
      searchChunk r input b e cb ce aux) t 0 aux

/-- One iteration of the loop that marks the pairs (src/builders/locb.rs 162-166). -/
abbrev markOne (nc i : Nat) (aux : List Nat) : Option (List Nat) :=
  (aux[i]?).bind fun j => (aux[j]?).bind fun k => setAt aux (nc + i) (if i < j ∧ k = i then 1 else 0)

/-- Marking of merged nodes (src/builders/locb.rs 158-167); `merged_index` is `aux` from offset `nc` on.  Simplification:
the parallel loop runs in index order; its iterations write different slots and read only `neighbours`. -/
def markMerged (nc b e : Nat) (aux : List Nat) : Option (List Nat) := forRange (markOne nc) (e - b) b aux

/-- The in-place prefix sum over `merged_index[begin..end]` (src/builders/locb.rs 170-176). -/
def sumMerged (nc b e : Nat) (aux : List Nat) : Option (List Nat) :=
  if nc + e ≤ aux.length then
    (prefixSumAlias ((aux.drop (nc + b)).take (e - b)) (e - b)).map fun s =>
      aux.take (nc + b) ++ s.2 ++ aux.drop (nc + e)
  else none

/-- One iteration of the merge loop (src/builders/locb.rs 194-215). -/
def mergeOne (nc : Nat) (input : List (BvhNode F)) (aux : List Nat) (b ub chb i : Nat) (out : List (BvhNode F)) :
    Option (List (BvhNode F)) :=
  (aux[i]?).bind fun j => (aux[j]?).bind fun k => (aux[nc + i]?).bind fun mi => (input[i]?).bind fun ni =>
  if k = i then
    if i < j then
      (aux[nc + j]?).bind fun mj => (csub (ub + j) b).bind fun p' => (csub p' mj).bind fun p =>
      (out[p]?).bind fun old => (csub mi 1).bind fun k' => (input[j]?).bind fun nj =>
      (setAt out p (({ old with bounds := nj.bounds.unionOf ni.bounds }).setCount none |>.setLeftFirst
        (some (chb + k' * 2)))).bind fun out =>
      (setAt out (chb + k' * 2) ni).bind fun out => setAt out (chb + k' * 2 + 1) nj
    else some out
  else
    (csub (ub + i) b).bind fun p' => (csub p' mi).bind fun p => setAt out p ni

/-- `cluster` (src/builders/locb.rs 48-245), `nc` being the node count.  Result: the new output array, the auxiliary
data, `next_begin` and `next_end`. -/
def locbCluster (r t nc : Nat) (input output : List (BvhNode F)) (aux : List Nat) (b e pe : Nat) :
    Option (List (BvhNode F) × List Nat × Nat × Nat) :=
  (searchAll r t input b e aux).bind fun aux =>
  (markMerged nc b e aux).bind fun aux =>
  (sumMerged nc b e aux).bind fun aux =>
  (aux[nc + (e - 1)]?).bind fun merged =>
  (csub (e - b) merged).bind fun unmerged =>
  (csub e (merged * 2)).bind fun chb =>
  (csub e (merged * 2 + unmerged)).bind fun ub =>
  (forRange (mergeOne nc input aux b ub chb) (e - b) b output).bind fun out =>
  (forRange (fun x out => (input[x]?).bind fun nd => setAt out x nd) (pe - e) e out).map fun out =>
  (out, aux, ub, chb)

/-- The `while end - begin > 1` loop of `build` (src/builders/locb.rs 303-319); `fuel` bounds the number of rounds.
`none`: panic; `some none`: not finished after `fuel` rounds. -/
def locbLoop (r t nc : Nat) : (fuel : Nat) → (nodes copy : List (BvhNode F)) → (aux : List Nat) → (b e pe : Nat) →
    Option (Option (List (BvhNode F)))
  | 0, nodes, _, _, b, e, _ => if e - b > 1 then some none else some (some nodes)
  | fuel + 1, nodes, copy, aux, b, e, pe =>
    if e - b > 1 then
      (locbCluster r t nc nodes copy aux b e pe).bind fun s => locbLoop r t nc fuel s.1 nodes s.2.1 s.2.2.1 s.2.2.2 e
    else some (some nodes)

/-- The leaf of one primitive (src/builders/locb.rs 286-291). -/
def locbLeaf (aabbs : List (Aabb F)) (i p : Nat) : Option (BvhNode F) :=
  (aabbs[p]?).map fun bb =>
    (({ bounds := bb.offsetBy (lit 1 (-4)) } : BvhNode F).setCount (some 1)).setLeftFirst (some i)

/-- `LocallyOrderedClusteringBuilder::new` and `build` (src/builders/locb.rs 18-29, 249-328) with search radius 14,
`t = num_cpus::get()` and a bound `fuel` on the number of clustering rounds. -/
def locbBuild (t fuel : Nat) (aabbs : List (Aabb F)) (centers : List (Vec3 F)) : Option (Option (Bvh F)) :=
  let worldBounds := Aabb.unionOfList aabbs
  let encoder := MortonEncoder.new worldBounds MortonEncoder.maxGridDim
  if centers.length ≠ aabbs.length ∨ centers = [] ∨ aabbs = [] then some (some Bvh.default)
  else
    let n := aabbs.length
    if n ≤ 2 then
      some (some { nodes := [(({ bounds := worldBounds } : BvhNode F).setLeftFirst (some 0)).setCount (some n)]
                   primIndices := List.range n, buildType := .locallyOrderedClustered })
    else
      (encoder.getSortedIndices aabbs centers).bind fun sorted =>
      let nc := 2 * n - 1
      let empty : BvhNode F :=
        (({ bounds := Aabb.ofPoints2 (Vec3.splat zero) (Vec3.splat zero) } : BvhNode F).setCount none).setLeftFirst
          (some 0)
      let nodes := List.replicate nc empty
      (forRange (fun i nodes =>
          (sorted.1[i]?).bind fun p => (locbLeaf aabbs i p).bind fun nd => setAt nodes (nc - n + i) nd)
        n 0 nodes).bind fun leaves =>
      (locbLoop 14 t nc fuel leaves nodes (List.replicate (nc * 3) nc) (nc - n) nc nc).map fun r =>
        r.map fun nodes => { nodes := nodes, primIndices := sorted.1, buildType := .locallyOrderedClustered }

/-- `Builder::construct_locally_ordered_clustered` (src/bvh.rs 113-137). -/
def Builder.constructLocb (b : Builder F) (order : List Nat) (t fuel : Nat) :
    Except BuildError (Option (Option (Bvh F))) :=
  match b.check order with
  | .error e => .error e
  | .ok aabbs => .ok (locbBuild t fuel aabbs (b.primitives.map Prim.center))

end
end Rtbvh
