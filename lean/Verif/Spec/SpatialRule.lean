import Verif.Spec.Spatial
import Verif.Spec.SpatialPlane
import Verif.Spec.Box
/- Specification of how the spatial SAH builder cuts a node: which cut it takes and who gets which reference. -/
namespace Rtbvh
open FloatOps
variable {F : Type} [FloatOps F]

/-- The union of boxes, united from the first to the last. -/
def boxFront (l : List (Ref F)) : Aabb F := (l.map Ref.aabb).foldl Aabb.growBB Aabb.empty
/-- The union of boxes, united from the last to the first. -/
def boxBack (l : List (Ref F)) : Aabb F := (l.map Ref.aabb).foldr (fun b acc => acc.growBB b) Aabb.empty

/-- Surface-area cost of giving the first `k` references of a list to one child and the others to the other child:
half area times number, summed over both sides. -/
def objectCost (l : List (Ref F)) (k : Nat) : F :=
  (boxFront (l.take k)).halfArea *. ofNat k +. (boxBack (l.drop k)).halfArea *. ofNat (l.length - k)

/-- The cut `(axis, k)` of least cost `c` among all cuts of the three orders `L` of a node's `n` references, the first one
of several; none if no cut costs less than `f32::MAX`. -/
def BestObject (L : Fin 3 → List (Ref F)) (n : Nat) : Option (Fin 3 × Nat) → F → Prop
  | none, c => c = maxFinite ∧ ∀ a k, 1 ≤ k → k < n → (objectCost (L a) k <. maxFinite) = false
  | some (a, k), c => 1 ≤ k ∧ k < n ∧ c = objectCost (L a) k ∧ (c <. maxFinite) = true ∧
      ∀ a' k', 1 ≤ k' → k' < n → (objectCost (L a') k' <. c) = false ∧
        (a' < a ∨ a' = a ∧ k' < k → (objectCost (L a') k' <=. c) = false)

/-- Area common to the boxes of the two sides of the best cut. -/
def overlapOf (L : Fin 3 → List (Ref F)) : Option (Fin 3 × Nat) → F
  | none => ((Aabb.empty : Aabb F).shrink Aabb.empty).area
  | some (a, k) => ((boxFront ((L a).take k)).shrink (boxBack ((L a).drop k))).area

/-- A node's references, sorted per axis unless they already are.  (`n` references; the range has room for more.) -/
def InOrder (ctx : SpatialCtx F) (V : RefView F) (n : Nat) (sorted : Bool) (W : RefView F) : Prop :=
  sorted = true ∧ W = V ∨
    sorted = false ∧ ∀ a, ∃ s, ctx.sort a ((V.get a).take n) = some s ∧ W.get a = s ++ (V.get a).drop n

/-- The two candidates at a node: the best object cut, and a plane to clip at, which is looked for only if the sides of
the object cut overlap by more than the threshold and there is room for more references. -/
structure Candidates (ctx : SpatialCtx F) (thr : F) (B : Aabb F) (W : RefView F) (n : Nat)
    (best : Option (Fin 3 × Nat)) (cost : F) (plane : SpatialSplit F) : Prop where
  object : BestObject (fun a => (W.get a).take n) n best cost
  clip : (overlapOf (fun a => (W.get a).take n) best >. thr) = true → n < W.x.length →
    ClipPlane ctx B (W.x.take n) plane
  noClip : (overlapOf (fun a => (W.get a).take n) best >. thr) = false ∨ W.x.length ≤ n → plane.cost = maxFinite

/-- Neither candidate beats keeping the node as a leaf. -/
def NoGain (ctx : SpatialCtx F) (B : Aabb F) (n : Nat) (objectCost planeCost : F) : Prop :=
  (FloatOps.min planeCost objectCost >=. (B.halfArea *. (ofNat n -. ctx.traversalCost))) = true

/-- Giving the first `k` references of the order of axis `a` to the left child: that order stays, and in the two other
orders the references whose primitive occurs only among those `k` move to the front. -/
structure ObjectCut (W : RefView F) (n : Nat) (a : Fin 3) (k : Nat) (r : SplitResult F) : Prop where
  mid : r.mid = k
  lt : k < n
  stop : r.stop = n
  same : r.view.get a = W.get a
  others : ∀ b, b ≠ a → ∃ front back, r.view.get b = front ++ back ++ (W.get b).drop n ∧
    ((W.get b).take n).Perm (front ++ back) ∧ front.Sublist ((W.get b).take n) ∧ back.Sublist ((W.get b).take n) ∧
    (∀ x ∈ front, x.primId ∈ ((W.get a).take k).map Ref.primId ∧
      x.primId ∉ (((W.get a).take n).drop k).map Ref.primId) ∧
    (∀ x ∈ back, x.primId ∉ ((W.get a).take k).map Ref.primId ∨
      x.primId ∈ (((W.get a).take n).drop k).map Ref.primId)
  sorted : r.sorted = true

/-- What is left of a reference on the low side of a plane. -/
def lowPart (prims : List (SpatialPrim F)) (axis : Fin 3) (pos : F) (r : Ref F) (p : Ref F) : Prop :=
  ∃ q, prims[r.primId]? = some q ∧ p.primId = r.primId ∧ p.aabb = (q.split axis pos).1.shrink r.aabb ∧
    p.center = p.aabb.center
/-- What is left of a reference on the high side of a plane. -/
def highPart (prims : List (SpatialPrim F)) (axis : Fin 3) (pos : F) (r : Ref F) (p : Ref F) : Prop :=
  ∃ q, prims[r.primId]? = some q ∧ p.primId = r.primId ∧ p.aabb = (q.split axis pos).2.shrink r.aabb ∧
    p.center = p.aabb.center

/-- Clipping `n` references (with room for `room` more) at a plane: those entirely below go left, those entirely above
right; of those that straddle, as many as there is room for are cut in two and each of the others goes to the side that
has fewer (right if equal), which is what the two inequalities say. -/
structure ClipSides (prims : List (SpatialPrim F)) (axis : Fin 3) (pos : F) (room : Nat) (refs left right : List (Ref F)) :
    Prop where
  sides : ∃ (lo hi wholeLo wholeHi : List (Ref F)) (cut : List (Ref F × Ref F × Ref F)),
    refs.Perm (lo ++ hi ++ wholeLo ++ wholeHi ++ cut.map Prod.fst) ∧
    (∀ r ∈ lo, (r.aabb.max.get axis <=. pos) = true) ∧
    (∀ r ∈ hi, (r.aabb.max.get axis <=. pos) = false ∧ (r.aabb.min.get axis >=. pos) = true) ∧
    (∀ r ∈ wholeLo ++ wholeHi ++ cut.map Prod.fst,
      (r.aabb.max.get axis <=. pos) = false ∧ (r.aabb.min.get axis >=. pos) = false) ∧
    (∀ c ∈ cut, lowPart prims axis pos c.1 c.2.1 ∧ highPart prims axis pos c.1 c.2.2) ∧
    cut.length = Min.min room (wholeLo ++ wholeHi ++ cut.map Prod.fst).length ∧
    (wholeLo ≠ [] → lo.length + wholeLo.length ≤ hi.length + wholeHi.length) ∧
    (wholeHi ≠ [] → hi.length + wholeHi.length ≤ lo.length + wholeLo.length + 1) ∧
    left.Perm (lo ++ wholeLo ++ cut.map fun c => c.2.1) ∧ right.Perm (hi ++ wholeHi ++ cut.map fun c => c.2.2)

/-- Clipping a node at a plane.  If nothing straddles and one side stays empty, the references are cut in the middle of
the node's part of the array; the code takes `left_count / 2` for an index into the whole array, so for a node that does
not start at 0 this is another place. -/
structure ClipCut (ctx : SpatialCtx F) (W : RefView F) (begin n : Nat) (plane : SpatialSplit F) (r : SplitResult F) :
    Prop where
  le : r.mid ≤ r.stop ∧ r.stop ≤ W.x.length
  parts : ¬ (∀ x ∈ (W.get plane.axis).take n, (x.aabb.max.get plane.axis <=. plane.position) = true) ∧
      ¬ (∀ x ∈ (W.get plane.axis).take n, (x.aabb.max.get plane.axis <=. plane.position) = false ∧
        (x.aabb.min.get plane.axis >=. plane.position) = true) ∧
      ClipSides ctx.prims plane.axis plane.position (W.x.length - n) ((W.get plane.axis).take n)
      ((r.view.get plane.axis).take r.mid) (((r.view.get plane.axis).take r.stop).drop r.mid) ∨
    r.stop = n ∧ ((r.view.get plane.axis).take n).Perm ((W.get plane.axis).take n) ∧
      ((∀ x ∈ (W.get plane.axis).take n, (x.aabb.max.get plane.axis <=. plane.position) = true) ∧
          begin ≤ n / 2 ∧ r.mid = n / 2 - begin ∨
        (∀ x ∈ (W.get plane.axis).take n, (x.aabb.max.get plane.axis <=. plane.position) = false ∧
          (x.aabb.min.get plane.axis >=. plane.position) = true) ∧ r.mid = n / 2)
  boxes : ∃ left right, left.Perm ((r.view.get plane.axis).take r.mid) ∧
    right.Perm (((r.view.get plane.axis).take r.stop).drop r.mid) ∧ r.leftBox = boxFront left ∧ r.rightBox = boxFront right
  others : ∀ b, (r.view.get b).take r.stop = (r.view.get plane.axis).take r.stop ∧
    (r.view.get b).drop r.stop = (W.get b).drop r.stop
  sorted : r.sorted = false

/-- The cut a node takes: if no candidate pays off and there are more than `max_leaf_size` references, in the middle of
the order of the longest axis; else at the plane if it is cheaper than the object cut; else the object cut. -/
def SpatialCut (ctx : SpatialCtx F) (thr : F) (B : Aabb F) (W : RefView F) (begin n : Nat) (r : SplitResult F) : Prop :=
  ∃ best cost plane, Candidates ctx thr B W n best cost plane ∧
    (NoGain ctx B n cost plane.cost ∧ ctx.maxLeafSize < n ∧ ObjectCut W n B.longestAxis (n / 2) r ∧
        r.leftBox = boxFront ((W.get B.longestAxis).take (n / 2)) ∧
        r.rightBox = boxFront (((W.get B.longestAxis).take n).drop (n / 2)) ∨
      ¬ NoGain ctx B n cost plane.cost ∧ (FloatOps.min plane.cost cost <. cost) = true ∧ ClipCut ctx W begin n plane r ∨
      ¬ NoGain ctx B n cost plane.cost ∧ (FloatOps.min plane.cost cost <. cost) = false ∧ ∃ a k, best = some (a, k) ∧
        ObjectCut W n a k r ∧ r.leftBox = boxFront ((W.get a).take k) ∧ r.rightBox = boxBack (((W.get a).take n).drop k))

/-- Why a node with more than one reference above the depth limit is a leaf. -/
def SpatialLeaf (ctx : SpatialCtx F) (thr : F) (B : Aabb F) (W : RefView F) (n : Nat) : Prop :=
  ∃ best cost plane, Candidates ctx thr B W n best cost plane ∧
    (NoGain ctx B n cost plane.cost ∧ n ≤ ctx.maxLeafSize ∨
      ¬ NoGain ctx B n cost plane.cost ∧ (FloatOps.min plane.cost cost <. cost) = false ∧ best = none)

/-- The left child's share of the free room, in proportion to its cost. -/
def leftShare (len mid stop : Nat) (lb rb : Aabb F) : Nat :=
  if len = stop then 0
  else toNat (ofNat (len - stop) *. ((lb.halfArea *. ofNat mid) /.
    ((lb.halfArea *. ofNat mid) +. (rb.halfArea *. ofNat (stop - mid)))))

/-- Making room for the left child: what was at `mid .. stop` is copied `s` places further. -/
def Shifted (mid stop s : Nat) (l l' : List (Ref F)) : Prop :=
  l'.length = l.length ∧ (mid < stop → stop + s ≤ l.length) ∧
    ∀ i, l'[i]? = if mid + s ≤ i ∧ i < stop + s then l[i - s]? else l[i]?

/-- A tree built by the spatial rule from `n` references at the start of a range `V`.  Every interior node is cut as
`SpatialCut` says and its children's boxes are those of the cut; then the right part is moved by the left child's share
of the room.  The left child gets the range up to `mid`; the right child gets the range from `mid` on, so after a move its
first `stop - mid` entries are not (all of) the moved ones.  A leaf lists the ids of its references in the x order.
`P` is anything else one may want to say about every cut (references, their number, cut). -/
inductive SpatialRule (ctx : SpatialCtx F) (thr : F) (P : RefView F → Nat → SplitResult F → Prop) : (d : Nat) → Aabb F → RefView F → (begin n : Nat) → Bool →
    IdTree F → Prop
  | bottom {d B V begin n sorted} (h : n ≤ 1 ∨ ctx.maxDepth ≤ d) :
      SpatialRule ctx thr P d B V begin n sorted (.leaf B.clean ((V.x.take n).map Ref.primId))
  | leaf {d B V begin n sorted W} (hn : 1 < n) (hd : d < ctx.maxDepth) (ho : InOrder ctx V n sorted W)
      (hl : SpatialLeaf ctx thr B W n) :
      SpatialRule ctx thr P d B V begin n sorted (.leaf B.clean ((W.x.take n).map Ref.primId))
  | node {d B V begin n sorted W r left right} {V' : RefView F} (hn : 1 < n) (hd : d < ctx.maxDepth) (ho : InOrder ctx V n sorted W)
      (hc : SpatialCut ctx thr B W begin n r) (he : ∀ a, (r.view.get a).length = (V.get a).length) (hp : P W n r)
      (hs : ∀ a, Shifted r.mid r.stop (leftShare W.x.length r.mid r.stop r.leftBox r.rightBox) (r.view.get a) (V'.get a))
      (hl : SpatialRule ctx thr P (d + 1) r.leftBox (V'.slice 0 r.mid) begin r.mid r.sorted left)
      (hr : SpatialRule ctx thr P (d + 1) r.rightBox (V'.slice r.mid V'.x.length) (begin + r.mid) (r.stop - r.mid) r.sorted
        right) :
      SpatialRule ctx thr P d B V begin n sorted (.node (B.offsetBy (lit 1 (-4))).clean left right)

/-- A move after a cut does no harm if it moves nothing or moves all of the right part clear of its old place: then the
first `stop` entries stay as the cut left them.  (A move by less than the right part's length overwrites part of it, and
the right child reads the old place.) -/
def Harmless (W : RefView F) (_ : Nat) (r : SplitResult F) : Prop :=
  leftShare W.x.length r.mid r.stop r.leftBox r.rightBox = 0 ∨
    r.stop - r.mid ≤ leftShare W.x.length r.mid r.stop r.leftBox r.rightBox

/-- A move after a cut spares primitive `p`: it does no harm, or no reference to `p` is in the right part. -/
def Spares (p : Nat) (W : RefView F) (n : Nat) (r : SplitResult F) : Prop :=
  Harmless W n r ∨ ∀ a, p ∉ (((r.view.get a).take r.stop).drop r.mid).map Ref.primId

/-- The parameters of a build: the scene, the provided `split` and sort, and the constants of the builder. -/
structure SpatialParams (b : Builder F) (split : Nat → Fin 3 → F → Aabb F × Aabb F)
    (sort : Fin 3 → List (Ref F) → Option (List (Ref F))) (order : List Nat) (ctx : SpatialCtx F) : Prop where
  boxes : ctx.aabbs = b.boxes order
  count : ctx.prims.length = b.primitives.length
  prims : ∀ i p, b.primitives[i]? = some p → ctx.prims[i]? = some (⟨p.center, split i⟩ : SpatialPrim F)
  sort : ctx.sort = sort
  maxDepth : ctx.maxDepth = 64
  maxLeafSize : ctx.maxLeafSize = b.primitivesPerLeaf.getD 1
  traversalCost : ctx.traversalCost = one
  bins : ctx.binCount = 16
  passes : ctx.binningPassCount = 2
  alpha : ctx.alpha = lit 1 (-5)
  splitFactor : ctx.splitFactor = lit 75 (-2)

/-- The references a build starts with: in each of the three arrays one per primitive, in order, with its box and centre;
then room for `⌊0.75 n⌋` more. -/
structure SpatialStart (b : Builder F) (order : List Nat) (V : RefView F) : Prop where
  room : ∀ a, (V.get a).length = referenceLimit F b.primitives.length
  refs : ∀ a i p, b.primitives[i]? = some p → ∃ box, (b.boxes order)[i]? = some box ∧
    (V.get a)[i]? = some (⟨box, p.center, i⟩ : Ref F)
  rest : ∀ a, ∀ x ∈ (V.get a).drop b.primitives.length, x = (⟨Aabb.empty, Vec3.splat zero, 0⟩ : Ref F)

/-- A cut covers a node: in some order, every reference goes to one side or is cut in two, one part on each side; and each
side's box contains the boxes of the references on that side. -/
def CutCovers (prims : List (SpatialPrim F)) (W : RefView F) (n : Nat) (r : SplitResult F) : Prop :=
  ∃ a pos, (∀ x ∈ (W.get a).take n, x ∈ (r.view.get a).take r.mid ∨ x ∈ ((r.view.get a).take r.stop).drop r.mid ∨
      ∃ lo ∈ (r.view.get a).take r.mid, ∃ hi ∈ ((r.view.get a).take r.stop).drop r.mid,
        lowPart prims a pos x lo ∧ highPart prims a pos x hi) ∧
    (∀ x ∈ (r.view.get a).take r.mid, x.aabb.Within r.leftBox) ∧
    ∀ x ∈ ((r.view.get a).take r.stop).drop r.mid, x.aabb.Within r.rightBox

end Rtbvh
