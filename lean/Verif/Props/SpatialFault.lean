import Verif.Proofs.SpatialFault
import Verif.Props.SpatialBounds
import Verif.Spec.Bounded
/- C61: why a spatial build can fail, and when it cannot write outside its buffers. -/
namespace Rtbvh
open FloatOps LawfulFloat
variable {F : Type} [FloatOps F]

/-! ### The causes of faults -/

/-- C61, the part that holds: the list of causes is complete.  If `construct_spatial_sah` panics or leaves its buffers,
for whatever scene, provided `split`, sort and schedule, then among the nodes that the rule of C75 reaches from the root
there is one with a `FaultCause` for that fault: the sort or the search for a clipping plane panics, a slice index is
negative because of the misplaced middle, a node has no references at all, or the left child's share of the free room
exceeds it (the only cause of an access outside the buffers).  Nothing else can go wrong: no pool of nodes too small, no
index out of range, no task reading what another one writes.  Missing: that none of these happens, which is false
(`C61_spatial_panics`, `C61_spatial_wild_write`). -/
theorem C61_fault_causes_partial [LawfulFloat F] {b : Builder F} {split : Nat → Fin 3 → F → Aabb F × Aabb F}
    {sort : Fin 3 → List (Ref F) → Option (List (Ref F))} {order ks : List Nat} (h : b.LegalSpatial order sort)
    {f : Fault} (e : b.constructSpatialSah split sort order ks = .ok (.error f)) :
    ∃ (ctx : SpatialCtx F) (V : RefView F) (x : SpatialNode F), SpatialParams b split sort order ctx ∧
      SpatialStart b order V ∧
      Reached ctx (lit 1 (-5) *. lit 2 0 *. (Aabb.unionOfList (b.boxes order)).halfArea)
        ⟨0, Aabb.unionOfList (b.boxes order), V, 0, b.primitives.length, false⟩ x ∧
      FaultCause ctx (lit 1 (-5) *. lit 2 0 *. (Aabb.unionOfList (b.boxes order)).halfArea) x f := by
  obtain ⟨hs, _, hc⟩ := h.setting (split := split)
  rw [hc, Except.ok.injEq] at e
  obtain ⟨x, h1, h2⟩ := build_fault hs e
  refine ⟨_, _, x, spatialCtx_params, spatial_start (split := split) h, ?_, h2⟩
  have : rootNode (b.spatialCtx split sort order) = ⟨0, Aabb.unionOfList (b.boxes order),
      .ofFn fun _ => initialRefs (b.spatialCtx split sort order), 0, b.primitives.length, false⟩ := by
    unfold rootNode
    rw [hs.aabbs]; rfl
  rw [this] at h1
  exact h1

/-- Not vacuous: five triangles on which the build panics. -/
example : ∃ (ctx : SpatialCtx F32) (V : RefView F32) (x : SpatialNode F32),
    SpatialStart (triScene panicScene) (List.range 5) V ∧
    FaultCause ctx (lit 1 (-5) *. lit 2 0 *. (Aabb.unionOfList ((triScene panicScene).boxes (List.range 5))).halfArea) x
      .panic := by
  obtain ⟨ctx, V, x, _, h1, _, h2⟩ := C61_fault_causes_partial C61_spatial_panics.1 C61_spatial_panics.2.1
  exact ⟨ctx, V, x, h1, h2⟩

/-- The scene has no cause of a fault: no node that the rule reaches has one. -/
def NoFaultCause (b : Builder F) (split : Nat → Fin 3 → F → Aabb F × Aabb F)
    (sort : Fin 3 → List (Ref F) → Option (List (Ref F))) (order : List Nat) : Prop :=
  ∀ (ctx : SpatialCtx F) (V : RefView F) (x : SpatialNode F) (f : Fault), SpatialParams b split sort order ctx →
    SpatialStart b order V →
    Reached ctx (lit 1 (-5) *. lit 2 0 *. (Aabb.unionOfList (b.boxes order)).halfArea)
        ⟨0, Aabb.unionOfList (b.boxes order), V, 0, b.primitives.length, false⟩ x →
    ¬ FaultCause ctx (lit 1 (-5) *. lit 2 0 *. (Aabb.unionOfList (b.boxes order)).halfArea) x f

/-- C61, the part that holds, the other way round: a scene without a cause of a fault builds completely under every
schedule.  There is a number of steps `K` such that every schedule has at most `K` steps, returns a BVH exactly when it
has `K`, and can go on as long as it has fewer. -/
theorem C61_completes_partial [LawfulFloat F] {b : Builder F} {split : Nat → Fin 3 → F → Aabb F × Aabb F}
    {sort : Fin 3 → List (Ref F) → Option (List (Ref F))} {order : List Nat} (h : b.LegalSpatial order sort)
    (hno : NoFaultCause b split sort order) :
    (∀ ks f, b.constructSpatialSah split sort order ks ≠ .ok (.error f)) ∧
    ∃ K, ∀ ks, b.SpatialSchedule split sort order ks → ks.length ≤ K ∧
      ((∃ bvh, b.constructSpatialSah split sort order ks = .ok (.ok (some bvh))) ↔ ks.length = K) ∧
      (ks.length < K → b.SpatialSchedule split sort order (ks ++ [0])) := by
  have nofault : ∀ ks f, b.constructSpatialSah split sort order ks ≠ .ok (.error f) := by
    intro ks f e
    obtain ⟨ctx, V, x, h1, h2, h3, h4⟩ := C61_fault_causes_partial h e
    exact hno ctx V x f h1 h2 h3 h4
  refine ⟨nofault, ?_⟩
  obtain ⟨hs, _, hc⟩ := h.setting (split := split)
  cases hT : spatialRootTree (b.spatialCtx split sort order) with
  | error f =>
    obtain ⟨x, h1, h2⟩ := rootTree_fault hs hT
    have e : rootNode (b.spatialCtx split sort order) = ⟨0, Aabb.unionOfList (b.boxes order),
        .ofFn fun _ => initialRefs (b.spatialCtx split sort order), 0, b.primitives.length, false⟩ := by
      unfold rootNode
      rw [hs.aabbs]; rfl
    rw [e] at h1
    exact absurd h2 (hno _ _ x f spatialCtx_params (spatial_start (split := split) h) h1)
  | ok T0 =>
    refine ⟨2 * T0.size, fun ks hl => ?_⟩
    rcases spatial_main hs ks with ⟨f, e, _⟩ | ⟨s, ex, a2, a3, a4⟩
    · exact absurd (by rw [hc, e]) (nofault ks f)
    · obtain ⟨c1, c2⟩ := a2 _ hT hl
      refine ⟨c1, ?_, fun hlt => ?_⟩
      · rw [← c2]
        constructor
        · rintro ⟨bvh, e⟩
          by_cases hp : s.pending = []
          · exact hp
          · rw [hc, a3 hp] at e; simp at e
        · intro hp
          exact ⟨_, by rw [hc, (a4 hp).1]⟩
      · have hp : s.pending ≠ [] := fun hp => by have := c2.1 hp; omega
        exact SpatialLegal.snoc (ks := ks) hl ex (List.length_pos_iff.2 hp)

/-! ### No access outside the buffers -/

/-- Proof device: the references of a node satisfy `Q`. -/
def FirstAll (Q : Ref F → Prop) (V : RefView F) (n : Nat) : Prop := ∀ a, ∀ x ∈ (V.get a).take n, Q x

omit [FloatOps F] in
theorem InOrder.firstAll {ctx : SpatialCtx F} {V W : RefView F} {n : Nat} {sorted : Bool} {Q : Ref F → Prop}
    (h : InOrder ctx V n sorted W) (hs : ∀ a l l', ctx.sort a l = some l' → l'.Perm l) (hV : FirstAll Q V n) :
    FirstAll Q W n := by
  rcases h with ⟨_, rfl⟩ | ⟨_, h⟩
  · exact hV
  · intro a x hx
    obtain ⟨s, e, hw⟩ := h a
    have hp := hs a _ _ e
    have hl : s.length = Min.min n (V.get a).length := by rw [hp.length_eq, List.length_take]
    rw [hw, List.take_append, List.mem_append] at hx
    rcases hx with hx | hx
    · exact hV a x (hp.mem_iff.1 (List.mem_of_mem_take hx))
    · by_cases hn : n ≤ (V.get a).length
      · rw [hl, Nat.min_eq_left hn, Nat.sub_self] at hx; simp at hx
      · rw [List.drop_eq_nil_of_le (by omega)] at hx; simp at hx

theorem SpatialCut.firstAll {ctx : SpatialCtx F} {thr : F} {B : Aabb F} {W : RefView F} {begin n : Nat}
    {r : SplitResult F} {Q : Ref F → Prop} (h : SpatialCut ctx thr B W begin n r) (hW : FirstAll Q W n)
    (hlow : ∀ a pos x y, Q x → (x.aabb.max.get a <=. pos) = false → (x.aabb.min.get a >=. pos) = false →
      lowPart ctx.prims a pos x y → Q y)
    (hhigh : ∀ a pos x y, Q x → (x.aabb.max.get a <=. pos) = false → (x.aabb.min.get a >=. pos) = false →
      highPart ctx.prims a pos x y → Q y) :
    FirstAll Q r.view r.stop ∧ (∃ l, (∀ x ∈ l, Q x) ∧ r.leftBox = boxFront l) ∧
      ∃ l, (∀ x ∈ l, Q x) ∧ r.rightBox = boxFront l := by
  have obj : ∀ {a k}, ObjectCut W n a k r → FirstAll Q r.view r.stop := by
    intro a k hc b x hx
    rw [hc.stop] at hx
    by_cases hb : b = a
    · subst hb; rw [hc.same] at hx; exact hW _ x hx
    · obtain ⟨front, back, e, hp, _⟩ := hc.others b hb
      rw [e, List.take_append, List.mem_append] at hx
      have hl := hp.length_eq
      rw [List.length_take] at hl
      rcases hx with hx | hx
      · exact hW b x (hp.mem_iff.2 (List.mem_of_mem_take hx))
      · by_cases hn : n ≤ (W.get b).length
        · rw [← hl, Nat.min_eq_left hn, Nat.sub_self] at hx; simp at hx
        · rw [List.drop_eq_nil_of_le (by omega)] at hx; simp at hx
  have sub : ∀ a k, k ≤ n → (∀ x ∈ (W.get a).take k, Q x) ∧ ∀ x ∈ ((W.get a).take n).drop k, Q x := by
    intro a k hk
    exact ⟨fun x hx => hW a x (List.take_subset_take_left _ hk hx), fun x hx => hW a x (List.mem_of_mem_drop hx)⟩
  obtain ⟨best, cost, plane, _, ⟨_, _, hc, el, er⟩ | ⟨_, _, hc⟩ | ⟨_, _, a, k, _, hc, el, er⟩⟩ := h
  · exact ⟨obj hc, ⟨_, (sub _ _ (by omega)).1, el⟩, _, (sub _ _ (by omega)).2, er⟩
  · have key : ∀ x ∈ (r.view.get plane.axis).take r.stop, Q x := by
      have tk : (r.view.get plane.axis).take r.stop = (r.view.get plane.axis).take r.mid ++
          ((r.view.get plane.axis).take r.stop).drop r.mid := by
        conv => lhs; rw [← List.take_append_drop r.mid ((r.view.get plane.axis).take r.stop)]
        rw [List.take_take, Nat.min_eq_left hc.le.1]
      intro x hx
      rcases hc.parts with ⟨_, _, lo, hi, wl, wh, cut, hp, _, _, hst, hcc, _, _, _, hL, hR⟩ | ⟨e, hp, _⟩
      · have mem : ∀ x, x ∈ (W.get plane.axis).take n ↔ x ∈ lo ∨ x ∈ hi ∨ x ∈ wl ∨ x ∈ wh ∨ x ∈ cut.map Prod.fst := by
          intro x; rw [hp.mem_iff]; simp only [List.mem_append, or_assoc]
        rw [tk, List.mem_append, hL.mem_iff, hR.mem_iff] at hx
        simp only [List.mem_append, or_assoc] at hx
        have hcut : ∀ c ∈ cut, Q c.1 ∧ (c.1.aabb.max.get plane.axis <=. plane.position) = false ∧
            (c.1.aabb.min.get plane.axis >=. plane.position) = false := fun c hcm => by
          have hm : c.1 ∈ cut.map Prod.fst := List.mem_map.2 ⟨c, hcm, rfl⟩
          exact ⟨hW _ _ ((mem _).2 (.inr (.inr (.inr (.inr hm))))), hst _ (List.mem_append_right _ hm)⟩
        rcases hx with h | h | h | h | h | h
        · exact hW _ _ ((mem x).2 (.inl h))
        · exact hW _ _ ((mem x).2 (.inr (.inr (.inl h))))
        · obtain ⟨c, hcm, rfl⟩ := List.mem_map.1 h
          obtain ⟨q1, q2, q3⟩ := hcut c hcm
          exact hlow _ _ _ _ q1 q2 q3 (hcc c hcm).1
        · exact hW _ _ ((mem x).2 (.inr (.inl h)))
        · exact hW _ _ ((mem x).2 (.inr (.inr (.inr (.inl h)))))
        · obtain ⟨c, hcm, rfl⟩ := List.mem_map.1 h
          obtain ⟨q1, q2, q3⟩ := hcut c hcm
          exact hhigh _ _ _ _ q1 q2 q3 (hcc c hcm).2
      · rw [e] at hx; exact hW _ x (hp.mem_iff.1 hx)
    obtain ⟨left, right, hl, hr, el, er⟩ := hc.boxes
    refine ⟨fun b x hx => ?_, ⟨left, fun x hx => ?_, el⟩, right, fun x hx => ?_, er⟩
    · rw [(hc.others b).1] at hx; exact key x hx
    · exact key x (List.take_subset_take_left _ hc.le.1 (hl.mem_iff.1 hx))
    · exact key x (List.mem_of_mem_drop (hr.mem_iff.1 hx))
  · have := hc.lt
    exact ⟨obj hc, ⟨_, (sub _ _ (by omega)).1, el⟩, _,
      fun x hx => (sub a k (by omega)).2 x (List.mem_reverse.1 hx), by rw [er, boxBack_eq]⟩

omit [FloatOps F] in
theorem RefView.slice_get (V : RefView F) (b e : Nat) (a : Fin 3) : (V.slice b e).get a = sliceOf (V.get a) b e := by
  match a with
  | 0 => rfl
  | 1 => rfl
  | 2 => rfl

theorem Reached.firstAll {ctx : SpatialCtx F} {thr : F} {root x : SpatialNode F} {Q : Ref F → Prop}
    (hs : ∀ a l l', ctx.sort a l = some l' → l'.Perm l) (h0 : FirstAll Q root.view root.n)
    (hlow : ∀ a pos x y, Q x → (x.aabb.max.get a <=. pos) = false → (x.aabb.min.get a >=. pos) = false →
      lowPart ctx.prims a pos x y → Q y)
    (hhigh : ∀ a pos x y, Q x → (x.aabb.max.get a <=. pos) = false → (x.aabb.min.get a >=. pos) = false →
      highPart ctx.prims a pos x y → Q y) (h : Reached ctx thr root x) : FirstAll Q x.view x.n := by
  have shl : ∀ {x : SpatialNode F} {W r V}, FirstAll Q x.view x.n → CutsTo ctx thr x W r V →
      ∀ a i y, i < r.stop → (V.get a)[i]? = some y → Q y := by
    intro x W r V hx hc a i y hi hy
    obtain ⟨hf, _⟩ := hc.cut.firstAll (hc.order.firstAll hs hx) hlow hhigh
    obtain ⟨_, _, hsh⟩ := hc.shift a
    rw [hsh i] at hy
    have fin : ∀ j, j < r.stop → (r.view.get a)[j]? = some y → Q y := fun j hj e =>
      hf a y (List.mem_iff_getElem?.2 ⟨j, by rw [List.getElem?_take, if_pos hj]; exact e⟩)
    split at hy
    · exact fin _ (by omega) hy
    · exact fin _ hi hy
  have mid : ∀ {x : SpatialNode F} {W r V}, CutsTo ctx thr x W r V → r.mid ≤ r.stop := by
    intro x W r V hc
    obtain ⟨best, cost, plane, _, ⟨_, _, hc, _⟩ | ⟨_, _, hc⟩ | ⟨_, _, a, k, _, hc, _⟩⟩ := hc.cut
    · have := hc.lt; rw [hc.mid, hc.stop]; omega
    · exact hc.le.1
    · have := hc.lt; rw [hc.mid, hc.stop]; omega
  induction h with
  | root => exact h0
  | left h hc ih =>
    intro a y hy
    have := mid hc
    obtain ⟨i, hi⟩ := List.mem_iff_getElem?.1 hy
    simp only [RefView.slice_get, List.getElem?_take, sliceOf_get] at hi
    split at hi
    · split at hi
      · exact shl ih hc a _ y (by omega) hi
      · cases hi
    · cases hi
  | right h hc ih =>
    intro a y hy
    obtain ⟨i, hi⟩ := List.mem_iff_getElem?.1 hy
    simp only [RefView.slice_get, List.getElem?_take, sliceOf_get] at hi
    split at hi
    · split at hi
      · exact shl ih hc a _ y (by omega) hi
      · cases hi
    · cases hi

theorem InOrder.length {ctx : SpatialCtx F} {V W : RefView F} {n : Nat} {sorted : Bool} (h : InOrder ctx V n sorted W)
    (hs : ∀ a l l', ctx.sort a l = some l' → l'.Perm l) : W.x.length = V.x.length := by
  rcases h with ⟨_, rfl⟩ | ⟨_, h⟩
  · rfl
  · obtain ⟨s, e, hw⟩ := h 0
    have := (hs 0 _ _ e).length_eq
    rw [show W.x = s ++ V.x.drop n from hw, List.length_append, this, ← List.length_append]
    exact congrArg List.length (List.take_append_drop n V.x)

theorem SpatialCut.length {ctx : SpatialCtx F} {thr : F} {B : Aabb F} {W : RefView F} {begin n : Nat}
    {r : SplitResult F} (h : SpatialCut ctx thr B W begin n r) : r.view.x.length ≤ W.x.length := by
  have obj : ∀ {a k}, ObjectCut W n a k r → r.view.x.length ≤ W.x.length := by
    intro a k hc
    by_cases hb : (0 : Fin 3) = a
    · subst hb
      exact Nat.le_of_eq (congrArg List.length (show r.view.x = W.x from hc.same))
    · obtain ⟨front, back, e, hp, _⟩ := hc.others 0 hb
      have hl := hp.length_eq
      rw [show r.view.x = front ++ back ++ W.x.drop n from e, List.length_append, ← hl, ← List.length_append]
      exact Nat.le_of_eq (congrArg List.length (List.take_append_drop n W.x))
  obtain ⟨best, cost, plane, _, ⟨_, _, hc, el, er⟩ | ⟨_, _, hc⟩ | ⟨_, _, a, k, _, hc, el, er⟩⟩ := h
  · exact obj hc
  · have h1 := congrArg List.length (show r.view.x.drop r.stop = W.x.drop r.stop from (hc.others 0).2)
    rw [List.length_drop, List.length_drop] at h1
    have := hc.le.2
    omega
  · exact obj hc

theorem Reached.length {ctx : SpatialCtx F} {thr : F} {root x : SpatialNode F}
    (hs : ∀ a l l', ctx.sort a l = some l' → l'.Perm l) (h : Reached ctx thr root x) :
    x.view.x.length ≤ root.view.x.length := by
  have sh : ∀ {x : SpatialNode F} {W r V}, CutsTo ctx thr x W r V → V.x.length ≤ x.view.x.length := by
    intro x W r V hc
    have h1 := (hc.shift 0).1
    have h2 := hc.cut.length
    have h3 := hc.order.length hs
    have h4 : V.x.length = r.view.x.length := h1
    omega
  have sl : ∀ (V : RefView F) (b e : Nat), (V.slice b e).x.length ≤ V.x.length := by
    intro V b e
    simp only [RefView.slice, sliceOf, List.length_take, List.length_drop]; omega
  induction h with
  | root => exact Nat.le_refl _
  | left h hc ih => exact Nat.le_trans (sl _ _ _) (Nat.le_trans (sh hc) ih)
  | right h hc ih => exact Nat.le_trans (sl _ _ _) (Nat.le_trans (sh hc) ih)

/-! Arithmetic of the share, in `f32`. -/

theorem rnd_scale {q d : Nat} (hd : 0 < d) : rnd (q * d) d = rnd q 1 := by
  unfold rnd
  simp only [Nat.mul_div_cancel _ hd, Nat.div_one, Nat.one_mul]
  have e : d * 2 ^ (q.log2 - 23) = 2 ^ (q.log2 - 23) * d := Nat.mul_comm _ _
  rw [e, Nat.mul_div_mul_right _ _ hd, Nat.mul_mod_mul_right]
  have c : (2 ^ (q.log2 - 23) * d < 2 * (q % 2 ^ (q.log2 - 23) * d) ∨ 2 * (q % 2 ^ (q.log2 - 23) * d) = 2 ^ (q.log2 - 23) * d ∧
      q / 2 ^ (q.log2 - 23) % 2 = 1) ↔ (2 ^ (q.log2 - 23) < 2 * (q % 2 ^ (q.log2 - 23)) ∨
      2 * (q % 2 ^ (q.log2 - 23)) = 2 ^ (q.log2 - 23) ∧ q / 2 ^ (q.log2 - 23) % 2 = 1) := by
    rw [← Nat.mul_assoc, Nat.mul_lt_mul_right hd]
    constructor
    · rintro (h | ⟨h, h'⟩)
      · exact .inl h
      · exact .inr ⟨Nat.eq_of_mul_eq_mul_right hd h, h'⟩
    · rintro (h | ⟨h, h'⟩)
      · exact .inl h
      · exact .inr ⟨by rw [h], h'⟩
  simp only [c]

/-- A part of a sum, divided by the sum, is at most 1. -/
theorem div_le_one {c s : F32} (hc : 0 ≤ c.ord) (hs : c.ord ≤ s.ord) (hn : (c.div s).isNaN = false) :
    (c.div s).ord ≤ 2 ^ 149 := by
  have r1 : rep (2 ^ 149) = true := by decide +kernel
  cases c with
  | nan => simp [F32.div, F32.isNaN] at hn
  | inf sg =>
    cases s with
    | nan => simp [F32.div, F32.isNaN] at hn
    | inf sg' => simp [F32.div, F32.isNaN] at hn
    | fin sg' k' h' =>
      have := F32.fin_lt_top k' h'
      cases sg <;> cases sg' <;> simp only [F32.ord, if_true, if_false, Bool.false_eq_true] at hc hs <;> omega
  | fin sg k h =>
    cases s with
    | nan => simp [F32.div, F32.isNaN] at hn
    | inf sg' =>
      simp only [F32.div]
      rw [F32.ord_round, F32.mag_zero]
      split <;> simp
    | fin sg' k' h' =>
      simp only [F32.div] at hn ⊢
      by_cases hk' : k' = 0
      · subst hk'
        by_cases hk : k = 0
        · simp [hk, F32.isNaN] at hn
        · exfalso
          cases sg <;> cases sg' <;> simp only [F32.ord, if_true, if_false, Bool.false_eq_true] at hc hs <;> omega
      · rw [if_neg hk', F32.ord_round]
        have hle : k ≤ k' := by
          cases sg <;> cases sg' <;> simp only [F32.ord, if_true, if_false, Bool.false_eq_true] at hc hs <;> omega
        have hm : F32.mag (k * 2 ^ 149) k' ≤ 2 ^ 149 := by
          have h1 := rnd_mono (d := k') (by omega) (Nat.mul_le_mul_right (2 ^ 149) hle)
          rw [Nat.mul_comm k', rnd_scale (by omega), rnd_of_rep r1] at h1
          unfold F32.mag; omega
        split <;> omega

theorem rep_whole {k : Nat} (hk : k ≤ 2 ^ 24) : rep (k * 2 ^ 149) = true := by
  by_cases h0 : k = 0
  · subst h0; decide +kernel
  by_cases h1 : k = 2 ^ 24
  · subst h1; decide +kernel
  obtain ⟨b1, b2⟩ := log2_bounds h0
  have hl : k.log2 < 24 := (Nat.log2_lt h0).2 (by omega)
  have e : k * 2 ^ 149 = (k * 2 ^ (23 - k.log2)) * 2 ^ (126 + k.log2) := by
    rw [Nat.mul_assoc, ← Nat.pow_add, show 23 - k.log2 + (126 + k.log2) = 149 by omega]
  rw [e]
  have b3 : k * 2 ^ (23 - k.log2) < 2 ^ 24 := by
    have := Nat.mul_lt_mul_of_pos_right b2 (Nat.two_pow_pos (23 - k.log2))
    rwa [← Nat.pow_add, show k.log2 + 1 + (23 - k.log2) = 24 by omega] at this
  refine rep_mul_pow (Nat.le_of_lt b3) (fun _ => ?_) ?_
  · have := Nat.mul_le_mul_right (2 ^ (23 - k.log2)) b1
    rwa [← Nat.pow_add, show k.log2 + (23 - k.log2) = 23 by omega] at this
  · refine Nat.lt_of_lt_of_le (Nat.mul_lt_mul_of_pos_right b3 (Nat.two_pow_pos _)) ?_
    rw [← Nat.pow_add]
    exact Nat.pow_le_pow_right (by omega) (by omega)

/-- Whole numbers up to `2^24` are `f32` numbers. -/
theorem ofNat_whole {k : Nat} (hk : k ≤ 2 ^ 24) : (ofNat k : F32) = .fin false (k * 2 ^ 149) (rep_whole hk) := by
  show F32.round false (k * 2 ^ 149) 1 = _
  unfold F32.round
  have e := rnd_of_rep (rep_whole hk)
  rw [dif_pos (by rw [e]; exact F32.fin_lt_top _ (rep_whole hk))]
  simp only [e]

/-- The share of a part in a whole number up to `2^24` is at most that number. -/
theorem share_le {k : Nat} (hk : k ≤ 2 ^ 24) {c d : F32} (hc : Num c → ((zero : F32) <=. c) = true)
    (hd : Num d → ((zero : F32) <=. d) = true) : toNat ((ofNat k : F32) *. (c /. (c +. d))) ≤ k := by
  have z : ∀ {a : F32}, ((zero : F32) <=. a) = true → 0 ≤ a.ord := fun {a} h => by
    have := (F32.le_iff.1 h).2.2
    rwa [show (zero : F32) = F32.lit 0 0 from rfl, F32.ord_zero] at this
  show Min.min (F32.trunc _).toNat (2 ^ 64 - 1) ≤ k
  generalize hq : c /. (c +. d) = q
  cases hn : q.isNaN with
  | true =>
    have : q = .nan := by cases q <;> simp [F32.isNaN] at hn; rfl
    subst this
    have e : (ofNat k : F32) *. F32.nan = F32.nan := by
      show F32.mul _ F32.nan = _
      cases (ofNat k : F32) <;> rfl
    rw [e]; simp [F32.trunc]
  | false =>
    have hq' : F32.div c (F32.add c d) = q := hq
    have hsum : (F32.add c d).isNaN = false := by
      cases h : F32.add c d with
      | nan => rw [h] at hq'; cases c <;> simp [F32.div] at hq' <;> subst hq' <;> simp [F32.isNaN] at hn
      | inf _ => rfl
      | fin _ _ _ => rfl
    obtain ⟨nc, nd⟩ := add_num_f32 hsum
    have oc := z (hc nc)
    have od := z (hd nd)
    have h1 := div_le_one oc (F32.add_ge od hsum) (by rw [hq']; exact hn)
    rw [hq'] at h1
    obtain ⟨h1r, e1⟩ := one_f32
    rw [ofNat_whole hk]
    generalize hK : F32.fin false (k * 2 ^ 149) (rep_whole hk) = K
    have hKo : K.ord = (k * 2 ^ 149 : Nat) := by rw [← hK]; rfl
    have hKt : K.trunc = (k : Int) := by
      rw [← hK]; simp only [F32.trunc, Bool.false_eq_true, if_false, Nat.mul_div_cancel _ (Nat.two_pow_pos 149)]
    have hKn : K.isNaN = false := by rw [← hK]; rfl
    have e2 : F32.mul (F32.lit 1 0) K = F32.round false (k * 2 ^ 149 * 2 ^ 149) (2 ^ 149) := by
      rw [e1, ← hK]; simp only [F32.mul, Nat.mul_comm (2 ^ 149) (k * 2 ^ 149)]; rfl
    have e3 : (F32.mul (F32.lit 1 0) K).ord = K.ord := by
      rw [e2, F32.ord_round, hKo]
      simp only [Bool.false_eq_true, if_false, F32.mag, rnd_scale (Nat.two_pow_pos 149), rnd_of_rep (rep_whole hk)]
      rw [Nat.min_eq_left (Nat.le_of_lt (F32.fin_lt_top _ (rep_whole hk)))]
    cases hp : (F32.mul K q).isNaN with
    | true =>
      have : F32.mul K q = .nan := by
        cases h : F32.mul K q <;> rw [h] at hp <;> simp [F32.isNaN] at hp
      show Min.min (F32.trunc (F32.mul K q)).toNat (2 ^ 64 - 1) ≤ k
      rw [this]; simp [F32.trunc]
    | false =>
      have h2 := F32.mul_mono_core (a := q) (b := F32.lit 1 0) (c := K) (by rw [hKo]; omega)
        (by rw [e1]; simpa [F32.ord] using h1) (by rw [mul_comm_f32]; exact hp) (by rw [e2]; exact F32.isNaN_round _ _ _)
      rw [e3, mul_comm_f32] at h2
      have h3 := trunc_mono hp hKn h2
      rw [hKt] at h3
      show Min.min (F32.trunc (F32.mul K q)).toNat (2 ^ 64 - 1) ≤ k
      omega

/-- Proof device: a box that is finite and the right way round, or the empty box. -/
def Aabb.Sane (b : Aabb F) : Prop :=
  b.min.Finite ∧ b.max.Finite ∧ b.Valid ∨ b.min = (Aabb.empty : Aabb F).min ∧ b.max = (Aabb.empty : Aabb F).max

theorem Aabb.empty_finite [LawfulFloat F] : (Aabb.empty : Aabb F).min.Finite ∧ (Aabb.empty : Aabb F).max.Finite :=
  ⟨⟨lit_fin (by decide) (by decide) (by decide), lit_fin (by decide) (by decide) (by decide),
      lit_fin (by decide) (by decide) (by decide)⟩,
    ⟨lit_fin (by decide) (by decide) (by decide), lit_fin (by decide) (by decide) (by decide),
      lit_fin (by decide) (by decide) (by decide)⟩⟩

theorem Aabb.Sane.finite [LawfulFloat F] {b : Aabb F} (h : b.Sane) : b.min.Finite ∧ b.max.Finite := by
  rcases h with ⟨h1, h2, _⟩ | ⟨h1, h2⟩
  · exact ⟨h1, h2⟩
  · rw [h1, h2]; exact Aabb.empty_finite

theorem Vec3.Finite.numeric [LawfulFloat F] {v : Vec3 F} (h : v.Finite) : v.Numeric :=
  ⟨fin_num h.1, fin_num h.2.1, fin_num h.2.2⟩

theorem fin_min [LawfulFloat F] {a b : F} (ha : Fin' a) (hb : Fin' b) : Fin' (FloatOps.min a b) := by
  rcases min_num (fin_num ha) (fin_num hb) with ⟨e, _⟩ | ⟨e, _⟩ <;> rw [e] <;> assumption
theorem fin_max [LawfulFloat F] {a b : F} (ha : Fin' a) (hb : Fin' b) : Fin' (FloatOps.max a b) := by
  rcases max_num (fin_num ha) (fin_num hb) with ⟨e, _⟩ | ⟨e, _⟩ <;> rw [e] <;> assumption

theorem Aabb.Sane.growBB [LawfulFloat F] {a b : Aabb F} (ha : a.Sane) (hb : b.Sane) : (a.growBB b).Sane := by
  obtain ⟨a1, a2⟩ := ha.finite
  obtain ⟨b1, b2⟩ := hb.finite
  have fmin : (a.min.min b.min).Finite := ⟨fin_min a1.1 b1.1, fin_min a1.2.1 b1.2.1, fin_min a1.2.2 b1.2.2⟩
  have fmax : (a.max.max b.max).Finite := ⟨fin_max a2.1 b2.1, fin_max a2.2.1 b2.2.1, fin_max a2.2.2 b2.2.2⟩
  rcases ha with ⟨_, _, ha⟩ | ⟨ha1, ha2⟩
  · exact .inl ⟨fmin, fmax, ((Vec3.min_le_left a1.numeric b1.numeric).trans ha).trans
      (Vec3.le_max_left a2.numeric b2.numeric)⟩
  · rcases hb with ⟨_, _, hb⟩ | ⟨hb1, hb2⟩
    · exact .inl ⟨fmin, fmax, ((Vec3.min_le_right a1.numeric b1.numeric).trans hb).trans
        (Vec3.le_max_right a2.numeric b2.numeric)⟩
    · have mi : ∀ {x : F}, Num x → FloatOps.min x x = x := fun h => by
        rcases min_num h h with ⟨e, _⟩ | ⟨e, _⟩ <;> exact e
      have ma : ∀ {x : F}, Num x → FloatOps.max x x = x := fun h => by
        rcases max_num h h with ⟨e, _⟩ | ⟨e, _⟩ <;> exact e
      right
      constructor
      · show a.min.min b.min = _
        rw [hb1, ← ha1]
        exact congr (congr (congrArg Vec3.mk (mi (fin_num a1.1))) (mi (fin_num a1.2.1))) (mi (fin_num a1.2.2))
      · show a.max.max b.max = _
        rw [hb2, ← ha2]
        exact congr (congr (congrArg Vec3.mk (ma (fin_num a2.1))) (ma (fin_num a2.2.1))) (ma (fin_num a2.2.2))

theorem boxFront_sane [LawfulFloat F] {l : List (Ref F)} (h : ∀ x ∈ l, x.aabb.Sane) : (boxFront l).Sane := by
  have key : ∀ (l : List (Aabb F)) (c : Aabb F), c.Sane → (∀ x ∈ l, x.Sane) → (l.foldl Aabb.growBB c).Sane := by
    intro l
    induction l with
    | nil => intro c hc _; exact hc
    | cons x l ih =>
      intro c hc hl
      exact ih _ (hc.growBB (hl x List.mem_cons_self)) fun y hy => hl y (List.mem_cons_of_mem _ hy)
  refine key _ _ (.inr ⟨rfl, rfl⟩) fun x hx => ?_
  obtain ⟨y, hy, rfl⟩ := List.mem_map.1 hx
  exact h y hy

/-- The half area of a sane box is not negative (it can be NaN or infinite). -/
theorem Aabb.Sane.halfArea {b : Aabb F32} (h : b.Sane) : Num b.halfArea → ((zero : F32) <=. b.halfArea) = true := by
  intro hn
  rcases h with ⟨h1, h2, h3⟩ | ⟨h1, h2⟩
  · have dx := sub_nonneg h1.1 h3.1
    have dy := sub_nonneg h1.2.1 h3.2.1
    have dz := sub_nonneg h1.2.2 h3.2.2
    obtain ⟨n1, n2⟩ := add_num hn
    exact add_nonneg (mul_nonneg (add_nonneg dx dy) dz n1) (mul_nonneg dx dy n2)
  · have : b.halfArea = (Aabb.empty : Aabb F32).halfArea := by
      unfold Aabb.halfArea Aabb.diagonal
      rw [h1, h2]
    rw [this]; decide +kernel

/-- C61, the part that holds about memory: a build never accesses anything outside its buffers if the boxes stay finite
and the right way round.  `Inv i box` is any condition on the boxes a primitive `i` can have that the scene's own boxes
meet, that implies finite and `min ≤ max`, and that is kept when a box that a plane cuts is replaced by its meet with
either side of the provided `split`.  The limit on references must be at most `2^24` (9.5 million primitives).  Missing:
without the condition the claim is false (`C61_spatial_wild_write`). -/
theorem C61_no_wild_write_partial {b : Builder F32} {split : Nat → Fin 3 → F32 → Aabb F32 × Aabb F32}
    {sort : Fin 3 → List (Ref F32) → Option (List (Ref F32))} {order ks : List Nat} (h : b.LegalSpatial order sort)
    (hroom : referenceLimit F32 b.primitives.length ≤ 2 ^ 24) (Inv : Nat → Aabb F32 → Prop)
    (hstart : ∀ i box, (b.boxes order)[i]? = some box → Inv i box)
    (hsane : ∀ i box, Inv i box → box.min.Finite ∧ box.max.Finite ∧ box.Valid)
    (hcut : ∀ i a pos box, Inv i box → (box.max.get a <=. pos) = false → (box.min.get a >=. pos) = false →
      Inv i ((split i a pos).1.shrink box) ∧ Inv i ((split i a pos).2.shrink box)) :
    b.constructSpatialSah split sort order ks ≠ .ok (.error .wildWrite) := by
  intro e
  obtain ⟨ctx, V, x, hp, hV, hR, hf⟩ := C61_fault_causes_partial h e
  have hso : ∀ a l l', ctx.sort a l = some l' → l'.Perm l := by rw [hp.sort]; exact h.sorts
  -- what holds of every reference of every node
  let Q : Ref F32 → Prop := fun r => r.primId < b.primitives.length ∧ Inv r.primId r.aabb
  have part : ∀ {i : Nat} {q : SpatialPrim F32}, i < b.primitives.length → ctx.prims[i]? = some q → q.split = split i := by
    intro i q hi hq
    rw [hp.prims i _ (List.getElem?_eq_getElem hi)] at hq
    cases hq; rfl
  have hlow : ∀ a pos x y, Q x → (x.aabb.max.get a <=. pos) = false → (x.aabb.min.get a >=. pos) = false →
      lowPart ctx.prims a pos x y → Q y := by
    rintro a pos x y ⟨q1, q2⟩ h1 h2 ⟨q, hq, e1, e2, _⟩
    refine ⟨by rw [e1]; exact q1, ?_⟩
    rw [e1, e2, part q1 hq]
    exact (hcut _ a pos _ q2 h1 h2).1
  have hhigh : ∀ a pos x y, Q x → (x.aabb.max.get a <=. pos) = false → (x.aabb.min.get a >=. pos) = false →
      highPart ctx.prims a pos x y → Q y := by
    rintro a pos x y ⟨q1, q2⟩ h1 h2 ⟨q, hq, e1, e2, _⟩
    refine ⟨by rw [e1]; exact q1, ?_⟩
    rw [e1, e2, part q1 hq]
    exact (hcut _ a pos _ q2 h1 h2).2
  have h0 : FirstAll Q V b.primitives.length := by
    intro a r hr
    obtain ⟨i, hi⟩ := List.mem_iff_getElem?.1 hr
    rw [List.getElem?_take] at hi
    split at hi
    · rename_i hlt
      obtain ⟨box, hb, hv⟩ := hV.refs a i _ (List.getElem?_eq_getElem hlt)
      rw [hv] at hi
      cases hi
      exact ⟨hlt, hstart i box hb⟩
    · cases hi
  have hQ := hR.firstAll hso h0 hlow hhigh
  have hlen := hR.length hso
  have hroot : V.x.length = referenceLimit F32 b.primitives.length := hV.room 0
  cases hf with
  | @share W r _ ho hc hl hr hs =>
    obtain ⟨_, ⟨L, hL, eL⟩, R, hR', eR⟩ := hc.firstAll (ho.firstAll hso hQ) hlow hhigh
    have sL : r.leftBox.Sane := eL ▸ boxFront_sane fun x hx => .inl (hsane _ _ (hL x hx).2)
    have sR : r.rightBox.Sane := eR ▸ boxFront_sane fun x hx => .inl (hsane _ _ (hR' x hx).2)
    have hw := ho.length hso
    have key : leftShare W.x.length r.mid r.stop r.leftBox r.rightBox ≤ W.x.length - r.stop := by
      unfold leftShare
      split
      · exact Nat.zero_le _
      · refine share_le (by simp only at hlen; omega) (fun hn => ?_) (fun hn => ?_)
        · exact mul_nonneg (sL.halfArea (mul_num hn).1) (ofNat_nonneg _) hn
        · exact mul_nonneg (sR.halfArea (mul_num hn).1) (ofNat_nonneg _) hn
    omega

/-- A vector with one coordinate replaced. -/
def Vec3.put (v : Vec3 F) (a : Fin 3) (x : F) : Vec3 F :=
  ⟨if a = 0 then x else v.x, if a = 1 then x else v.y, if a = 2 then x else v.z⟩

/-- A `split` for primitives that fill their box: the two parts of the box. -/
def clipBox (box : Aabb F) (a : Fin 3) (pos : F) : Aabb F × Aabb F :=
  ({ box with max := box.max.put a (if pos <. box.max.get a then pos else box.max.get a) },
   { box with min := box.min.put a (if box.min.get a <. pos then pos else box.min.get a) })

theorem meet_coord [LawfulFloat F] {lo hi m M Y X : F} (fm : Fin' m) (fM : Fin' M) (fY : Fin' Y) (fX : Fin' X)
    (h1 : (m <=. M) = true) (h2 : (Y <=. M) = true) (h3 : (m <=. X) = true) (h4 : (Y <=. X) = true)
    (h5 : (lo <=. Y) = true) (h6 : (X <=. hi) = true) :
    Fin' (FloatOps.max Y m) ∧ Fin' (FloatOps.min X M) ∧ (FloatOps.max Y m <=. FloatOps.min X M) = true ∧
      (lo <=. FloatOps.max Y m) = true ∧ (FloatOps.min X M <=. hi) = true :=
  ⟨fin_max fY fm, fin_min fX fM, max_le' (le_min' h4 h2) (le_min' h3 h1),
    le_trans h5 (le_max_left' (fin_num fY) (fin_num fm)), le_trans (min_le_left' (fin_num fX) (fin_num fM)) h6⟩

/-- Clipping boxes meets the condition of `C61_no_wild_write_partial`. -/
theorem clipBox_keeps [LawfulFloat F] {box B : Aabb F} {a : Fin 3} {pos : F} (h1 : box.min.Finite) (h2 : box.max.Finite)
    (hB1 : B.min.Finite) (hB2 : B.max.Finite) (hv : B.Valid) (hw : B.Within box)
    (hs1 : (B.max.get a <=. pos) = false) (hs2 : (B.min.get a >=. pos) = false) :
    let l := (clipBox box a pos).1.shrink B
    let r := (clipBox box a pos).2.shrink B
    (l.min.Finite ∧ l.max.Finite ∧ l.Valid ∧ l.Within box) ∧ r.min.Finite ∧ r.max.Finite ∧ r.Valid ∧ r.Within box := by
  -- one coordinate that is not cut
  have plain : ∀ {lo hi m M : F}, Fin' lo → Fin' hi → Fin' m → Fin' M → (m <=. M) = true → (lo <=. m) = true →
      (M <=. hi) = true → Fin' (FloatOps.max lo m) ∧ Fin' (FloatOps.min hi M) ∧
        (FloatOps.max lo m <=. FloatOps.min hi M) = true ∧ (lo <=. FloatOps.max lo m) = true ∧
        (FloatOps.min hi M <=. hi) = true := by
    intro lo hi m M f1 f2 f3 f4 q1 q2 q3
    exact meet_coord f3 f4 f1 f2 q1 (le_trans q2 q1) (le_trans q1 q3) (le_trans (le_trans q2 q1) q3)
      (le_refl (fin_num f1)) (le_refl (fin_num f2))
  -- one coordinate that is cut
  have cut : ∀ {lo hi m M : F}, Fin' lo → Fin' hi → Fin' m → Fin' M → (m <=. M) = true → (lo <=. m) = true →
      (M <=. hi) = true → (M <=. pos) = false → (m >=. pos) = false →
      (Fin' (FloatOps.max lo m) ∧ Fin' (FloatOps.min (if pos <. hi then pos else hi) M) ∧
        (FloatOps.max lo m <=. FloatOps.min (if pos <. hi then pos else hi) M) = true ∧
        (lo <=. FloatOps.max lo m) = true ∧ (FloatOps.min (if pos <. hi then pos else hi) M <=. hi) = true) ∧
      (Fin' (FloatOps.max (if lo <. pos then pos else lo) m) ∧ Fin' (FloatOps.min hi M) ∧
        (FloatOps.max (if lo <. pos then pos else lo) m <=. FloatOps.min hi M) = true ∧
        (lo <=. FloatOps.max (if lo <. pos then pos else lo) m) = true ∧ (FloatOps.min hi M <=. hi) = true) := by
    intro lo hi m M f1 f2 f3 f4 q1 q2 q3 s1 s2
    by_cases hp : Num pos
    · have l1 : (m <=. pos) = true := by
        rcases le_total (fin_num f3) hp with h | h
        · exact h
        · exact absurd h (by rw [show (pos <=. m) = false from s2]; simp)
      have l2 : (pos <=. M) = true := by
        rcases le_total (fin_num f4) hp with h | h
        · rw [h] at s1; cases s1
        · exact h
      have fp := fin_between f3 f4 l1 l2
      constructor
      · have : (if (pos <. hi) = true then pos else hi) = pos ∨ (if (pos <. hi) = true then pos else hi) = hi := by
          split
          · exact .inl rfl
          · exact .inr rfl
        rcases this with e | e <;> rw [e]
        · exact meet_coord f3 f4 f1 fp q1 (le_trans q2 q1) l1 (le_trans q2 l1) (le_refl (fin_num f1)) (le_trans l2 q3)
        · exact plain f1 f2 f3 f4 q1 q2 q3
      · have : (if (lo <. pos) = true then pos else lo) = pos ∨ (if (lo <. pos) = true then pos else lo) = lo := by
          split
          · exact .inl rfl
          · exact .inr rfl
        rcases this with e | e <;> rw [e]
        · exact meet_coord f3 f4 fp f2 q1 l2 (le_trans q1 q3) (le_trans l2 q3) (le_trans q2 l1) (le_refl (fin_num f2))
        · exact plain f1 f2 f3 f4 q1 q2 q3
    · have e1 : ¬ (pos <. hi) = true := fun h => hp (lt_iff.1 h).1
      have e2 : ¬ (lo <. pos) = true := fun h => hp (lt_iff.1 h).2.1
      rw [if_neg e1, if_neg e2]
      exact ⟨plain f1 f2 f3 f4 q1 q2 q3, plain f1 f2 f3 f4 q1 q2 q3⟩
  have px := plain h1.1 h2.1 hB1.1 hB2.1 hv.1 hw.1.1 hw.2.1
  have py := plain h1.2.1 h2.2.1 hB1.2.1 hB2.2.1 hv.2.1 hw.1.2.1 hw.2.2.1
  have pz := plain h1.2.2 h2.2.2 hB1.2.2 hB2.2.2 hv.2.2 hw.1.2.2 hw.2.2.2
  match a with
  | 0 =>
    obtain ⟨c1, c2⟩ := cut h1.1 h2.1 hB1.1 hB2.1 hv.1 hw.1.1 hw.2.1 hs1 hs2
    exact ⟨⟨⟨c1.1, py.1, pz.1⟩, ⟨c1.2.1, py.2.1, pz.2.1⟩, ⟨c1.2.2.1, py.2.2.1, pz.2.2.1⟩,
      ⟨c1.2.2.2.1, py.2.2.2.1, pz.2.2.2.1⟩, ⟨c1.2.2.2.2, py.2.2.2.2, pz.2.2.2.2⟩⟩,
      ⟨c2.1, py.1, pz.1⟩, ⟨c2.2.1, py.2.1, pz.2.1⟩, ⟨c2.2.2.1, py.2.2.1, pz.2.2.1⟩,
      ⟨c2.2.2.2.1, py.2.2.2.1, pz.2.2.2.1⟩, ⟨c2.2.2.2.2, py.2.2.2.2, pz.2.2.2.2⟩⟩
  | 1 =>
    obtain ⟨c1, c2⟩ := cut h1.2.1 h2.2.1 hB1.2.1 hB2.2.1 hv.2.1 hw.1.2.1 hw.2.2.1 hs1 hs2
    exact ⟨⟨⟨px.1, c1.1, pz.1⟩, ⟨px.2.1, c1.2.1, pz.2.1⟩, ⟨px.2.2.1, c1.2.2.1, pz.2.2.1⟩,
      ⟨px.2.2.2.1, c1.2.2.2.1, pz.2.2.2.1⟩, ⟨px.2.2.2.2, c1.2.2.2.2, pz.2.2.2.2⟩⟩,
      ⟨px.1, c2.1, pz.1⟩, ⟨px.2.1, c2.2.1, pz.2.1⟩, ⟨px.2.2.1, c2.2.2.1, pz.2.2.1⟩,
      ⟨px.2.2.2.1, c2.2.2.2.1, pz.2.2.2.1⟩, ⟨px.2.2.2.2, c2.2.2.2.2, pz.2.2.2.2⟩⟩
  | 2 =>
    obtain ⟨c1, c2⟩ := cut h1.2.2 h2.2.2 hB1.2.2 hB2.2.2 hv.2.2 hw.1.2.2 hw.2.2.2 hs1 hs2
    exact ⟨⟨⟨px.1, py.1, c1.1⟩, ⟨px.2.1, py.2.1, c1.2.1⟩, ⟨px.2.2.1, py.2.2.1, c1.2.2.1⟩,
      ⟨px.2.2.2.1, py.2.2.2.1, c1.2.2.2.1⟩, ⟨px.2.2.2.2, py.2.2.2.2, c1.2.2.2.2⟩⟩,
      ⟨px.1, py.1, c2.1⟩, ⟨px.2.1, py.2.1, c2.2.1⟩, ⟨px.2.2.1, py.2.2.1, c2.2.2.1⟩,
      ⟨px.2.2.2.1, py.2.2.2.1, c2.2.2.2.1⟩, ⟨px.2.2.2.2, py.2.2.2.2, c2.2.2.2.2⟩⟩

/-- C61 for scenes of boxes: with `split` cutting the primitive's own box at the plane, and boxes that are finite and the
right way round, `construct_spatial_sah` never accesses anything outside its buffers, under any schedule. -/
theorem C61_box_scenes_partial {b : Builder F32} {sort : Fin 3 → List (Ref F32) → Option (List (Ref F32))}
    {order ks : List Nat} (h : b.LegalSpatial order sort) (hroom : referenceLimit F32 b.primitives.length ≤ 2 ^ 24)
    (hsane : ∀ box ∈ b.boxes order, box.min.Finite ∧ box.max.Finite ∧ box.Valid) :
    b.constructSpatialSah (fun i => clipBox (((b.boxes order)[i]?).getD Aabb.empty)) sort order ks ≠
      .ok (.error .wildWrite) := by
  refine C61_no_wild_write_partial h hroom (fun i B => ∃ box, (b.boxes order)[i]? = some box ∧ B.min.Finite ∧
    B.max.Finite ∧ B.Valid ∧ B.Within box) ?_ ?_ ?_
  · intro i box hb
    obtain ⟨h1, h2, h3⟩ := hsane _ (List.mem_of_getElem? hb)
    exact ⟨box, hb, h1, h2, h3, .refl ⟨h1.numeric, h2.numeric⟩⟩
  · rintro i B ⟨_, _, h1, h2, h3, _⟩
    exact ⟨h1, h2, h3⟩
  · rintro i a pos B ⟨box, hb, h1, h2, h3, h4⟩ s1 s2
    obtain ⟨g1, g2, _⟩ := hsane _ (List.mem_of_getElem? hb)
    rw [hb, Option.getD_some]
    obtain ⟨k1, k2⟩ := clipBox_keeps g1 g2 h1 h2 h3 h4 s1 s2
    exact ⟨⟨box, rfl, k1⟩, box, rfl, k2⟩

/-- Not vacuous: the boxes of the five triangles on which the build with triangles panics. -/
example (ks : List Nat) : (triScene panicScene).constructSpatialSah
    (fun i => clipBox ((((triScene panicScene).boxes (List.range 5))[i]?).getD Aabb.empty)) refSort (List.range 5) ks ≠
      .ok (.error .wildWrite) := by
  refine C61_box_scenes_partial (triScene_legal _ _ (by decide) (by decide) (by decide) (by decide +kernel))
    (by decide +kernel) ?_
  unfold Aabb.Valid Vec3.Le Vec3.Finite Fin'
  decide +kernel

/-! ### A scene without a cause -/

/-- Two triangles far apart. -/
def apartScene : List (Triangle F32) := [sliver 0 1, sliver 10 11]
/-- Their references. -/
def apartRefs : List (Ref F32) :=
  [⟨triBox (sliver 0 1), centroid (sliver 0 1), 0⟩, ⟨triBox (sliver 10 11), centroid (sliver 10 11), 1⟩]
/-- Their references in the order of an axis. -/
def apartSorted (a : Fin 3) : List (Ref F32) := (refSort a apartRefs).getD []

/-- `C61_completes_partial` is not vacuous: two triangles far apart have no cause of a fault. -/
theorem apart_no_cause : NoFaultCause (triScene apartScene) (triSplit apartScene) refSort [0, 1] := by
  intro ctx V x f hp hV hR hF
  generalize hthr : lit 1 (-5) *. lit 2 0 *. (Aabb.unionOfList ((triScene apartScene).boxes [0, 1])).halfArea = thr at hR hF
  generalize hroot : (⟨0, Aabb.unionOfList ((triScene apartScene).boxes [0, 1]), V, 0,
    (triScene apartScene).primitives.length, false⟩ : SpatialNode F32) = root at hR
  have rn : root.n = 2 := by rw [← hroot]; rfl
  have rv : root.view = V := by rw [← hroot]
  have rs : root.sorted = false := by rw [← hroot]
  have rb : root.begin = 0 := by rw [← hroot]
  have rbox : root.box.longestAxis = 0 := by
    rw [← hroot]
    show (Aabb.unionOfList ((triScene apartScene).boxes [0, 1])).longestAxis = 0
    decide +kernel
  have hlen : ∀ a, (V.get a).length = 3 := fun a => (hV.room a).trans (by decide +kernel)
  have htake : ∀ a, (V.get a).take 2 = apartRefs := by
    intro a
    have h0 := hV.refs a 0 ⟨centroid (sliver 0 1), triBox (sliver 0 1)⟩ rfl
    have h1 := hV.refs a 1 ⟨centroid (sliver 10 11), triBox (sliver 10 11)⟩ rfl
    obtain ⟨b0, e0, q0⟩ := h0
    obtain ⟨b1, e1, q1⟩ := h1
    have e0' : triBox (sliver 0 1) = b0 := Option.some.inj e0
    have e1' : triBox (sliver 10 11) = b1 := Option.some.inj e1
    subst e0'; subst e1'
    generalize V.get a = l at q0 q1
    match l, q0, q1 with
    | y :: z :: l, q0, q1 =>
      simp only [List.getElem?_cons_zero, List.getElem?_cons_succ, Option.some.injEq] at q0 q1
      subst q0; subst q1; rfl
  have hsome : ∀ a, refSort a apartRefs = some (apartSorted a) := fun a => rfl
  have hsl : ∀ a, (apartSorted a).length = 2 := fun a => (refSort_sorts a _ _ (hsome a)).length_eq
  have hW : ∀ {W}, InOrder ctx root.view root.n root.sorted W → (∀ a, (W.get a).take 2 = apartSorted a) ∧ W.x.length = 3 := by
    intro W ho
    rw [rv, rn, rs] at ho
    refine ⟨fun a => ?_, (ho.length (by rw [hp.sort]; exact refSort_sorts)).trans (hlen 0)⟩
    rcases ho with ⟨h, _⟩ | ⟨_, h⟩
    · cases h
    · obtain ⟨s, e, hw⟩ := h a
      rw [hp.sort, htake, hsome, Option.some.injEq] at e
      subst e
      rw [hw, List.take_append_of_le_length (by rw [hsl])]
      exact List.take_of_length_le (by rw [hsl])
  -- the sides of the best cut do not overlap
  have hov : ∀ {best cost}, BestObject apartSorted 2 best cost → (overlapOf apartSorted best >. thr) = false := by
    intro best cost hb
    rw [← hthr]
    match best, hb with
    | none, hb =>
      have h1 := hb.2 0 1 (by omega) (by omega)
      rw [show (objectCost (apartSorted 0) 1 <. (maxFinite : F32)) = true by decide +kernel] at h1
      cases h1
    | some (a, k), hb =>
      obtain rfl : k = 1 := by have := hb.1; have := hb.2.1; omega
      revert a
      have : ∀ a : Fin 3, (overlapOf apartSorted (some (a, 1)) >.
        (lit 1 (-5) *. lit 2 0 *. (Aabb.unionOfList ((triScene apartScene).boxes [0, 1])).halfArea)) = false := by
        decide +kernel
      exact fun a _ => this a
  have hbest : ∀ {W best cost}, InOrder ctx root.view root.n root.sorted W →
      BestObject (fun a => (W.get a).take root.n) root.n best cost →
      BestObject apartSorted 2 best cost ∧ (overlapOf (fun a => (W.get a).take root.n) best >. thr) = false := by
    intro W best cost ho hb
    have : (fun a => (W.get a).take root.n) = apartSorted := by
      funext a; rw [rn]; exact (hW ho).1 a
    rw [this, rn] at hb
    rw [this]
    exact ⟨hb, hov hb⟩
  -- so no plane is taken
  have hnp : ∀ {W best cost plane}, InOrder ctx root.view root.n root.sorted W →
      Candidates ctx thr root.box W root.n best cost plane → (FloatOps.min plane.cost cost <. cost) = false := by
    intro W best cost plane ho hc
    obtain ⟨hb, hv⟩ := hbest ho hc.object
    rw [hc.noClip (.inl hv)]
    match best, hb with
    | none, hb => rw [hb.1]; decide +kernel
    | some (a, k), hb =>
      have h1 := hb.2.2.2.1
      have hn : Num cost := (lt_iff.1 h1).1
      have hm : Num (maxFinite : F32) := (lt_iff.1 h1).2.1
      cases e : (FloatOps.min maxFinite cost <. cost) with
      | false => rfl
      | true =>
        exfalso
        have h2 := le_min' (lt_le h1) (le_refl hn)
        rw [lt_iff] at e
        rw [e.2.2] at h2
        cases h2
  have hcut : ∀ {W r}, InOrder ctx root.view root.n root.sorted W → SpatialCut ctx thr root.box W root.begin root.n r →
      r.mid = 1 ∧ r.stop = 2 ∧ ∃ a, (r.leftBox = boxFront ((apartSorted a).take 1)) ∧
        (r.rightBox = boxFront ((apartSorted a).drop 1) ∨ r.rightBox = boxBack ((apartSorted a).drop 1)) := by
    rintro W r ho ⟨best, cost, plane, hc, ⟨_, _, hk, el, er⟩ | ⟨_, h, _⟩ | ⟨_, _, a, k, e, hk, el, er⟩⟩
    · rw [rn, rbox] at hk el er
      refine ⟨hk.mid, hk.stop, 0, ?_, .inl ?_⟩
      · rw [el, ← (hW ho).1, List.take_take]; rfl
      · rw [er, (hW ho).1]
    · rw [hnp ho hc] at h; cases h
    · obtain ⟨hb, _⟩ := hbest ho hc.object
      subst e
      obtain rfl : k = 1 := by have := hb.1; have := hb.2.1; omega
      rw [rn] at hk er
      refine ⟨hk.mid, hk.stop, a, ?_, .inr ?_⟩
      · rw [el, ← (hW ho).1, List.take_take]; rfl
      · rw [er, (hW ho).1]
  have hreach : x = root ∨ x.n = 1 := by
    have : ∀ {y}, Reached ctx thr root y → y = root ∨ y.n = 1 := by
      intro y hy
      induction hy with
      | root => exact .inl rfl
      | left _ hc ih =>
        rcases ih with rfl | ih
        · exact .inr (hcut hc.order hc.cut).1
        · have := hc.many; omega
      | right _ hc ih =>
        rcases ih with rfl | ih
        · obtain ⟨h1, h2, _⟩ := hcut hc.order hc.cut
          exact .inr (by show _ - _ = 1; omega)
        · have := hc.many; omega
    exact this hR
  rcases hreach with rfl | h1
  · cases hF with
    | sort hn hs h =>
      rw [rv, rn, htake, hp.sort] at h
      cases h
    | plane hn ho hb hv hr h => rw [(hbest ho hb).2] at hv; cases hv
    | slice hn ho hc hg hp' hl hb => rw [hnp ho hc] at hp'; cases hp'
    | share hn ho hc hl hr hs =>
      obtain ⟨e1, e2, a, el, er⟩ := hcut ho hc
      rw [e1, e2, el, (hW ho).2] at hs
      have q1 : ∀ a : Fin 3, ¬ 3 < 2 + leftShare 3 1 2 (boxFront ((apartSorted a).take 1)) (boxFront ((apartSorted a).drop 1)) := by
        decide +kernel
      have q2 : ∀ a : Fin 3, ¬ 3 < 2 + leftShare 3 1 2 (boxFront ((apartSorted a).take 1)) (boxBack ((apartSorted a).drop 1)) := by
        decide +kernel
      rcases er with er | er <;> rw [er] at hs
      · exact q1 a hs
      · exact q2 a hs
    | empty h => omega
  · cases hF with
    | sort hn => have := hn.1; omega
    | plane hn => have := hn.1; omega
    | slice hn => have := hn.1; omega
    | share hn => have := hn.1; omega
    | empty h => omega

/-- So the two triangles are built under every schedule, and none faults. -/
example (ks : List Nat) (f : Fault) :
    (triScene apartScene).constructSpatialSah (triSplit apartScene) refSort [0, 1] ks ≠ .ok (.error f) :=
  (C61_completes_partial (triScene_legal _ _ (by decide) (by decide) (by decide) (by decide +kernel)) apart_no_cause).1 ks f

/-- `panicScene` does have a cause. -/
example : ¬ NoFaultCause (triScene panicScene) (triSplit panicScene) refSort (List.range 5) := fun h => by
  obtain ⟨ctx, V, x, h1, h2, h3, h4⟩ := C61_fault_causes_partial C61_spatial_panics.1 C61_spatial_panics.2.1
  exact h ctx V x _ h1 h2 h3 h4

/-- Why the limit `2^24` in `C61_no_wild_write_partial`: above it the room that `allocate_children` gives to the left child
can exceed the room there is, although both boxes are finite and the right way round.  With `2^24 + 3` free places, one
reference left and two references with a point as their common box right, the left child is given `2^24 + 4` places, so
the move of the right child's references writes one place past the end of the task's range. -/
theorem C61_room_rounds_up :
    let left : Aabb F32 := ⟨pt 0 0 0, 0, pt 1 1 1, 0⟩
    let right : Aabb F32 := ⟨pt 2 2 2, 0, pt 2 2 2, 0⟩
    (left.min.Finite ∧ left.max.Finite ∧ left.Valid) ∧ (right.min.Finite ∧ right.max.Finite ∧ right.Valid) ∧
    leftShare (2 ^ 24 + 6) 1 3 left right = 2 ^ 24 + 4 ∧ 2 ^ 24 + 6 < 3 + leftShare (2 ^ 24 + 6) 1 3 left right := by
  refine ⟨⟨?_, ?_, ?_⟩, ⟨?_, ?_, ?_⟩, ?_, ?_⟩
  all_goals first | decide +kernel | (unfold Vec3.Finite Fin'; decide +kernel)

end Rtbvh
