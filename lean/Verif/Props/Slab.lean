import Verif.Spec.Bounded
import Verif.Proofs.Slab
import Verif.Proofs.F32Sim
import Verif.Proofs.ExactLaws
import Verif.Props.Traversal
/- Properties C36, C37, C21, C23: ray/box tests and completeness of traversal under rounding. -/
namespace Rtbvh
open FloatOps LawfulFloat Aabb
variable {F : Type} [FloatOps F] [LawfulFloat F]

/-- C36 (single ray): if box `a` lies in box `b`, no NaN arises in either test and the ray's sign bits agree with its
reciprocal direction, then whenever the ray hits `a` it hits `b`; for `intersect` and for `intersects`. -/
theorem C36_ray_monotone {a b : Aabb F} (hab : a.Within b) {r : Ray F} (hr : r.Coherent)
    (na : a.NoNaN r.origin r.invDirection) (nb : b.NoNaN r.origin r.invDirection) :
    ((a.intersect r).isSome = true → (b.intersect r).isSome = true) ∧
    (a.intersects r = true → b.intersects r = true) := by
  rw [intersect_isSome, intersect_isSome, intersects_iff, intersects_iff]
  exact ⟨passes_mono hab hr na nb, passes_mono hab hr na nb⟩

/-- C36 (packet): the same for each lane of `intersect4`, for a valid inner box. -/
theorem C36_packet_monotone {a b : Aabb F} (hab : a.Within b) (hv : a.Valid) {p : RayPacket4 F} (i : Fin 4)
    (na : a.NoNaN (p.originOf i) (p.invOf i)) (nb : b.NoNaN (p.originOf i) (p.invOf i)) :
    a.mask4 p i = true → b.mask4 p i = true ∧ (b.intersect4 p).isSome = true := by
  intro h
  have h' := mask4_mono hab hv na nb h
  refine ⟨h', ?_⟩
  unfold intersect4
  rw [if_pos ((Vec4.any_iff _).2 ⟨i, by rw [Vec4.get_ofFn]; exact h'⟩)]
  rfl

/-- Rays made by `Ray::new` from non-zero directions have coherent sign bits. -/
theorem Ray.new_coherent {o d : Vec3 F} (hd : d.NonZero) : (Ray.new o d).Coherent := by
  have key : ∀ x : F, NonZero x → if (x <. (zero : F)) then (one /. x <=. (zero : F)) = true
      else ((zero : F) <=. one /. x) = true := by
    intro x hx
    by_cases h : (x <. (zero : F)) = true
    · rw [if_pos h]; exact recip_neg h
    · rw [if_neg h]; exact recip_pos (hx.resolve_left h)
  exact ⟨key _ hd.1, key _ hd.2.1, key _ hd.2.2⟩

/-- No NaN arises for a finite origin and finite non-zero reciprocals, whatever the (possibly infinite) box. -/
theorem Aabb.noNaN_of_finite {a : Aabb F} (ha : a.Numeric) {o inv : Vec3 F} (ho : o.Finite) (hi : inv.Finite)
    (h0 : inv.NonZero) : a.NoNaN o inv := by
  have key : ∀ x o i : F, Num x → Fin' o → Fin' i → NonZero i → Num ((x -. o) *. i) := by
    intro x o i hx ho hi h0
    refine mul_fin (sub_fin hx ho) hi ?_
    rcases h0 with h | h
    · exact .inr (lt_iff.1 h).2.2
    · exact .inl (lt_iff.1 h).2.2
  exact ⟨key _ _ _ ha.1.1 ho.1 hi.1 h0.1, key _ _ _ ha.2.1 ho.1 hi.1 h0.1, key _ _ _ ha.1.2.1 ho.2.1 hi.2.1 h0.2.1,
    key _ _ _ ha.2.2.1 ho.2.1 hi.2.1 h0.2.1, key _ _ _ ha.1.2.2 ho.2.2 hi.2.2 h0.2.2,
    key _ _ _ ha.2.2.2 ho.2.2 hi.2.2 h0.2.2⟩

omit [FloatOps F] [LawfulFloat F] in
theorem BTree.Forall.and {idx : List Nat} {P Q : Aabb F → List Nat → Prop} {T : BTree F} (h : T.Forall idx P)
    (h' : T.Forall idx Q) : T.Forall idx fun a ids => P a ids ∧ Q a ids := by
  induction T with
  | leaf => exact ⟨h, h'⟩
  | node b l r ihl ihr => exact ⟨⟨h.1, h'.1⟩, ihl h.2.1 h'.2.1, ihr h.2.2 h'.2.2⟩
omit [FloatOps F] [LawfulFloat F] in
theorem BTree.Forall.mono {idx : List Nat} {P Q : Aabb F → List Nat → Prop} {T : BTree F} (h : T.Forall idx P)
    (h' : ∀ a ids, P a ids → Q a ids) : T.Forall idx Q := by
  induction T with
  | leaf => exact h' _ _ h
  | node b l r ihl ihr => exact ⟨h' _ _ h.1, ihl h.2.1, ihr h.2.2⟩

/-- C21 for one primitive: a BVH of depth at most 31, traversed with a ray by a caller that only changes `ray.t` and never
breaks, yields a stored primitive whose own box the ray hits if the bounds of every node above it contain that box. -/
theorem C21_ray_offered (b : Bvh F) (T : BTree F) (h : b.Denotes T) (hd : T.depth ≤ 31) (ray : Ray F)
    (hn : ray.hasNaN = false) (hr : ray.Coherent) (cb : Ray F → Nat → Ray F × Bool)
    (hcb : ∀ r id, ∃ t, cb r id = ({ r with t := t }, false)) (fuel : Nat) (hf : T.rounds < fuel)
    (p : Nat) (hp : p ∈ T.ids b.indices) (box : Aabb F) (hpN : box.NoNaN ray.origin ray.invDirection)
    (hb : T.Forall b.indices fun a ids => p ∈ ids → box.Within a ∧ a.NoNaN ray.origin ray.invDirection)
    (hhit : (box.intersect ray).isSome = true) : p ∈ (b.forIndices cb fuel ray).items := by
  obtain ⟨_, _, hperm⟩ := C20_ray_traversal_exact b T h hd ray hn cb hcb fuel hf
  rw [hperm.mem_iff]
  exact mem_reach_one T (hb.mono fun a ids h hq => (C36_ray_monotone (h hq).1 hr hpN (h hq).2).1 hhit) hp

/-- C21: a BVH of depth at most 31 whose node bounds contain the boxes of the primitives below, traversed with a ray
by a caller that only changes `ray.t` and never breaks, yields every stored primitive whose own box the ray hits. -/
theorem C21_ray_complete (b : Bvh F) (T : BTree F) (h : b.Denotes T) (hd : T.depth ≤ 31) (boxes : Nat → Aabb F)
    (hb : T.Bounds b.indices boxes) (ray : Ray F) (hn : ray.hasNaN = false) (hr : ray.Coherent)
    (hN : T.NoNaN b.indices ray.origin ray.invDirection) (cb : Ray F → Nat → Ray F × Bool)
    (hcb : ∀ r id, ∃ t, cb r id = ({ r with t := t }, false)) (fuel : Nat) (hf : T.rounds < fuel)
    (p : Nat) (hp : p ∈ T.ids b.indices) (hpN : (boxes p).NoNaN ray.origin ray.invDirection)
    (hhit : ((boxes p).intersect ray).isSome = true) :
    p ∈ (b.forIndices cb fuel ray).items :=
  C21_ray_offered b T h hd ray hn hr cb hcb fuel hf p hp _ hpN ((hb.and hN).mono fun a ids h hq => ⟨h.1 p hq, h.2⟩) hhit

/-- `q` is `p` after a caller changed nothing but `t`, and each lane of `t` only downwards. -/
def RayPacket4.Lowered (p q : RayPacket4 F) : Prop :=
  (∃ t, q = { p with t := t }) ∧ ∀ i, q.t.get i = p.t.get i ∨ (q.t.get i <=. p.t.get i) = true

omit [LawfulFloat F] in
theorem RayPacket4.Lowered.refl (p : RayPacket4 F) : p.Lowered p := ⟨⟨p.t, rfl⟩, fun _ => .inl rfl⟩
theorem RayPacket4.Lowered.trans {p q r : RayPacket4 F} (h : p.Lowered q) (h' : q.Lowered r) : p.Lowered r := by
  obtain ⟨⟨t, rfl⟩, h1⟩ := h
  obtain ⟨⟨t', rfl⟩, h2⟩ := h'
  refine ⟨⟨t', rfl⟩, fun i => ?_⟩
  rcases h1 i with e1 | e1 <;> rcases h2 i with e2 | e2
  · exact .inl (e2.trans e1)
  · right; rw [← e1]; exact e2
  · right; rw [e2]; exact e1
  · exact .inr (le_trans e2 e1)

/-- C23 for single primitives: packet traversal of a BVH of depth at most 31, by a caller that only lowers the lanes of
`t` and never breaks, terminates; it yields ids only from leaves, none more often than stored, and it yields a stored
primitive whose own box is hit by some lane of the final packet if the bounds of every node above it contain that box. -/
theorem C23_packet_offered (b : Bvh F) (T : BTree F) (h : b.Denotes T) (hd : T.depth ≤ 31) (pk : RayPacket4 F) (hn : pk.hasNaN = false)
    (cb : RayPacket4 F → Nat → RayPacket4 F × Bool)
    (hcb : ∀ q id, q.Lowered (cb q id).1 ∧ (cb q id).2 = false) (fuel : Nat) (hf : T.rounds < fuel) :
    let run := b.forIndicesPacket cb fuel pk
    run.ending = .finished ∧ pk.Lowered run.ray ∧ (∀ p, run.items.count p ≤ (T.ids b.indices).count p) ∧
    ∀ p ∈ T.ids b.indices, ∀ box : Aabb F, box.Valid → ∀ i, box.NoNaN (pk.originOf i) (pk.invOf i) →
      (T.Forall b.indices fun a ids => p ∈ ids → box.Within a ∧ a.NoNaN (pk.originOf i) (pk.invOf i)) →
      box.mask4 run.ray i = true → p ∈ run.items := by
  intro run
  have hrun : run = T.visit (BTree.rangeIds b.indices) Aabb.intersect4 closerPacket cb pk :=
    C23_packet_traversal_refines b T h hd pk hn cb fuel hf
  have hfin : (T.visit (BTree.rangeIds b.indices) Aabb.intersect4 closerPacket cb pk).ending = .finished :=
    visit_finished (fun r x => (hcb r x).2) T pk
  have hlow : pk.Lowered (T.visit (BTree.rangeIds b.indices) Aabb.intersect4 closerPacket cb pk).ray :=
    visit_rel RayPacket4.Lowered.refl RayPacket4.Lowered.trans (fun r x => (hcb r x).1) T pk
  rw [hrun]
  refine ⟨hfin, hlow, ?_, ?_⟩
  · intro p
    refine Nat.le_trans (visit_count_le (Inv := fun _ => True) (fun _ _ _ => trivial) (pass := fun _ => true)
      (fun _ _ _ _ => rfl) p T pk trivial) (reach_count_le_ids _ _ _ _)
  · intro p hp box hv i hpN hb hhit
    generalize hfr : (T.visit (BTree.rangeIds b.indices) Aabb.intersect4 closerPacket cb pk).ray = fr at *
    have hge := visit_count_ge_final (closer := closerPacket) (idx := b.indices) RayPacket4.Lowered.refl
      RayPacket4.Lowered.trans (fun r x => (hcb r x).1) (pass := fun a => a.mask4 fr i)
      (fin := fr) (hit := Aabb.intersect4)
      (by
        intro a r hr hpass
        -- the lane passes with the final `t`, which is at most the current one
        obtain ⟨⟨t, rfl⟩, hle⟩ := hr
        have hm : a.mask4 r i = true := by
          unfold Aabb.mask4 at hpass ⊢
          simp only [Bool.and_eq_true] at hpass ⊢
          refine ⟨hpass.1, ?_⟩
          rcases hle i with e | e
          · rw [← e]; exact hpass.2
          · exact lt_of_lt_of_le' hpass.2 e
        unfold Aabb.intersect4
        rw [if_pos ((Vec4.any_iff _).2 ⟨i, by rw [Vec4.get_ofFn]; exact hm⟩)]
        rfl) p T pk hfin (by rw [hfr]; exact RayPacket4.Lowered.refl _)
    have hmem : p ∈ T.reach b.indices (fun a => a.mask4 fr i) := by
      obtain ⟨⟨t, rfl⟩, _⟩ := hlow
      exact mem_reach_one T (hb.mono fun a ids h hq =>
        (C36_packet_monotone (p := { pk with t := t }) (h hq).1 hv i hpN (h hq).2 hhit).1) hp
    exact List.count_pos_iff.1 (Nat.lt_of_lt_of_le (List.count_pos_iff.2 hmem) hge)

/-- C23: packet traversal of a BVH of depth at most 31 with containing bounds, by a caller that only lowers the
lanes of `t` and never breaks, terminates; it yields ids only from leaves, none more often than stored, and it yields
every stored primitive whose own box is hit by some lane of the final packet (hence every one hit by a lane at a
distance below that lane's final `t`). -/
theorem C23_packet_complete (b : Bvh F) (T : BTree F) (h : b.Denotes T) (hd : T.depth ≤ 31) (boxes : Nat → Aabb F)
    (hb : T.Bounds b.indices boxes) (pk : RayPacket4 F) (hn : pk.hasNaN = false)
    (cb : RayPacket4 F → Nat → RayPacket4 F × Bool)
    (hcb : ∀ q id, q.Lowered (cb q id).1 ∧ (cb q id).2 = false) (fuel : Nat) (hf : T.rounds < fuel) :
    let run := b.forIndicesPacket cb fuel pk
    run.ending = .finished ∧ pk.Lowered run.ray ∧ (∀ p, run.items.count p ≤ (T.ids b.indices).count p) ∧
    ∀ p ∈ T.ids b.indices, (boxes p).Valid → ∀ i, T.NoNaN b.indices (pk.originOf i) (pk.invOf i) →
      (boxes p).NoNaN (pk.originOf i) (pk.invOf i) → (boxes p).mask4 run.ray i = true → p ∈ run.items := by
  obtain ⟨h1, h2, h3, h4⟩ := C23_packet_offered b T h hd pk hn cb hcb fuel hf
  exact ⟨h1, h2, h3, fun p hp hv i hN hpN hhit =>
    h4 p hp _ hv i hpN ((hb.and hN).mono fun a ids h hq => ⟨h.1 p hq, h.2⟩) hhit⟩

/-! C37: numerically equal rays. -/

/-- A unit box around a point of the first octant, and two rays that are numerically equal: the x component of the
direction is `0.0` in one and `-0.0` in the other. -/
def zeroBox : Aabb F32 := ofPoints2 ⟨lit (-1) 0, lit (-1) 0, lit 1 0⟩ ⟨lit 1 0, lit 1 0, lit 2 0⟩
def plusZeroRay : Ray F32 := Ray.new ⟨lit 0 0, lit 0 0, lit 0 0⟩ ⟨lit 0 0, lit 0 0, lit 1 0⟩
def minusZeroRay : Ray F32 := Ray.new ⟨lit 0 0, lit 0 0, lit 0 0⟩ ⟨neg (lit 0 0), lit 0 0, lit 1 0⟩

/-- C37 is false: for binary32, a direction with `-0.0` in place of `0.0` misses a box the other ray hits.  (`0.0` and
`-0.0` compare equal, as the first two conjuncts say.) -/
theorem C37_negative_zero :
    (plusZeroRay.direction.x <=. minusZeroRay.direction.x) = true ∧
    (minusZeroRay.direction.x <=. plusZeroRay.direction.x) = true ∧
    plusZeroRay.origin = minusZeroRay.origin ∧ plusZeroRay.direction.y = minusZeroRay.direction.y ∧
    plusZeroRay.direction.z = minusZeroRay.direction.z ∧
    (zeroBox.intersect plusZeroRay).isSome = true ∧ (zeroBox.intersect minusZeroRay).isSome = false := by
  decide +kernel

/-- Numerical equality of binary32 vectors: lane-wise `==`. -/
def Vec3.NumEq (a b : Vec3 F32) : Prop := a.Le b ∧ b.Le a

theorem slabs6_sim {nx fx ny fy nz fz nx' fx' ny' fy' nz' fz' thr : F32} (h1 : F32.Sim nx nx') (h2 : F32.Sim fx fx')
    (h3 : F32.Sim ny ny') (h4 : F32.Sim fy fy') (h5 : F32.Sim nz nz') (h6 : F32.Sim fz fz') :
    (∃ r, slabs6 nx fx ny fy nz fz = some r ∧ (thr <. r) = true) →
    (∃ r, slabs6 nx' fx' ny' fy' nz' fz' = some r ∧ (thr <. r) = true) := by
  rintro ⟨r, h, hr⟩
  unfold slabs6 at h ⊢
  have e1 : (fy' <. nx') = (fy <. nx) := (h4.lt h1).symm
  have e2 : (fx' <. ny') = (fx <. ny) := (h2.lt h3).symm
  have e3 : (nx' <. ny') = (nx <. ny) := (h1.lt h3).symm
  have e4 : (fy' <. fx') = (fy <. fx) := (h4.lt h2).symm
  rw [e1, e2, e3, e4]
  split at h
  · cases h
  · have sm : F32.Sim (if (nx <. ny) = true then ny else nx) (if (nx <. ny) = true then ny' else nx') := by
      split <;> assumption
    have sM : F32.Sim (if (fy <. fx) = true then fy else fx) (if (fy <. fx) = true then fy' else fx') := by
      split <;> assumption
    generalize (if (nx <. ny) = true then ny else nx) = m at *
    generalize (if (nx <. ny) = true then ny' else nx') = m' at *
    generalize (if (fy <. fx) = true then fy else fx) = M at *
    generalize (if (fy <. fx) = true then fy' else fx') = M' at *
    have e5 : (fz' <. m') = (fz <. m) := (h6.lt sm).symm
    have e6 : (M' <. nz') = (M <. nz) := (sM.lt h5).symm
    have e7 : (fz' <. M') = (fz <. M) := (h6.lt sM).symm
    rename_i hc
    rw [if_neg hc]
    simp only at h ⊢
    rw [e5, e6, e7]
    split at h
    · cases h
    · rename_i hc'
      rw [if_neg hc']
      refine ⟨_, rfl, ?_⟩
      injection h with h
      subst h
      have : F32.Sim (if (fz <. M) = true then fz else M) (if (fz <. M) = true then fz' else M') := by
        split <;> assumption
      have e := (F32.Sim.refl thr).lt this
      exact e.symm.trans hr

/-- C37, the part that holds: binary32 rays made by `Ray::new` from numerically equal origins and directions, whose
direction components are non-zero or identical (same sign of zero), get the same answer from both single-ray tests on
every box, NaN and infinities in the box included.  Missing: the false case of `0.0` against `-0.0`
(`C37_negative_zero`). -/
theorem C37_equal_rays_partial {o o' d d' : Vec3 F32} (ho : o.NumEq o') (hd : d.NumEq d')
    (hx : NonZero d.x ∨ d.x = d'.x) (hy : NonZero d.y ∨ d.y = d'.y) (hz : NonZero d.z ∨ d.z = d'.z) (a : Aabb F32) :
    (a.intersect (Ray.new o d)).isSome = (a.intersect (Ray.new o' d')).isSome ∧
    a.intersects (Ray.new o d) = a.intersects (Ray.new o' d') := by
  have lane : ∀ {x y : F32}, (x <=. y) = true → (y <=. x) = true → NonZero x ∨ x = y → x = y := by
    intro x y h h' h0
    rcases h0 with h0 | h0
    · refine (F32.Sim.of_le h h').eq_of_ne ?_
      rcases h0 with h0 | h0
      · have := (F32.lt_iff'.1 h0).2.2
        change _ < (F32.lit 0 0).ord at this
        rw [F32.ord_zero] at this; omega
      · have := (F32.lt_iff'.1 h0).2.2
        change (F32.lit 0 0).ord < _ at this
        rw [F32.ord_zero] at this; omega
    · exact h0
  have ed : d = d' := by
    have h1 := lane hd.1.1 hd.2.1 hx
    have h2 := lane hd.1.2.1 hd.2.2.1 hy
    have h3 := lane hd.1.2.2 hd.2.2.2 hz
    cases d; cases d'; simp_all
  subst ed
  have ox := F32.Sim.of_le ho.1.1 ho.2.1
  have oy := F32.Sim.of_le ho.1.2.1 ho.2.2.1
  have oz := F32.Sim.of_le ho.1.2.2 ho.2.2.2
  have np : ∀ {x y : F32} (s : Bool) (lo hi i : F32), F32.Sim x y →
      F32.Sim (nearP lo hi x i s) (nearP lo hi y i s) := by
    intro x y s lo hi i h
    exact (h.sub_right _).mul_left i
  have key : ∀ (o o' : Vec3 F32), F32.Sim o.x o'.x → F32.Sim o.y o'.y → F32.Sim o.z o'.z → ∀ thr,
      a.passes (Ray.new o d) thr → a.passes (Ray.new o' d) thr := by
    intro o o' ox oy oz thr h
    unfold passes at h ⊢
    rw [slabs_eq] at h ⊢
    exact slabs6_sim (np _ _ _ _ ox) (np _ _ _ _ ox) (np _ _ _ _ oy) (np _ _ _ _ oy) (np _ _ _ _ oz) (np _ _ _ _ oz) h
  have sy : ∀ {x y : F32}, F32.Sim x y → F32.Sim y x := fun h => ⟨h.1.symm, h.2.symm⟩
  constructor
  · rw [Bool.eq_iff_iff, intersect_isSome, intersect_isSome]
    exact ⟨key o o' ox oy oz _, key o' o (sy ox) (sy oy) (sy oz) _⟩
  · rw [Bool.eq_iff_iff, intersects_iff, intersects_iff]
    exact ⟨key o o' ox oy oz _, key o' o (sy ox) (sy oy) (sy oz) _⟩

/-- The hypotheses of `C37_equal_rays_partial` are met by origins that differ in the sign of a zero. -/
example : (⟨lit 0 0, lit 1 0, lit 2 0⟩ : Vec3 F32).NumEq ⟨neg (lit 0 0), lit 1 0, lit 2 0⟩ ∧
    (lit 0 0 : F32) ≠ neg (lit 0 0) := by
  unfold Vec3.NumEq Vec3.Le; decide +kernel

/-! Non-vacuity of C36, C21 and C23 on binary32. -/

/-- Two unit cubes along x, primitive 0 left, primitive 1 right. -/
def twoBoxes : Nat → Aabb F32
  | 0 => ofPoints2 ⟨lit 0 0, lit 0 0, lit 0 0⟩ ⟨lit 1 0, lit 1 0, lit 1 0⟩
  | _ => ofPoints2 ⟨lit 2 0, lit 0 0, lit 0 0⟩ ⟨lit 3 0, lit 1 0, lit 1 0⟩
def twoTree : BTree F32 :=
  .node (ofPoints2 ⟨lit 0 0, lit 0 0, lit 0 0⟩ ⟨lit 3 0, lit 1 0, lit 1 0⟩)
    (.leaf (twoBoxes 0) 0 1) (.leaf (twoBoxes 1) 1 1)
def twoBvh : Bvh F32 :=
  { nodes := [{ bounds := { (ofPoints2 ⟨lit 0 0, lit 0 0, lit 0 0⟩ ⟨lit 3 0, lit 1 0, lit 1 0⟩) with
                  extra1 := -1, extra2 := 1 } },
              { bounds := { (twoBoxes 0) with extra1 := 1, extra2 := 0 } },
              { bounds := { (twoBoxes 1) with extra1 := 1, extra2 := 1 } }]
    primIndices := [0, 1], buildType := .binnedSAH }
def twoRay : Ray F32 := Ray.new ⟨lit (-1) 0, lit 2 (-1), lit 3 (-1)⟩ ⟨lit 1 0, lit 1 (-2), lit 1 (-2)⟩
def twoPacket : RayPacket4 F32 :=
  RayPacket4.new (fun _ => ⟨lit (-1) 0, lit 2 (-1), lit 3 (-1), lit 0 0⟩) (fun _ => ⟨lit 1 0, lit 1 (-2), lit 1 (-2), lit 0 0⟩)

theorem twoBvh_denotes : twoBvh.Denotes twoTree :=
  ⟨unfold?_sound (fuel := 3) (by decide +kernel), by unfold twoTree twoBvh BTree.RangesIn BTree.RangesIn; decide⟩

instance (a b : Vec3 F32) : Decidable (a.Le b) := by unfold Vec3.Le; infer_instance
instance (a b : Aabb F32) : Decidable (a.Within b) := by unfold Aabb.Within; infer_instance
instance (a : Aabb F32) : Decidable a.Valid := by unfold Aabb.Valid; infer_instance
instance (a : Aabb F32) (o i : Vec3 F32) : Decidable (a.NoNaN o i) := by unfold Aabb.NoNaN Num; infer_instance
instance (r : Ray F32) : Decidable r.Coherent := by unfold Ray.Coherent; infer_instance

example : twoBvh.Denotes twoTree ∧ twoTree.depth ≤ 31 ∧ twoTree.Bounds twoBvh.indices twoBoxes ∧
    twoRay.hasNaN = false ∧ twoRay.Coherent ∧ twoTree.NoNaN twoBvh.indices twoRay.origin twoRay.invDirection ∧
    (∀ p ∈ twoTree.ids twoBvh.indices, (twoBoxes p).NoNaN twoRay.origin twoRay.invDirection ∧
      ((twoBoxes p).intersect twoRay).isSome = true) := by
  refine ⟨twoBvh_denotes, by decide, ?_, by decide +kernel, by decide +kernel, ?_, by decide +kernel⟩
  · refine ⟨by decide +kernel, ?_, ?_⟩ <;> (unfold BTree.Forall; decide +kernel)
  · refine ⟨by decide +kernel, ?_, ?_⟩ <;> (unfold BTree.Forall; decide +kernel)

example : twoPacket.hasNaN = false ∧ (∀ p ∈ twoTree.ids twoBvh.indices, (twoBoxes p).Valid ∧
    (twoBoxes p).NoNaN (twoPacket.originOf 2) (twoPacket.invOf 2) ∧ (twoBoxes p).mask4 twoPacket 2 = true) := by
  decide +kernel

end Rtbvh
