import Verif.Props.SpatialMove
import Verif.Props.SpatialFault
import Verif.Props.Queries
import Verif.Props.Example
/- C92: build with `construct_spatial_sah`, then query. -/
namespace Rtbvh
open FloatOps

section any
variable {F : Type} [FloatOps F]

/-- A path of boxes that pass a test leads to its leaf. -/
theorem BTree.Reaches.mem {idx : List Nat} {p : Nat} {P : Aabb F → Prop} {pass : Aabb F → Bool}
    (hpass : ∀ a : Aabb F, P a → pass a = true) {T : BTree F} (h : T.Reaches idx p P) : p ∈ T.reach idx pass := by
  have root : ∀ T : BTree F, T.Reaches idx p P → pass T.bounds = true := by
    intro T h
    cases T with
    | leaf => exact hpass _ h.1
    | node => exact hpass _ h.1
  induction T with
  | leaf => exact h.2
  | node b l r ihl ihr =>
    rw [BTree.reach, List.mem_append]
    rcases h.2 with h | h
    · left; rw [if_pos (root l h)]; exact ihl h
    · right; rw [if_pos (root r h)]; exact ihr h

theorem QTree.Reaches.mem {idx : List Nat} {p : Nat} {P : Aabb F → Prop} {pass : Aabb F → Bool}
    (hpass : ∀ a : Aabb F, P a → pass a = true) {T : QTree F} (h : T.Reaches idx p P) : p ∈ T.reach idx pass := by
  induction T with
  | none => exact h.elim
  | leaf => exact h
  | quad b c0 c1 c2 c3 ih0 ih1 ih2 ih3 =>
    simp only [QTree.reach, List.mem_append]
    rcases h with ⟨h, k⟩ | ⟨h, k⟩ | ⟨h, k⟩ | ⟨h, k⟩
    · rw [if_pos (hpass _ h)]; exact .inl (.inl (.inl (ih0 k)))
    · rw [if_pos (hpass _ h)]; exact .inl (.inl (.inr (ih1 k)))
    · rw [if_pos (hpass _ h)]; exact .inl (.inr (ih2 k))
    · rw [if_pos (hpass _ h)]; exact .inr (ih3 k)

theorem BTree.Reaches.root {idx : List Nat} {p : Nat} {P : Aabb F → Prop} {T : BTree F} (h : T.Reaches idx p P) :
    P T.bounds := by
  cases T with
  | leaf => exact h.1
  | node => exact h.1

theorem BTree.Reaches.collapse {idx : List Nat} {p : Nat} {P : Aabb F → Prop} (T : BTree F) (h : T.Reaches idx p P) :
    T.collapse.Reaches idx p P ∧ ∀ b : Aabb F, P b →
      P (T.boxA b) ∧ T.kidA.Reaches idx p P ∨ P (T.boxB b) ∧ T.kidB.Reaches idx p P := by
  induction T with
  | leaf => exact ⟨h.2, fun b hb => .inl ⟨hb, h.2⟩⟩
  | node b l r ihl ihr =>
    obtain ⟨h0, h⟩ := h
    constructor
    · rw [BTree.collapse, QTree.Reaches]
      rcases h with h | h
      · rcases (ihl h).2 b h0 with k | k
        · exact .inl k
        · exact .inr (.inl k)
      · rcases (ihr h).2 b h0 with k | k
        · exact .inr (.inr (.inl k))
        · exact .inr (.inr (.inr k))
    · intro b' hb'
      rcases h with h | h
      · exact .inl ⟨h.root, (ihl h).1⟩
      · exact .inr ⟨h.root, (ihr h).1⟩

theorem BTree.Reaches.toQuad {idx : List Nat} {p : Nat} {P : Aabb F → Prop} {T : BTree F} (h : T.Reaches idx p P) :
    T.toQuad.Reaches idx p P := by
  cases T with
  | leaf => exact .inl ⟨h.1, h.2⟩
  | node => exact (BTree.Reaches.collapse _ h).1

/-- What `construct_spatial_sah` returns satisfies what `Mbvh::construct` needs. -/
theorem C26_spatial_compact {b : Builder F} {split : Nat → Fin 3 → F → Aabb F × Aabb F}
    {sort : Fin 3 → List (Ref F) → Option (List (Ref F))} {order ks : List Nat} (h : b.LegalSpatial order sort)
    {bvh : Bvh F} (e : b.constructSpatialSah split sort order ks = .ok (.ok (some bvh))) :
    ∃ T, bvh.Compact T ∧ T.rounds ≤ 3 * referenceLimit F b.primitives.length + 1 := by
  obtain ⟨T, h1, _, _, h4, _, h6, _, h8, h9, _, h11, h12⟩ := spatial_built h e
  have hf := h.fits
  have hr := T.rounds_eq _ h4
  change T.rounds = (T.ids bvh.indices).length + T.size at hr
  refine ⟨T, ⟨⟨h1, h4⟩, h6, ?_, by omega, by omega⟩, by omega⟩
  rintro bb f c rfl
  have := h12 (f, c) (by simp [BTree.ranges])
  rw [BTree.ids, BTree.rangeIds, List.length_take] at this
  omega

end any

/-! Nearest hit when every hit point has a path of boxes. -/

theorem IsNearest.same {hits : Nat → Rat → Prop} {l l' : List Nat} {a t₀ t : Rat} (hp : ∀ p, p ∈ l ↔ p ∈ l')
    (h : IsNearest hits l a t₀ t) : IsNearest hits l' a t₀ t :=
  ⟨h.le, fun p hpm => h.lower p ((hp p).2 hpm), h.attained.imp id fun ⟨p, hpm, q⟩ => ⟨p, (hp p).1 hpm, q⟩⟩

/-- C31 with the weaker premise that hit points of the primitives in `C` are covered by paths to leaves that list the
primitive: the result is the nearest hit over some listed primitives, among them all in `C`. -/
theorem C31_nearest_some (b : Bvh Rat) (T : BTree Rat) (h : b.Denotes T) (hdep : T.depth ≤ 31) (ray : Ray Rat)
    (hw : ray.WellFormed) (hd : ray.direction.NonZero) (hits : Nat → Rat → Prop)
    (C : Nat → Prop)
    (hhits : ∀ p ∈ T.ids b.indices, C p → ∀ s, hits p s → T.Reaches b.indices p fun a => a.Has (ray.getPointAt s))
    (cb : Ray Rat → Nat → Ray Rat × Bool) (hcb : ClosestHit ray hits cb) (fuel : Nat) (hf : T.rounds < fuel) :
    ∃ t, (b.forIndices cb fuel ray).ray = { ray with t := t } ∧
      (b.forIndices cb fuel ray).items.foldl (fun r x => (cb r x).1) ray = { ray with t := t } ∧
      (∀ p ∈ (b.forIndices cb fuel ray).items, p ∈ T.ids b.indices) ∧
      ∃ S, (∀ p ∈ S, p ∈ T.ids b.indices) ∧ (∀ p ∈ T.ids b.indices, C p → p ∈ S) ∧ IsNearest hits S ray.tMin ray.t t := by
  classical
  have hcb' : ∀ (r : Ray Rat) (id : Nat), ∃ t, cb r id = ({ r with t := t }, false) := by
    intro r id; obtain ⟨t, _, e⟩ := hcb.1 r id; exact ⟨t, e⟩
  have hn : ray.hasNaN = false := rfl
  have href := C20_ray_traversal_refines b T h hdep ray hn cb fuel hf
  have hray : (b.forIndices cb fuel ray).ray =
      (b.forIndices cb fuel ray).items.foldl (fun r x => (cb r x).1) ray := by
    rw [href]; exact visit_ray T ray
  obtain ⟨_, _, hperm⟩ := C20_ray_traversal_exact b T h hdep ray hn cb hcb' fuel hf
  obtain ⟨t, e, l, lo, att⟩ := fold_closest hcb (b.forIndices cb fuel ray).items ray.t
  have hsub : ∀ p ∈ (b.forIndices cb fuel ray).items, p ∈ T.ids b.indices := by
    intro p hp
    rw [hperm.mem_iff] at hp
    exact List.count_pos_iff.1 (Nat.lt_of_lt_of_le (List.count_pos_iff.2 hp) (reach_count_le_ids _ _ _ _))
  refine ⟨t, hray.trans e, e, hsub, (b.forIndices cb fuel ray).items ++ (T.ids b.indices).filter (fun p => decide (C p)),
    fun p hp => ?_, fun p hp hc => List.mem_append_right _ (List.mem_filter.2 ⟨hp, decide_eq_true hc⟩), l, ?_, ?_⟩
  · rcases List.mem_append.1 hp with hp | hp
    · exact hsub p hp
    · exact (List.mem_filter.1 hp).1
  · intro p hp s hs h1 h2
    rcases List.mem_append.1 hp with hp | hp
    · exact lo p hp s hs h1 h2
    obtain ⟨hp, hcp⟩ := List.mem_filter.1 hp
    refine lo p ?_ s hs h1 h2
    rw [hperm.mem_iff]
    refine (hhits p hp (of_decide_eq_true hcp) s hs).mem fun a ha => ?_
    exact ((C35_slab_exact (valid_of_has ha) hw hd).2.1).2 ⟨s, h1, ha⟩
  · rcases att with a | ⟨p, hp, h⟩
    · exact .inl a
    · exact .inr ⟨p, List.mem_append_left _ hp, h⟩

/-- C31 with the weaker premise that every hit point is covered by a path to a leaf that lists the primitive. -/
theorem C31_nearest_covered (b : Bvh Rat) (T : BTree Rat) (h : b.Denotes T) (hdep : T.depth ≤ 31) (ray : Ray Rat)
    (hw : ray.WellFormed) (hd : ray.direction.NonZero) (hits : Nat → Rat → Prop)
    (hhits : ∀ p ∈ T.ids b.indices, ∀ s, hits p s → T.Reaches b.indices p fun a => a.Has (ray.getPointAt s))
    (cb : Ray Rat → Nat → Ray Rat × Bool) (hcb : ClosestHit ray hits cb) (fuel : Nat) (hf : T.rounds < fuel) :
    ∃ t, (b.forIndices cb fuel ray).ray = { ray with t := t } ∧
      (b.forIndices cb fuel ray).items.foldl (fun r x => (cb r x).1) ray = { ray with t := t } ∧
      (∀ p ∈ (b.forIndices cb fuel ray).items, p ∈ T.ids b.indices) ∧
      IsNearest hits (T.ids b.indices) ray.tMin ray.t t := by
  obtain ⟨t, e1, e2, e3, S, s1, s2, e4⟩ := C31_nearest_some b T h hdep ray hw hd hits (fun _ => True)
    (fun p hp _ => hhits p hp) cb hcb fuel hf
  exact ⟨t, e1, e2, e3, e4.same fun p => ⟨s1 p, fun hp => s2 p hp trivial⟩⟩

/-- C32 with the weaker premise. -/
theorem C32_nearest_some (q : Mbvh Rat) (Q : QTree Rat) (h : q.Denotes Q) (hdep : Q.stackNeed ≤ 32) (ray : Ray Rat)
    (hw : ray.WellFormed) (hd : ray.direction.NonZero) (hits : Nat → Rat → Prop)
    (C : Nat → Prop)
    (hhits : ∀ p ∈ Q.ids q.primIndices, C p → ∀ s, hits p s → Q.Reaches q.primIndices p fun a => a.Has (ray.getPointAt s))
    (cb : Ray Rat → Nat → Ray Rat × Bool) (hcb : ClosestHit ray hits cb) (fuel : Nat) (hf : Q.rounds ≤ fuel) :
    ∃ t, (q.forIndices cb fuel ray).ray = { ray with t := t } ∧
      (q.forIndices cb fuel ray).items.foldl (fun r x => (cb r x).1) ray = { ray with t := t } ∧
      (∀ p ∈ (q.forIndices cb fuel ray).items, p ∈ Q.ids q.primIndices) ∧
      ∃ S, (∀ p ∈ S, p ∈ Q.ids q.primIndices) ∧ (∀ p ∈ Q.ids q.primIndices, C p → p ∈ S) ∧
        IsNearest hits S ray.tMin ray.t t := by
  classical
  have hcb' : ∀ (r : Ray Rat) (id : Nat), r.Lowered (cb r id).1 ∧ (cb r id).2 = false := by
    intro r id
    obtain ⟨t, hl, e⟩ := hcb.1 r id
    rw [e]
    exact ⟨⟨⟨t, rfl⟩, .inr (rat_le.2 hl)⟩, rfl⟩
  have hrun := (C28_traversal_refines q Q h hdep fuel hf).1 cb ray
  obtain ⟨hfin, hlow, hcount, _⟩ := C28_ray_offered q Q h hdep ray cb hcb' fuel hf
  have hray : (q.forIndices cb fuel ray).ray =
      (q.forIndices cb fuel ray).items.foldl (fun r x => (cb r x).1) ray := by
    rw [hrun]; exact Q.visit_ray ray
  obtain ⟨t, e, l, lo, att⟩ := fold_closest hcb (q.forIndices cb fuel ray).items ray.t
  have hfr := hray.trans e
  have hsub : ∀ p ∈ (q.forIndices cb fuel ray).items, p ∈ Q.ids q.primIndices := fun p hp =>
    List.count_pos_iff.1 (Nat.lt_of_lt_of_le (List.count_pos_iff.2 hp) (hcount p))
  refine ⟨t, hfr, e, hsub, (q.forIndices cb fuel ray).items ++ (Q.ids q.primIndices).filter (fun p => decide (C p)),
    fun p hp => ?_, fun p hp hc => List.mem_append_right _ (List.mem_filter.2 ⟨hp, decide_eq_true hc⟩), l, ?_, ?_⟩
  · rcases List.mem_append.1 hp with hp | hp
    · exact hsub p hp
    · exact (List.mem_filter.1 hp).1
  · intro p hp s hs h1 h2
    rcases List.mem_append.1 hp with hp | hp
    · exact lo p hp s hs h1 h2
    obtain ⟨hp, hcp⟩ := List.mem_filter.1 hp
    by_contra hlt
    rw [not_le] at hlt
    refine absurd (lo p ?_ s hs h1 h2) (not_le.2 hlt)
    have hge := Q.visit_count_ge_final (idx := q.primIndices) Ray.Lowered.refl Ray.Lowered.trans
      (fun r x => (hcb' r x).1) (pass := fun a => quadTest a (q.forIndices cb fuel ray).ray)
      (fin := (q.forIndices cb fuel ray).ray) (hit := quadHit) quadHit_perm
      (by
        intro bs r s hr hpass
        show (bs.map fun b => quadTest b r).get s = true
        rw [Vec4.get_map]
        exact quadTest_lowered hr hpass) p ray (by rw [← hrun]; exact hfin)
      (by rw [← hrun]; exact Ray.Lowered.refl _)
    rw [Q.root_reach h.unfolds.root_isQuad, ← hrun] at hge
    refine List.count_pos_iff.1 (Nat.lt_of_lt_of_le (List.count_pos_iff.2 ?_) hge)
    refine (hhits p hp (of_decide_eq_true hcp) s hs).mem fun a ha => ?_
    rw [hfr]
    exact quadTest_of_has (r := { ray with t := t }) hw hd ha hlt
  · rcases att with a | ⟨p, hp, h⟩
    · exact .inl a
    · exact .inr ⟨p, List.mem_append_left _ hp, h⟩

/-- C92, the part that holds, exact arithmetic.  Build with `construct_spatial_sah`; then running a closest-hit test on every
id that a query yields leaves in `ray.t` the nearest hit over a set `S` of primitives that has all primitives that every
move spares (`SparesSpatial`) and whose hits lie in its box, if the provided `split` does not lose them (`SplitKeeps`), or
whatever the `split` does if the primitive is listed only once; through the BVH (at most 31 deep) and through the `Mbvh`
made from it.
Missing: primitives overwritten by a move (`C92_missed_hit`), and primitives cut in two by a `split` that loses points, as
the provided one for triangles can (C41). -/
theorem C92_spared_nearest_partial {b : Builder Rat} {split : Nat → Fin 3 → Rat → Aabb Rat × Aabb Rat}
    {sort : Fin 3 → List (Ref Rat) → Option (List (Ref Rat))} {order ks : List Nat} (h : b.LegalSpatial order sort)
    {bvh : Bvh Rat} (e : b.constructSpatialSah split sort order ks = .ok (.ok (some bvh))) {T : BTree Rat}
    (hU : Unfolds bvh.nodes 0 T)
    (ray : Ray Rat) (hw : ray.WellFormed) (hd : ray.direction.NonZero) (hits : Nat → Rat → Prop)
    (cb : Ray Rat → Nat → Ray Rat × Bool) (hcb : ClosestHit ray hits cb) :
    (T.depth ≤ 31 → ∀ fuel ≥ 3 * referenceLimit Rat b.primitives.length + 2, ∃ t,
      (bvh.forIndices cb fuel ray).ray = { ray with t := t } ∧
      (bvh.forIndices cb fuel ray).items.foldl (fun r x => (cb r x).1) ray = { ray with t := t } ∧
      (∀ p ∈ (bvh.forIndices cb fuel ray).items, p < b.primitives.length) ∧
      ∃ S, (∀ p ∈ S, p < b.primitives.length) ∧
        (∀ p < b.primitives.length, b.SparesSpatial split sort order (T.withIds bvh.indices) p →
          (∀ s, hits p s → (boxAt (b.boxes order) p).Has (ray.getPointAt s) ∧
            (SplitKeeps (split p) (fun a => a.Has (ray.getPointAt s)) ∨ (T.ids bvh.indices).count p ≤ 1)) → p ∈ S) ∧
        IsNearest hits S ray.tMin ray.t t) ∧
    (T.depth ≤ 22 ∨ T.leaves ≤ 65 → ∀ depth > T.depth, ∃ q : Mbvh Rat, Mbvh.construct depth bvh = some q ∧
      ∃ N, ∀ fuel ≥ N, ∃ t, (q.forIndices cb fuel ray).ray = { ray with t := t } ∧
        (q.forIndices cb fuel ray).items.foldl (fun r x => (cb r x).1) ray = { ray with t := t } ∧
        (∀ p ∈ (q.forIndices cb fuel ray).items, p < b.primitives.length) ∧
        ∃ S, (∀ p ∈ S, p < b.primitives.length) ∧
          (∀ p < b.primitives.length, b.SparesSpatial split sort order (T.withIds bvh.indices) p →
            (∀ s, hits p s → (boxAt (b.boxes order) p).Has (ray.getPointAt s) ∧
              (SplitKeeps (split p) (fun a => a.Has (ray.getPointAt s)) ∨ (T.ids bvh.indices).count p ≤ 1)) → p ∈ S) ∧
          IsNearest hits S ray.tMin ray.t t) := by
  obtain ⟨T', hc, hr⟩ := C26_spatial_compact h e
  have := hU.det hc.unfolds; subst this
  obtain ⟨_, hU', _, _, _, _, _, hlt, _⟩ := spatial_built h e
  have := hU.det hU'; subst this
  have hreach : ∀ p ∈ T.ids bvh.indices, b.SparesSpatial split sort order (T.withIds bvh.indices) p ∧
      (∀ s, hits p s → (boxAt (b.boxes order) p).Has (ray.getPointAt s) ∧
        (SplitKeeps (split p) (fun a => a.Has (ray.getPointAt s)) ∨ (T.ids bvh.indices).count p ≤ 1)) → ∀ s, hits p s →
      T.Reaches bvh.indices p (fun a => a.Has (ray.getPointAt s)) := fun p hp hq s hs =>
    C76_spared_covered_partial h (fun a _ => rat_numeric a) (fun i a x => ⟨rat_numeric _, rat_numeric _⟩) p (hlt p hp) hq.1 _
      (hq.2 s hs).1 (hq.2 s hs).2
  refine ⟨fun hdep fuel hf => ?_, fun hdep k hk => ?_⟩
  · obtain ⟨t, e1, e2, e3, S, s1, s2, e4⟩ := C31_nearest_some bvh T hc.toDenotes hdep ray hw hd hits _ hreach cb hcb fuel
      (by omega)
    exact ⟨t, e1, e2, fun p hp => hlt p (e3 p hp), S, fun p hp => hlt p (s1 p hp),
      fun p hp hq hk => s2 p (C42_spared_kept_partial h hp hq) ⟨hq, hk⟩, e4⟩
  · obtain ⟨q, e1, e2, _, h2, _⟩ := construct_main bvh T hc k hk
    have need : T.toQuad.stackNeed ≤ 32 := by
      rcases hdep with hdep | hdep
      · refine C29_quad_depth _ ?_
        by_cases h1 : 1 ≤ T.depth
        · have := toQuad_depth' T h1; omega
        · have := toQuad_depth T; omega
      · have := toQuad_need T; omega
    refine ⟨q, e1, T.toQuad.rounds, fun fuel hf => ?_⟩
    obtain ⟨t, k1, k2, k3, S, s1, s2, k4⟩ := C32_nearest_some q T.toQuad e2 need ray hw hd hits _ (by
      rw [toQuad_ids, h2]
      exact fun p hp hq s hs => (hreach p hp hq s hs).toQuad) cb hcb fuel hf
    rw [toQuad_ids, h2] at k3 s1 s2
    exact ⟨t, k1, k2, fun p hp => hlt p (k3 p hp), S, fun p hp => hlt p (s1 p hp),
      fun p hp hq hk => s2 p (C42_spared_kept_partial h hp hq) ⟨hq, hk⟩, k4⟩

/-- C92 in builds without harmful moves, exact arithmetic.  Build with `construct_spatial_sah`; if no move after a cut overwrites
references (`QuietSpatial`), then running a closest-hit test on every id that a query yields leaves in `ray.t` the nearest
hit over all primitives, for every family of hits that lie in the primitives' boxes and that the provided `split` does not
lose (or whatever it loses, if the primitive is listed only once); through the BVH (at most 31 deep) and through the `Mbvh` made from it.
Missing: builds with a harmful move (`C92_missed_hit`), and `split`s that lose points, as the provided one for triangles
can (C41). -/
theorem C92_spatial_nearest_partial {b : Builder Rat} {split : Nat → Fin 3 → Rat → Aabb Rat × Aabb Rat}
    {sort : Fin 3 → List (Ref Rat) → Option (List (Ref Rat))} {order ks : List Nat} (h : b.LegalSpatial order sort)
    {bvh : Bvh Rat} (e : b.constructSpatialSah split sort order ks = .ok (.ok (some bvh))) {T : BTree Rat}
    (hU : Unfolds bvh.nodes 0 T) (hq : b.QuietSpatial split sort order (T.withIds bvh.indices))
    (ray : Ray Rat) (hw : ray.WellFormed) (hd : ray.direction.NonZero) (hits : Nat → Rat → Prop)
    (hhits : ∀ p < b.primitives.length, ∀ s, hits p s → (boxAt (b.boxes order) p).Has (ray.getPointAt s) ∧
      (SplitKeeps (split p) (fun a => a.Has (ray.getPointAt s)) ∨ (T.ids bvh.indices).count p ≤ 1))
    (cb : Ray Rat → Nat → Ray Rat × Bool) (hcb : ClosestHit ray hits cb) :
    (T.depth ≤ 31 → ∀ fuel ≥ 3 * referenceLimit Rat b.primitives.length + 2, ∃ t,
      (bvh.forIndices cb fuel ray).ray = { ray with t := t } ∧
      (bvh.forIndices cb fuel ray).items.foldl (fun r x => (cb r x).1) ray = { ray with t := t } ∧
      (∀ p ∈ (bvh.forIndices cb fuel ray).items, p < b.primitives.length) ∧
      IsNearest hits (List.range b.primitives.length) ray.tMin ray.t t) ∧
    (T.depth ≤ 22 ∨ T.leaves ≤ 65 → ∀ depth > T.depth, ∃ q : Mbvh Rat, Mbvh.construct depth bvh = some q ∧
      ∃ N, ∀ fuel ≥ N, ∃ t, (q.forIndices cb fuel ray).ray = { ray with t := t } ∧
        (q.forIndices cb fuel ray).items.foldl (fun r x => (cb r x).1) ray = { ray with t := t } ∧
        (∀ p ∈ (q.forIndices cb fuel ray).items, p < b.primitives.length) ∧
        IsNearest hits (List.range b.primitives.length) ray.tMin ray.t t) := by
  have same : ∀ {S : List Nat}, (∀ p ∈ S, p < b.primitives.length) →
      (∀ p < b.primitives.length, b.SparesSpatial split sort order (T.withIds bvh.indices) p →
        (∀ s, hits p s → (boxAt (b.boxes order) p).Has (ray.getPointAt s) ∧
          (SplitKeeps (split p) (fun a => a.Has (ray.getPointAt s)) ∨ (T.ids bvh.indices).count p ≤ 1)) → p ∈ S) →
      ∀ p, p ∈ S ↔ p ∈ List.range b.primitives.length := fun h1 h2 p =>
    ⟨fun hp => List.mem_range.2 (h1 p hp), fun hp => h2 p (List.mem_range.1 hp) (hq.spares p) (hhits p (List.mem_range.1 hp))⟩
  obtain ⟨H1, H2⟩ := C92_spared_nearest_partial h e hU ray hw hd hits cb hcb
  refine ⟨fun hdep fuel hf => ?_, fun hdep k hk => ?_⟩
  · obtain ⟨t, e1, e2, e3, S, s1, s2, e4⟩ := H1 hdep fuel hf
    exact ⟨t, e1, e2, e3, e4.same (same s1 s2)⟩
  · obtain ⟨q, e1, N, hN⟩ := H2 hdep k hk
    refine ⟨q, e1, N, fun fuel hf => ?_⟩
    obtain ⟨t, e1, e2, e3, S, s1, s2, e4⟩ := hN fuel hf
    exact ⟨t, e1, e2, e3, e4.same (same s1 s2)⟩

/-- Cutting the primitive's own box at the plane loses no point of the box. -/
theorem clipBox_splitKeeps {box : Aabb Rat} {v : Vec3 Rat} (h : box.Has v) : SplitKeeps (clipBox box) fun a => a.Has v := by
  intro a pos
  simp only [has_rat]
  rw [has_rat] at h
  obtain ⟨⟨x1, x2⟩, ⟨y1, y2⟩, z1, z2⟩ := h
  have key : ∀ {m M c : Rat}, m ≤ c → c ≤ M → c ≤ (if (pos <. M) = true then pos else M) ∨
      (if (m <. pos) = true then pos else m) ≤ c := by
    intro m M c h1 h2
    rcases le_total c pos with h | h
    · left; split
      · exact h
      · exact h2
    · right; split
      · exact h
      · exact h1
  match a with
  | 0 => rcases key x1 x2 with k | k
         · exact .inl ⟨⟨x1, k⟩, ⟨y1, y2⟩, z1, z2⟩
         · exact .inr ⟨⟨k, x2⟩, ⟨y1, y2⟩, z1, z2⟩
  | 1 => rcases key y1 y2 with k | k
         · exact .inl ⟨⟨x1, x2⟩, ⟨y1, k⟩, z1, z2⟩
         · exact .inr ⟨⟨x1, x2⟩, ⟨k, y2⟩, z1, z2⟩
  | 2 => rcases key z1 z2 with k | k
         · exact .inl ⟨⟨x1, x2⟩, ⟨y1, y2⟩, z1, k⟩
         · exact .inr ⟨⟨x1, x2⟩, ⟨y1, y2⟩, k, z2⟩

/-- Clipping takes nothing away from primitive `p`: the provided `split` cuts its box at the plane, or it is listed only once
(then it is never cut in two if the moves spare it, and what `split` returns does not matter). -/
def Builder.KeptWhole {F : Type} [FloatOps F] (b : Builder F) (split : Nat → Fin 3 → F → Aabb F × Aabb F)
    (order ids : List Nat) (p : Nat) : Prop :=
  split p = clipBox (boxAt (b.boxes order) p) ∨ ids.count p ≤ 1

/-- C92 for meshes whose `split` cuts the triangle's box at the plane, and for any other `split`, like the provided one, if
no triangle is listed twice: without a harmful move, tracing the mesh through the spatial BVH finds the nearest triangle,
and drawing as the visualizer does (C91) shows it. -/
theorem C92_mesh_partial {tris : List (Triangle Rat)} {b : Builder Rat}
    {split : Nat → Fin 3 → Rat → Aabb Rat × Aabb Rat}
    {sort : Fin 3 → List (Ref Rat) → Option (List (Ref Rat))} {order ks : List Nat} (h : b.LegalSpatial order sort)
    (hfit : BoxesFit tris (boxAt (b.boxes order))) {bvh : Bvh Rat}
    (e : b.constructSpatialSah split sort order ks = .ok (.ok (some bvh)))
    {T : BTree Rat} (hU : Unfolds bvh.nodes 0 T)
    (hq : b.QuietSpatial split sort order (T.withIds bvh.indices))
    (hk : ∀ p < b.primitives.length, b.KeptWhole split order (T.ids bvh.indices) p)
    (ray : Ray Rat) (hw : ray.WellFormed) (hd : ray.direction.NonZero) :
    (T.depth ≤ 31 → ∀ fuel ≥ 3 * referenceLimit Rat b.primitives.length + 2,
      (∃ t, (bvh.forIndices (meshCb tris) fuel ray).ray = { ray with t := t } ∧
        IsNearest (MeshHit tris ray) (List.range b.primitives.length) ray.tMin ray.t t) ∧
      Shown (MeshHit tris ray) (List.range b.primitives.length) (fun s => ray.tMin < s ∧ s < ray.t)
        (drawRay tris (bvh.forIndices (meshCb tris) fuel) ray)) ∧
    (T.depth ≤ 22 ∨ T.leaves ≤ 65 → ∀ depth > T.depth, ∃ q : Mbvh Rat, Mbvh.construct depth bvh = some q ∧
      ∃ N, ∀ fuel ≥ N,
      (∃ t, (q.forIndices (meshCb tris) fuel ray).ray = { ray with t := t } ∧
        IsNearest (MeshHit tris ray) (List.range b.primitives.length) ray.tMin ray.t t) ∧
      Shown (MeshHit tris ray) (List.range b.primitives.length) (fun s => ray.tMin < s ∧ s < ray.t)
        (drawRay tris (q.forIndices (meshCb tris) fuel) ray)) := by
  obtain ⟨H1, H2⟩ := C92_spatial_nearest_partial h e hU hq ray hw hd (MeshHit tris ray)
    (fun p hp s hs => ⟨meshHit_box hfit p s hs, (hk p hp).imp
      (fun e => by rw [e]; exact clipBox_splitKeeps (meshHit_box hfit p s hs)) id⟩) _ (meshCb_closest tris ray)
  refine ⟨fun hdep fuel hf => ?_, fun hdep k hk => ?_⟩
  · obtain ⟨t, e1, e2, e3, e4⟩ := H1 hdep fuel hf
    exact ⟨⟨t, e1, e4⟩, shown_ray e2 (fun p hp => List.mem_range.2 (e3 p hp)) e4⟩
  · obtain ⟨q, e1, N, hN⟩ := H2 hdep k hk
    refine ⟨q, e1, N, fun fuel hf => ?_⟩
    obtain ⟨t, e1, e2, e3, e4⟩ := hN fuel hf
    exact ⟨⟨t, e1, e4⟩, shown_ray e2 (fun p hp => List.mem_range.2 (e3 p hp)) e4⟩

/-- Three triangles in a row across the ray, with rational coordinates. -/
def rowTris : List (Triangle Rat) :=
  [⟨⟨0, -1, -1⟩, ⟨0, 2, -1⟩, ⟨1, -1, 2⟩⟩, ⟨⟨10, -1, -1⟩, ⟨10, 2, -1⟩, ⟨11, -1, 2⟩⟩, ⟨⟨20, -1, -1⟩, ⟨20, 2, -1⟩, ⟨21, -1, 2⟩⟩]

/-- A ray that meets all three from the far side. -/
def rowRay : Ray Rat := Ray.new ⟨30, 1 / 4, 1 / 4⟩ ⟨-1, 1 / 1000, 1 / 1000⟩

theorem rowScene_legal : (meshScene rowTris (some 1)).LegalSpatial [0, 1, 2] refSort :=
  { meshScene_legal rowTris (some 1) (by decide) (by decide) with
    fits := by decide +kernel
    sorts := refSort_sorts }

/-- Not vacuous: a build of three triangles makes no harmful move, and the query finds the nearest of the three hits. -/
example : ∃ (bvh : Bvh Rat) (T : BTree Rat), Unfolds bvh.nodes 0 T ∧ 1 < T.leaves ∧ T.depth ≤ 31 ∧
    (meshScene rowTris (some 1)).QuietSpatial (fun i => clipBox (boxAt ((meshScene rowTris (some 1)).boxes [0, 1, 2]) i))
      refSort [0, 1, 2] (T.withIds bvh.indices) ∧
    rowRay.WellFormed ∧ rowRay.direction.NonZero ∧
    (∀ p < 3, ((rowTris.getD p ⟨⟨0, 0, 0⟩, ⟨0, 0, 0⟩, ⟨0, 0, 0⟩⟩).intersect rowRay).2 = true) ∧
    (∃ t, (bvh.forIndices (meshCb rowTris) 100 rowRay).ray = { rowRay with t := t } ∧
      IsNearest (MeshHit rowTris rowRay) (List.range 3) rowRay.tMin rowRay.t t) := by
  have key : (spatialBuilt ((meshScene rowTris (some 1)).constructSpatialSah
      (fun i => clipBox (boxAt ((meshScene rowTris (some 1)).boxes [0, 1, 2]) i)) refSort [0, 1, 2]
      (List.replicate 10 0))).map (fun x => decide (1 < x.2.leaves ∧ x.2.depth ≤ 31)) = some true := by decide +kernel
  rw [Option.map_eq_some_iff] at key
  obtain ⟨⟨bvh, T⟩, h1, h2⟩ := key
  obtain ⟨e, hU⟩ := spatialBuilt_some h1
  obtain ⟨h2, h3⟩ := of_decide_eq_true h2
  have hq := quiet_spatial rowScene_legal e hU (by decide +kernel)
  have hw : rowRay.WellFormed := by decide +kernel
  have hd : rowRay.direction.NonZero := by decide +kernel
  exact ⟨bvh, T, hU, h2, h3, hq, hw, hd, by decide +kernel,
    ((C92_mesh_partial rowScene_legal (meshScene_fit _ _ _) e hU hq (fun _ _ => .inl rfl) rowRay hw hd).1 h3 100 (by decide +kernel)).1⟩

/-- A ray through the interior of triangle 2 of `lostScene`. -/
def lostRay : Ray F32 := Ray.new ⟨FloatOps.lit 1325 (-2), FloatOps.lit 5 0, FloatOps.lit 25 (-2)⟩
  ⟨FloatOps.lit 1 (-3), FloatOps.lit (-1) 0, FloatOps.lit 1 (-3)⟩

/-- C92 is false: the ray hits triangle 2, but neither the query through the BVH that `construct_spatial_sah` returns nor
the one through its `Mbvh` reports any hit. -/
theorem C92_missed_hit : ∃ (bvh : Bvh F32) (q : Mbvh F32),
    (triScene lostScene).LegalSpatial [0, 1, 2] refSort ∧
    (triScene lostScene).constructSpatialSah (triSplit lostScene) refSort [0, 1, 2] (List.replicate 10 0) =
      .ok (.ok (some bvh)) ∧ Mbvh.construct 10 bvh = some q ∧
    lostRay.hasNaN = false ∧ lostScene[2]? = some (sliver 13 14) ∧ ((sliver 13 14).intersect lostRay).2 = true ∧
    (bvh.forIndices (meshCb lostScene) 100 lostRay).ending = .finished ∧
    (q.forIndices (meshCb lostScene) 100 lostRay).ending = .finished ∧
    (bvh.forIndices (meshCb lostScene) 100 lostRay).ray.t = lostRay.t ∧
    (q.forIndices (meshCb lostScene) 100 lostRay).ray.t = lostRay.t := by
  have key : (spatialBuilt ((triScene lostScene).constructSpatialSah (triSplit lostScene) refSort [0, 1, 2]
      (List.replicate 10 0))).bind (fun x => (Mbvh.construct 10 x.1).map fun q =>
        decide ((x.1.forIndices (meshCb lostScene) 100 lostRay).ending = .finished ∧
          (q.forIndices (meshCb lostScene) 100 lostRay).ending = .finished ∧
          (x.1.forIndices (meshCb lostScene) 100 lostRay).ray.t = lostRay.t ∧
          (q.forIndices (meshCb lostScene) 100 lostRay).ray.t = lostRay.t)) = some true := by
    decide +kernel
  rw [Option.bind_eq_some_iff] at key
  obtain ⟨⟨bvh, T⟩, h1, h2⟩ := key
  rw [Option.map_eq_some_iff] at h2
  obtain ⟨q, h2, h3⟩ := h2
  obtain ⟨e, hU⟩ := spatialBuilt_some h1
  exact ⟨bvh, q, triScene_legal _ _ (by decide) (by decide) (by decide) (by decide +kernel), e, h2, by decide +kernel, rfl,
    by decide +kernel, of_decide_eq_true h3⟩

end Rtbvh
