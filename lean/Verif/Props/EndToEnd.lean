import Verif.Props.Locb
import Verif.Props.BinnedMiss
/- Properties C62 (built BVHs can be traversed) and C63 (building and querying, end to end). -/
namespace Rtbvh
open FloatOps Aabb
variable {F : Type} [FloatOps F]

/-- `bvh` is what `construct_binned_sah` (under some schedule) or `construct_locally_ordered_clustered` (on some number of
CPUs) returns for the scene. -/
def Builder.Returns (b : Builder F) (order : List Nat) (bvh : Bvh F) : Prop :=
  (∃ ks, b.constructBinnedSah order ks = .ok (some (some bvh))) ∨
  (∃ t rounds, 0 < t ∧ b.constructLocb order t rounds = .ok (some (some bvh)))

omit [FloatOps F] in
theorem BTree.rounds_eq (idx : List Nat) (T : BTree F) (h : T.RangesIn idx) :
    T.rounds = (T.ids idx).length + T.size := by
  induction T with
  | leaf b f c =>
    simp only [BTree.RangesIn] at h
    simp only [BTree.rounds, BTree.ids, BTree.size, BTree.rangeIds, List.length_take, List.length_drop]
    omega
  | node b l r hl hr =>
    simp only [BTree.rounds, BTree.ids, BTree.size, List.length_append, hl h.1, hr h.2]
    omega

omit [FloatOps F] in
theorem BTree.size_eq_leaves (T : BTree F) : T.size + 1 = 2 * T.leaves := by
  induction T with
  | leaf => rfl
  | node b l r hl hr => simp only [BTree.size, BTree.leaves]; omega

/-- What a constructor returns for `n` primitives is a compact tree over all ids, less than `n` deep, with at most
`2n-1` nodes. -/
theorem returns_tree {b : Builder F} {order : List Nat} (h : b.Legal order) (hs : b.primitives.length ≤ 2 ^ 29)
    {bvh : Bvh F} (e : b.Returns order bvh) :
    ∃ T, bvh.Compact T ∧ (T.ids bvh.indices).Perm (List.range b.primitives.length) ∧
      T.depth < b.primitives.length ∧ T.rounds < 3 * b.primitives.length ∧ T.leaves ≤ b.primitives.length := by
  have hpos := List.length_pos_iff.2 h.nonempty
  suffices H : ∃ T, bvh.Compact T ∧ (T.ids bvh.indices).Perm (List.range b.primitives.length) ∧
      bvh.nodes.length ≤ 2 * b.primitives.length - 1 by
    obtain ⟨T, hc, hp, hl⟩ := H
    have h1 := two_depth_lt_size T
    have h2 := T.rounds_eq _ hc.ranges
    have h3 := hc.size
    have h4 : (T.ids bvh.indices).length = b.primitives.length := by simpa using hp.length_eq
    change T.rounds = (T.ids bvh.indices).length + T.size at h2
    have h5 := T.size_eq_leaves
    exact ⟨T, hc, hp, by omega, by omega, by omega⟩
  rcases e with ⟨ks, e⟩ | ⟨t, rounds, ht, e⟩
  · obtain ⟨T, hc, hids, _⟩ := C26_binned_compact b order ks h bvh e
    obtain ⟨hp, _⟩ := C03_binned_partition b order ks h bvh e
    obtain ⟨T', P, _, hT, H⟩ := builder_main h
    obtain ⟨s, _, _, h3, h4⟩ := H ks
    have hpend : s.pending = [] := by
      by_cases hp : s.pending = []
      · exact hp
      · rw [h4 hp] at e; cases e
    obtain ⟨e', hP, hU, hn⟩ := h3 hpend
    rw [e'] at e; cases e
    refine ⟨T, hc, by rw [hids]; exact hp, ?_⟩
    rw [hn]
    have h1 := hT.size
    have h2 := hT.leaves
    rw [List.length_range] at h2
    omega
  · obtain ⟨T, hc, hp, _⟩ := C26_locb_compact b order h t rounds ht hs bvh e
    refine ⟨T, hc, hp, ?_⟩
    obtain ⟨_, _, T', hU, hsz, _, _, _, h3, h2⟩ := C11_locb_structure b order h t rounds ht hs bvh e
    by_cases h' : 3 ≤ b.primitives.length
    · have := (h3 h').1; omega
    · obtain ⟨bb, rfl⟩ := h2 (by omega)
      simp only [BTree.size] at hsz; omega

/-- C62, the part that holds: a BVH built by the binned or the clustering builder from at most 32 primitives can be
traversed by every ray, packet and caller: no panic, and at most `3n` rounds.  From at most 65 primitives, the `Mbvh` made
from it can (no write past the stack, no panic, termination).  Missing: larger scenes, for which the claim is false
(`C62_binned_panics`, `C62_locb_panics`). -/
theorem C62_small_scenes_partial (b : Builder F) (order : List Nat) (h : b.Legal order)
    (bvh : Bvh F) (e : b.Returns order bvh) :
    (b.primitives.length ≤ 32 → ∀ fuel ≥ 3 * b.primitives.length,
      (∀ ray cb, (bvh.forIndices cb fuel ray).ending = .finished ∨ (bvh.forIndices cb fuel ray).ending = .stopped) ∧
      (∀ p cb, (bvh.forIndicesPacket cb fuel p).ending = .finished ∨
        (bvh.forIndicesPacket cb fuel p).ending = .stopped)) ∧
    (b.primitives.length ≤ 65 → ∃ q : Mbvh F, Mbvh.construct 65 bvh = some q ∧ ∃ N, ∀ fuel ≥ N,
      (∀ cb ray, (q.forIndices cb fuel ray).ending = .finished ∨ (q.forIndices cb fuel ray).ending = .stopped) ∧
      (∀ cb p, (q.forIndicesPacket cb fuel p).ending = .finished ∨ (q.forIndicesPacket cb fuel p).ending = .stopped)) := by
  refine ⟨fun hn => ?_, fun hn => ?_⟩
  · obtain ⟨T, hc, hp, hd, hr, _⟩ := returns_tree h (by omega) e
    exact fun fuel hf => C22_stack_safe bvh T hc.toDenotes (by omega) fuel (by omega)
  · obtain ⟨T, hc, hp, hd, hr, hl⟩ := returns_tree h (by omega) e
    obtain ⟨q, Q, e1, e2, e3⟩ := C29_binary_depth bvh T hc (.inr (by omega)) 65 (by omega)
    exact ⟨q, e1, Q.rounds, fun fuel hf => C29_stack_safe q Q e2 e3 fuel hf⟩

section lawful
variable [LawfulFloat F]
open LawfulFloat

omit [FloatOps F] [LawfulFloat F] in
theorem forall_of_ids {idx : List Nat} {P : Aabb F → List Nat → Prop} {Q : Aabb F → Prop} (T : BTree F)
    (h : T.Forall idx P) (hne : ∀ f c, (f, c) ∈ T.ranges → 0 < c ∧ f + c ≤ idx.length)
    (hQ : ∀ a ids, ids ≠ [] → P a ids → Q a) : T.Forall idx fun a _ => Q a := by
  have ne : ∀ T : BTree F, (∀ f c, (f, c) ∈ T.ranges → 0 < c ∧ f + c ≤ idx.length) → T.ids idx ≠ [] := by
    intro T
    induction T with
    | leaf b f c =>
      intro hh
      have := hh f c (by simp [BTree.ranges])
      simp only [BTree.ids, BTree.rangeIds, ne_eq]
      intro h0
      have := congrArg List.length h0
      simp at this
      omega
    | node b l r hl hr =>
      intro hh h0
      simp only [BTree.ids, List.append_eq_nil_iff] at h0
      exact hl (fun f c hm => hh f c (by simp [BTree.ranges, hm])) h0.1
  induction T with
  | leaf b f c => exact hQ _ _ (ne _ hne) h
  | node b l r hl hr =>
    refine ⟨hQ _ _ (ne _ hne) h.1, hl h.2.1 fun f c hm => hne f c ?_, hr h.2.2 fun f c hm => hne f c ?_⟩ <;>
      simp [BTree.ranges, hm]

/-- Leaf ranges of a clustering build are not empty. -/
theorem locb_ranges {b : Builder F} {order : List Nat} (h : b.Legal order) {t rounds : Nat} (ht : 0 < t)
    (hs : b.primitives.length ≤ 2 ^ 29) {bvh : Bvh F} {T : BTree F}
    (e : b.constructLocb order t rounds = .ok (some (some bvh))) (hU : Unfolds bvh.nodes 0 T) :
    ∀ f c, (f, c) ∈ T.ranges → 0 < c ∧ f + c ≤ bvh.indices.length := by
  obtain ⟨hp, _, T', hU', _, hR, _, _, h3, h2⟩ := C11_locb_structure b order h t rounds ht hs bvh e
  have := hU.det hU'; subst this
  have hpos := List.length_pos_iff.2 h.nonempty
  have hin : ∀ T : BTree F, T.RangesIn bvh.indices → ∀ f c, (f, c) ∈ T.ranges → f + c ≤ bvh.indices.length := by
    intro T
    induction T with
    | leaf b f c => intro hr f' c' hm; simp only [BTree.ranges, List.mem_singleton, Prod.mk.injEq] at hm; obtain ⟨rfl, rfl⟩ := hm; exact hr
    | node b l r hl hr =>
      intro hh f c hm
      simp only [BTree.ranges, List.mem_append] at hm
      exact hm.elim (hl hh.1 f c) (hr hh.2 f c)
  intro f c hm
  refine ⟨?_, hin T hR f c hm⟩
  by_cases h' : 3 ≤ b.primitives.length
  · rw [(h3 h').2.2.1 f c hm]; omega
  · obtain ⟨bb, rfl⟩ := h2 (by omega)
    simp only [BTree.ranges, List.mem_singleton, Prod.mk.injEq] at hm
    omega

/-- Query of a built BVH in which the boxes above the primitives in `K` contain them. -/
theorem query_main {b : Builder F} {order : List Nat} (h : b.Legal order) (hn : ∀ a ∈ b.boxes order, a.Numeric)
    {bvh : Bvh F} {T : BTree F} (hc : bvh.Compact T) (hp : (T.ids bvh.indices).Perm (List.range b.primitives.length))
    (hr : T.rounds < 3 * b.primitives.length) (K : Nat → Prop)
    (hb : ∀ p < b.primitives.length, K p → T.Forall bvh.indices fun a ids => p ∈ ids → (boxAt (b.boxes order) p).Within a)
    (hdep : T.depth ≤ 31)
    (o d : Vec3 F) (ho : o.Finite) (hd : d.NonZero) (hi : (Ray.new o d).invDirection.Finite)
    (hz : (Ray.new o d).invDirection.NonZero) (cb : Ray F → Nat → Ray F × Bool)
    (hcb : ∀ r id, ∃ t, cb r id = ({ r with t := t }, false)) (fuel : Nat) (hf : 3 * b.primitives.length ≤ fuel) :
    (bvh.forIndices cb fuel (Ray.new o d)).ending = .finished ∧
    (bvh.forIndices cb fuel (Ray.new o d)).items.Nodup ∧
    ∀ p < b.primitives.length, K p → ((boxAt (b.boxes order) p).intersect (Ray.new o d)).isSome = true →
      p ∈ (bvh.forIndices cb fuel (Ray.new o d)).items := by
  have hlen := Builder.boxes_length h
  have hnan : (Ray.new o d).hasNaN = false := by
    have ho' : ∀ x : F, Fin' x → FloatOps.isNaN x = false := fun x hx => (fin_num hx)
    have hd' : ∀ x : F, NonZero x → FloatOps.isNaN x = false := by
      intro x hx
      rcases hx with hx | hx
      · exact (lt_iff.1 hx).1
      · exact (lt_iff.1 hx).2.1
    simp [Ray.hasNaN, Ray.new, Vec3.isNaN, ho' _ ho.1, ho' _ ho.2.1, ho' _ ho.2.2, hd' _ hd.1, hd' _ hd.2.1, hd' _ hd.2.2]
  obtain ⟨hfin, _, hperm⟩ := C20_ray_traversal_exact bvh T hc.toDenotes hdep (Ray.new o d) hnan cb hcb fuel (by omega)
  refine ⟨hfin, ?_, fun p hpn hK hhit => ?_⟩
  · rw [List.nodup_iff_count_le_one]
    intro p
    rw [hperm.count_eq]
    refine Nat.le_trans (reach_count_le_ids _ _ p T) ?_
    rw [hp.count_eq]
    exact List.nodup_iff_count_le_one.1 List.nodup_range p
  · refine C21_ray_offered bvh T hc.toDenotes hdep _ hnan (Ray.new_coherent hd) cb hcb fuel (by omega) p
      (hp.mem_iff.2 (by simpa using hpn)) _ ?_ ((hb p hpn hK).mono fun a ids h hq =>
        ⟨h hq, noNaN_of_finite (h hq).num_right ho hi hz⟩) hhit
    exact noNaN_of_finite (hn _ (boxAt_mem (by omega))) ho hi hz

/-- C63, clustering builder, single rays, with rounding.  Build a scene of numeric boxes, then query with a ray made by
`Ray::new` from a finite origin and a direction whose components are non-zero with finite non-zero reciprocals.  If the
tree is at most 31 deep (always so for up to 32 primitives), a caller that only changes `ray.t` and never breaks is handed
every primitive whose own box the ray hits, and none twice. -/
theorem C63_locb_query (b : Builder F) (order : List Nat) (h : b.Legal order) (t rounds : Nat) (ht : 0 < t)
    (hs : b.primitives.length ≤ 2 ^ 29) (hn : ∀ a ∈ b.boxes order, a.Numeric) (bvh : Bvh F)
    (e : b.constructLocb order t rounds = .ok (some (some bvh))) (T : BTree F) (hU : Unfolds bvh.nodes 0 T)
    (hdep : T.depth ≤ 31) (o d : Vec3 F) (ho : o.Finite) (hd : d.NonZero) (hi : (Ray.new o d).invDirection.Finite)
    (hz : (Ray.new o d).invDirection.NonZero) (cb : Ray F → Nat → Ray F × Bool)
    (hcb : ∀ r id, ∃ t, cb r id = ({ r with t := t }, false)) (fuel : Nat) (hf : 3 * b.primitives.length ≤ fuel) :
    (bvh.forIndices cb fuel (Ray.new o d)).ending = .finished ∧
    (bvh.forIndices cb fuel (Ray.new o d)).items.Nodup ∧
    ∀ p < b.primitives.length, ((boxAt (b.boxes order) p).intersect (Ray.new o d)).isSome = true →
      p ∈ (bvh.forIndices cb fuel (Ray.new o d)).items := by
  obtain ⟨T', hc, hp, _, hr, _⟩ := returns_tree h hs (.inr ⟨t, rounds, ht, e⟩)
  have := hU.det hc.unfolds; subst this
  obtain ⟨h1, h2, h3⟩ := query_main h hn hc hp hr (fun _ => True)
    (fun p _ _ => (C12_locb_bounds b order h t rounds ht hs bvh T e hU hn).1.mono fun a ids h hq => h p hq)
    hdep o d ho hd hi hz cb hcb fuel hf
  exact ⟨h1, h2, fun p hp => h3 p hp trivial⟩

/-- C63, binned builder, the part that holds, under any schedule of the build: the caller is handed every primitive whose
own box the ray hits and which no node of the tree misplaces (`Spec/Sah.lean`; nothing is misplaced where some cut pays
off or the node fits into a leaf).  Missing: misplaced primitives, for which the claim is false
(`C07_left_child_misses`, `C07_misplaced_there`). -/
theorem C63_binned_query_partial (b : Builder F) (order ks : List Nat) (h : b.Legal order)
    (hs : b.primitives.length ≤ 2 ^ 29) (hn : ∀ a ∈ b.boxes order, a.Numeric)
    (bvh : Bvh F)
    (e : b.constructBinnedSah order ks = .ok (some (some bvh))) (T : BTree F) (hU : Unfolds bvh.nodes 0 T)
    (hdep : T.depth ≤ 31) (o d : Vec3 F) (ho : o.Finite) (hd : d.NonZero) (hi : (Ray.new o d).invDirection.Finite)
    (hz : (Ray.new o d).invDirection.NonZero) (cb : Ray F → Nat → Ray F × Bool)
    (hcb : ∀ r id, ∃ t, cb r id = ({ r with t := t }, false)) (fuel : Nat) (hf : 3 * b.primitives.length ≤ fuel) :
    (bvh.forIndices cb fuel (Ray.new o d)).ending = .finished ∧
    (bvh.forIndices cb fuel (Ray.new o d)).items.Nodup ∧
    ∀ p < b.primitives.length, ¬ T.Misplaces (b.ctx order) bvh.indices p →
      ((boxAt (b.boxes order) p).intersect (Ray.new o d)).isSome = true →
      p ∈ (bvh.forIndices cb fuel (Ray.new o d)).items := by
  obtain ⟨T', hc, hp, _, hr, _⟩ := returns_tree h hs (.inl ⟨ks, e⟩)
  have := hU.det hc.unfolds; subst this
  exact query_main h hn hc hp hr (fun p => ¬ T.Misplaces (b.ctx order) bvh.indices p)
    (fun p hpn hm => (C07_miss_cause_partial b order ks h bvh T e hU hn p hpn hm).mono fun a ids h' hq =>
      (within_box h hn hpn).trans (h' hq))
    hdep o d ho hd hi hz cb hcb fuel hf

end lawful

theorem IsNearest.perm {hits : Nat → Rat → Prop} {l l' : List Nat} {a t₀ t : Rat} (hp : l.Perm l')
    (h : IsNearest hits l a t₀ t) : IsNearest hits l' a t₀ t :=
  ⟨h.le, fun p hpm => h.lower p (hp.mem_iff.2 hpm), h.attained.imp id fun ⟨p, hpm, q⟩ => ⟨p, hp.mem_iff.1 hpm, q⟩⟩

/-- Nearest hit on a built BVH whose boxes contain their primitives' boxes. -/
theorem nearest_main {b : Builder Rat} {order : List Nat} {bvh : Bvh Rat} {T : BTree Rat} (hc : bvh.Compact T)
    (hp : (T.ids bvh.indices).Perm (List.range b.primitives.length)) (hr : T.rounds < 3 * b.primitives.length)
    (hb : T.Bounds bvh.indices (boxAt (b.boxes order))) (ray : Ray Rat) (hw : ray.WellFormed)
    (hd : ray.direction.NonZero) (hits : Nat → Rat → Prop)
    (hhits : ∀ p s, hits p s → (boxAt (b.boxes order) p).Has (ray.getPointAt s))
    (cb : Ray Rat → Nat → Ray Rat × Bool) (hcb : ClosestHit ray hits cb) :
    (T.depth ≤ 31 → ∀ fuel ≥ 3 * b.primitives.length, ∃ t, (bvh.forIndices cb fuel ray).ray = { ray with t := t } ∧
      IsNearest hits (List.range b.primitives.length) ray.tMin ray.t t) ∧
    (T.depth ≤ 22 ∨ T.leaves ≤ 65 → ∀ depth > T.depth, ∃ q : Mbvh Rat, Mbvh.construct depth bvh = some q ∧
      ∃ N, ∀ fuel ≥ N, ∃ t, (q.forIndices cb fuel ray).ray = { ray with t := t } ∧
        IsNearest hits (List.range b.primitives.length) ray.tMin ray.t t) := by
  refine ⟨fun hdep fuel hf => ?_, fun hdep k hk => ?_⟩
  · obtain ⟨t', e', k⟩ := C31_nearest_hit bvh T hc.toDenotes hdep _ hb ray hw hd hits hhits cb hcb fuel (by omega)
    exact ⟨t', e', k.perm hp⟩
  · obtain ⟨q, e1, e2, _, h2, _⟩ := construct_main bvh T hc k hk
    have need : T.toQuad.stackNeed ≤ 32 := by
      rcases hdep with hdep | hdep
      · refine C29_quad_depth _ ?_
        by_cases h1 : 1 ≤ T.depth
        · have := toQuad_depth' T h1; omega
        · have := toQuad_depth T; omega
      · have := toQuad_need T; omega
    refine ⟨q, e1, T.toQuad.rounds, fun fuel hf => ?_⟩
    obtain ⟨t', e', k⟩ := C32_nearest_hit q T.toQuad e2 need _
      (by rw [h2]; exact toQuad_forall (C := fun a p => (boxAt (b.boxes order) p).Within a) hb) ray hw hd hits hhits cb hcb fuel hf
    exact ⟨t', e', k.perm (by rw [toQuad_ids, h2]; exact hp)⟩

theorem rat_numeric (a : Aabb Rat) : a.Numeric := by
  unfold Aabb.Numeric Vec3.Numeric Num; exact ⟨⟨rfl, rfl, rfl⟩, rfl, rfl, rfl⟩

/-- C63, nearest hit, exact arithmetic: build with the clustering builder, run a closest-hit test on every primitive the
traversal yields; the final `ray.t` is the brute-force answer over all primitives of the scene.  For trees at most 31 deep
with the `Bvh`, and at most 22 deep or with at most 65 leaves also with the `Mbvh` made from it. -/
theorem C63_locb_nearest (b : Builder Rat) (order : List Nat) (h : b.Legal order) (t rounds : Nat) (ht : 0 < t)
    (hs : b.primitives.length ≤ 2 ^ 29) (bvh : Bvh Rat) (e : b.constructLocb order t rounds = .ok (some (some bvh)))
    (T : BTree Rat) (hU : Unfolds bvh.nodes 0 T) (ray : Ray Rat) (hw : ray.WellFormed) (hd : ray.direction.NonZero)
    (hits : Nat → Rat → Prop) (hhits : ∀ p s, hits p s → (boxAt (b.boxes order) p).Has (ray.getPointAt s))
    (cb : Ray Rat → Nat → Ray Rat × Bool) (hcb : ClosestHit ray hits cb) :
    (T.depth ≤ 31 → ∀ fuel ≥ 3 * b.primitives.length, ∃ t, (bvh.forIndices cb fuel ray).ray = { ray with t := t } ∧
      IsNearest hits (List.range b.primitives.length) ray.tMin ray.t t) ∧
    (T.depth ≤ 22 ∨ T.leaves ≤ 65 → ∀ depth > T.depth, ∃ q : Mbvh Rat, Mbvh.construct depth bvh = some q ∧
      ∃ N, ∀ fuel ≥ N, ∃ t, (q.forIndices cb fuel ray).ray = { ray with t := t } ∧
        IsNearest hits (List.range b.primitives.length) ray.tMin ray.t t) := by
  obtain ⟨T', hc, hp, _, hr, _⟩ := returns_tree h hs (.inr ⟨t, rounds, ht, e⟩)
  have := hU.det hc.unfolds; subst this
  exact nearest_main hc hp hr (C12_locb_bounds b order h t rounds ht hs bvh T e hU fun a _ => rat_numeric a).1 ray hw hd hits
    hhits cb hcb

/-- C63, nearest hit after a binned build that misplaces nothing (`Spec/Sah.lean`).  Missing: builds that do. -/
theorem C63_binned_nearest_partial (b : Builder Rat) (order ks : List Nat) (h : b.Legal order)
    (hs : b.primitives.length ≤ 2 ^ 29) (bvh : Bvh Rat)
    (e : b.constructBinnedSah order ks = .ok (some (some bvh)))
    (T : BTree Rat) (hU : Unfolds bvh.nodes 0 T)
    (hm : ∀ p < b.primitives.length, ¬ T.Misplaces (b.ctx order) bvh.indices p)
    (ray : Ray Rat) (hw : ray.WellFormed) (hd : ray.direction.NonZero)
    (hits : Nat → Rat → Prop) (hhits : ∀ p s, hits p s → (boxAt (b.boxes order) p).Has (ray.getPointAt s))
    (cb : Ray Rat → Nat → Ray Rat × Bool) (hcb : ClosestHit ray hits cb) :
    (T.depth ≤ 31 → ∀ fuel ≥ 3 * b.primitives.length, ∃ t, (bvh.forIndices cb fuel ray).ray = { ray with t := t } ∧
      IsNearest hits (List.range b.primitives.length) ray.tMin ray.t t) ∧
    (T.depth ≤ 22 ∨ T.leaves ≤ 65 → ∀ depth > T.depth, ∃ q : Mbvh Rat, Mbvh.construct depth bvh = some q ∧
      ∃ N, ∀ fuel ≥ N, ∃ t, (q.forIndices cb fuel ray).ray = { ray with t := t } ∧
        IsNearest hits (List.range b.primitives.length) ray.tMin ray.t t) := by
  obtain ⟨T', hc, hp, _, hr, _⟩ := returns_tree h hs (.inl ⟨ks, e⟩)
  have := hU.det hc.unfolds; subst this
  exact nearest_main hc hp hr (C07_no_misplaced_partial b order ks h bvh T e hU (fun a _ => rat_numeric a) hm).2 ray hw
    hd hits hhits cb hcb

/-! Non-vacuity: three cubes, built both ways, and a ray hitting two of them. -/

def threeScene (F : Type) [FloatOps F] : Builder F := cubeScene [(0, 1), (4, 1), (9, 1)] (some 4)

def threeOrigin (F : Type) [FloatOps F] : Vec3 F := ⟨lit (-4) 0, lit 2 (-1), lit 3 (-1)⟩
def threeDir (F : Type) [FloatOps F] : Vec3 F := ⟨lit 1 0, lit 1 (-1), lit 1 (-2)⟩

theorem threeScene_numeric : ∀ a ∈ (threeScene F32).boxes (List.range 3), a.Numeric := by
  unfold Aabb.Numeric Vec3.Numeric Num; decide +kernel

/-- The hypotheses of C63 (both builders) hold in binary32 for the three cubes; the ray hits the boxes of two of them. -/
example : (threeScene F32).Legal (List.range 3) ∧
    (∃ bvh T, (threeScene F32).constructLocb (List.range 3) 2 5 = .ok (some (some bvh)) ∧ Unfolds bvh.nodes 0 T ∧
      T.depth = 2) ∧
    (∃ bvh T, (threeScene F32).constructBinnedSah (List.range 3) (List.replicate 10 0) = .ok (some (some bvh)) ∧
      Unfolds bvh.nodes 0 T ∧ T.depth = 2) ∧
    (threeScene F32).primitives.length ≤ (threeScene F32).primitivesPerLeaf.getD 1 ∧
    (threeOrigin F32).Finite ∧ (threeDir F32).NonZero ∧ (Ray.new (threeOrigin F32) (threeDir F32)).invDirection.Finite ∧
    (Ray.new (threeOrigin F32) (threeDir F32)).invDirection.NonZero ∧
    (List.range 3).map (fun p => ((boxAt ((threeScene F32).boxes (List.range 3)) p).intersect
      (Ray.new (threeOrigin F32) (threeDir F32))).isSome) = [true, true, false] := by
  refine ⟨cubeScene_legal _ _ (by decide) (by decide), ?_, ?_, by decide,
    by unfold Vec3.Finite Fin'; decide +kernel, by unfold Vec3.NonZero NonZero; decide +kernel,
    by unfold Vec3.Finite Fin'; decide +kernel, by unfold Vec3.NonZero NonZero; decide +kernel, by decide +kernel⟩
  · have h : (builtTree ((threeScene F32).constructLocb (List.range 3) 2 5)).map (fun x => x.2.depth) = some 2 := by
      decide +kernel
    obtain ⟨⟨bvh, T⟩, e, h2⟩ := Option.map_eq_some_iff.1 h
    obtain ⟨e1, e2⟩ := builtTree_some e
    exact ⟨bvh, T, e1, e2, h2⟩
  · have h : (builtTree ((threeScene F32).constructBinnedSah (List.range 3) (List.replicate 10 0))).map
        (fun x => x.2.depth) = some 2 := by
      decide +kernel
    obtain ⟨⟨bvh, T⟩, e, h2⟩ := Option.map_eq_some_iff.1 h
    obtain ⟨e1, e2⟩ := builtTree_some e
    exact ⟨bvh, T, e1, e2, h2⟩

/-- Exact arithmetic: entry distances of the three cubes, computed by hand, as the closest-hit test; the loop leaves the
smallest one in `ray.t`. -/
def threeDist : Nat → Option Rat
  | 0 => some 3
  | 1 => some 7
  | _ => none

example : (threeScene Rat).Legal (List.range 3) ∧ (Ray.new (threeOrigin Rat) (threeDir Rat)).WellFormed ∧
    (threeDir Rat).NonZero ∧
    (∀ p s, threeDist p = some s → (boxAt ((threeScene Rat).boxes (List.range 3)) p).Has
      ((Ray.new (threeOrigin Rat) (threeDir Rat)).getPointAt s)) ∧
    (builtTree ((threeScene Rat).constructLocb (List.range 3) 2 5)).map (fun x => (x.2.depth,
      (x.1.forIndices (distCb threeDist) 9 (Ray.new (threeOrigin Rat) (threeDir Rat))).ray.t)) = some (2, 3) ∧
    (builtTree ((threeScene Rat).constructBinnedSah (List.range 3) (List.replicate 10 0))).map (fun x => (x.2.depth,
      (x.1.forIndices (distCb threeDist) 9 (Ray.new (threeOrigin Rat) (threeDir Rat))).ray.t)) = some (2, 3) := by
  refine ⟨cubeScene_legal _ _ (by decide) (by decide), by decide +kernel, by decide +kernel, ?_, by decide +kernel,
    by decide +kernel⟩
  intro p s h
  match p, h with
  | 0, h => have : s = 3 := by simp [threeDist] at h; exact h.symm
            subst this; decide +kernel
  | 1, h => have : s = 7 := by simp [threeDist] at h; exact h.symm
            subst this; decide +kernel

/-- `C62_small_scenes_partial` applies to the three cubes. -/
example : ∃ bvh, (threeScene F32).Returns (List.range 3) bvh := by
  have h : (built ((threeScene F32).constructLocb (List.range 3) 2 5)).isSome = true := by decide +kernel
  cases e : built ((threeScene F32).constructLocb (List.range 3) 2 5) with
  | none => rw [e] at h; cases h
  | some bvh => exact ⟨bvh, .inr ⟨2, 5, by omega, built_some e⟩⟩

end Rtbvh
