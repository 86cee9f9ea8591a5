import Verif.Props.PacketQuery
/- Property C63, continued: building and querying end to end, with rounding, for packets and for the `Mbvh`. -/
namespace Rtbvh
open FloatOps LawfulFloat Aabb
variable {F : Type} [FloatOps F] [LawfulFloat F]

/-- An origin and reciprocal directions from which no slab test of a numeric box makes a NaN. -/
def Usable (o inv : Vec3 F) : Prop := o.Finite ∧ inv.Finite ∧ inv.NonZero

/-- What the queries need to know about a built hierarchy. -/
structure Builder.Serves (b : Builder F) (order : List Nat) (bvh : Bvh F) (T : BTree F) : Prop where
  legal : b.Legal order
  numeric : ∀ a ∈ b.boxes order, a.Numeric
  compact : bvh.Compact T
  ids : (T.ids bvh.indices).Perm (List.range b.primitives.length)
  rounds : T.rounds < 3 * b.primitives.length
  nonempty : ∀ f c, (f, c) ∈ T.ranges → 0 < c ∧ f + c ≤ bvh.indices.length
  bounds : T.Bounds bvh.indices (boxAt (b.boxes order))

theorem locb_serves (b : Builder F) (order : List Nat) (h : b.Legal order) (t rounds : Nat) (ht : 0 < t)
    (hs : b.primitives.length ≤ 2 ^ 29) (hn : ∀ a ∈ b.boxes order, a.Numeric) (bvh : Bvh F)
    (e : b.constructLocb order t rounds = .ok (some (some bvh))) (T : BTree F) (hU : Unfolds bvh.nodes 0 T) :
    b.Serves order bvh T := by
  obtain ⟨T', hc, hp, _, hr, _⟩ := returns_tree h hs (.inr ⟨t, rounds, ht, e⟩)
  have := hU.det hc.unfolds; subst this
  exact ⟨h, hn, hc, hp, hr, locb_ranges h ht hs e hU, (C12_locb_bounds b order h t rounds ht hs bvh T e hU hn).1⟩

/-- The same for the primitives in `K` only. -/
structure Builder.ServesFor (b : Builder F) (order : List Nat) (bvh : Bvh F) (T : BTree F) (K : Nat → Prop) : Prop where
  legal : b.Legal order
  numeric : ∀ a ∈ b.boxes order, a.Numeric
  compact : bvh.Compact T
  ids : (T.ids bvh.indices).Perm (List.range b.primitives.length)
  rounds : T.rounds < 3 * b.primitives.length
  bounds : ∀ p < b.primitives.length, K p →
    T.Forall bvh.indices fun a ids => p ∈ ids → (boxAt (b.boxes order) p).Within a

omit [LawfulFloat F] in
theorem Builder.Serves.all {b : Builder F} {order : List Nat} {bvh : Bvh F} {T : BTree F} (S : b.Serves order bvh T) :
    b.ServesFor order bvh T fun _ => True :=
  ⟨S.legal, S.numeric, S.compact, S.ids, S.rounds, fun p _ _ => S.bounds.mono fun _ _ h hq => h p hq⟩

theorem binned_serves_for (b : Builder F) (order ks : List Nat) (h : b.Legal order)
    (hs : b.primitives.length ≤ 2 ^ 29) (hn : ∀ a ∈ b.boxes order, a.Numeric) (bvh : Bvh F)
    (e : b.constructBinnedSah order ks = .ok (some (some bvh))) (T : BTree F) (hU : Unfolds bvh.nodes 0 T) :
    b.ServesFor order bvh T fun p => ¬ T.Misplaces (b.ctx order) bvh.indices p := by
  obtain ⟨T', hc, hp, _, hr, _⟩ := returns_tree h hs (.inl ⟨ks, e⟩)
  have := hU.det hc.unfolds; subst this
  exact ⟨h, hn, hc, hp, hr, fun p hpn hm => (C07_miss_cause_partial b order ks h bvh T e hU hn p hpn hm).mono
    fun a ids h' hq => (within_box h hn hpn).trans (h' hq)⟩

theorem binned_serves (b : Builder F) (order ks : List Nat) (h : b.Legal order)
    (hs : b.primitives.length ≤ 2 ^ 29) (hn : ∀ a ∈ b.boxes order, a.Numeric) (bvh : Bvh F)
    (e : b.constructBinnedSah order ks = .ok (some (some bvh))) (T : BTree F) (hU : Unfolds bvh.nodes 0 T)
    (hm : ∀ p < b.primitives.length, ¬ T.Misplaces (b.ctx order) bvh.indices p) : b.Serves order bvh T := by
  obtain ⟨T', hc, hp, _, hr, _⟩ := returns_tree h hs (.inl ⟨ks, e⟩)
  have := hU.det hc.unfolds; subst this
  have hlen : bvh.indices.length = b.primitives.length := by
    simpa using (C03_binned_partition b order ks h bvh e).1.length_eq
  refine ⟨h, hn, hc, hp, hr, ?_, (C07_no_misplaced_partial b order ks h bvh T e hU hn hm).2⟩
  rw [hlen]; exact (C03_no_empty_leaf b order ks h bvh e T hU).1

namespace Builder.Serves
variable {b : Builder F} {order : List Nat} {bvh : Bvh F} {T : BTree F}

theorem box (S : b.Serves order bvh T) {o inv : Vec3 F} (hu : Usable o inv) {p : Nat} (hp : p < b.primitives.length) :
    (boxAt (b.boxes order) p).NoNaN o inv :=
  noNaN_of_finite (S.numeric _ (boxAt_mem (by have := Builder.boxes_length S.legal; omega))) hu.1 hu.2.1 hu.2.2

theorem noNaN (S : b.Serves order bvh T) {o inv : Vec3 F} (hu : Usable o inv) : T.NoNaN bvh.indices o inv := by
  refine forall_of_ids T S.bounds S.nonempty fun a ids hne hP => ?_
  obtain ⟨p, hpm⟩ := List.exists_mem_of_ne_nil _ hne
  exact noNaN_of_finite (hP p hpm).num_right hu.1 hu.2.1 hu.2.2

theorem quadNoNaN (S : b.Serves order bvh T) {o inv : Vec3 F} (hu : Usable o inv) : T.toQuad.NoNaN bvh.indices o inv := by
  have := toQuad_forall (C := fun a p => (boxAt (b.boxes order) p).Within a) S.bounds
  refine this.mono fun a ids hP hne => ?_
  obtain ⟨p, hpm⟩ := List.exists_mem_of_ne_nil _ hne
  exact noNaN_of_finite (hP p hpm).num_right hu.1 hu.2.1 hu.2.2

theorem nodup (S : b.Serves order bvh T) {l : List Nat} (h : ∀ p, l.count p ≤ (T.ids bvh.indices).count p) : l.Nodup := by
  rw [List.nodup_iff_count_le_one]
  intro p
  refine Nat.le_trans (h p) ?_
  rw [S.ids.count_eq]
  exact List.nodup_iff_count_le_one.1 List.nodup_range p

end Builder.Serves

namespace Builder.ServesFor
variable {b : Builder F} {order : List Nat} {bvh : Bvh F} {T : BTree F} {K : Nat → Prop}

theorem box (S : b.ServesFor order bvh T K) {o inv : Vec3 F} (hu : Usable o inv) {p : Nat} (hp : p < b.primitives.length) :
    (boxAt (b.boxes order) p).NoNaN o inv :=
  noNaN_of_finite (S.numeric _ (boxAt_mem (by have := Builder.boxes_length S.legal; omega))) hu.1 hu.2.1 hu.2.2

theorem above (S : b.ServesFor order bvh T K) {o inv : Vec3 F} (hu : Usable o inv) {p : Nat} (hp : p < b.primitives.length)
    (hK : K p) : T.Forall bvh.indices fun a ids => p ∈ ids → (boxAt (b.boxes order) p).Within a ∧ a.NoNaN o inv :=
  (S.bounds p hp hK).mono fun a ids h hq => ⟨h hq, noNaN_of_finite (h hq).num_right hu.1 hu.2.1 hu.2.2⟩

theorem aboveQuad (S : b.ServesFor order bvh T K) {o inv : Vec3 F} (hu : Usable o inv) {p : Nat}
    (hp : p < b.primitives.length) (hK : K p) :
    T.toQuad.Forall bvh.indices fun a ids => p ∈ ids → (boxAt (b.boxes order) p).Within a ∧ a.NoNaN o inv := by
  have h : T.Forall bvh.indices fun a ids => ∀ q ∈ ids, q = p → (boxAt (b.boxes order) p).Within a ∧ a.NoNaN o inv :=
    (S.above hu hp hK).mono fun a ids h q hq e => h (e ▸ hq)
  exact (toQuad_forall (C := fun a q => q = p → (boxAt (b.boxes order) p).Within a ∧ a.NoNaN o inv) h).mono
    fun a ids h hq => h p hq rfl

omit [LawfulFloat F] in
theorem nodup (S : b.ServesFor order bvh T K) {l : List Nat} (h : ∀ p, l.count p ≤ (T.ids bvh.indices).count p) :
    l.Nodup := by
  rw [List.nodup_iff_count_le_one]
  intro p
  refine Nat.le_trans (h p) ?_
  rw [S.ids.count_eq]
  exact List.nodup_iff_count_le_one.1 List.nodup_range p

/-- Packet query of the binary hierarchy. -/
theorem packets (S : b.ServesFor order bvh T K) (hdep : T.depth ≤ 31) (pk : RayPacket4 F) (hnan : pk.hasNaN = false)
    (cb : RayPacket4 F → Nat → RayPacket4 F × Bool) (hcb : ∀ q id, q.Lowered (cb q id).1 ∧ (cb q id).2 = false)
    (fuel : Nat) (hf : 3 * b.primitives.length ≤ fuel) :
    let run := bvh.forIndicesPacket cb fuel pk
    run.ending = .finished ∧ run.items.Nodup ∧
    ∀ i, Usable (pk.originOf i) (pk.invOf i) → ∀ p < b.primitives.length, K p → (boxAt (b.boxes order) p).Valid →
      (boxAt (b.boxes order) p).mask4 run.ray i = true → p ∈ run.items := by
  intro run
  have hr := S.rounds
  obtain ⟨h1, _, h3, h4⟩ := C23_packet_offered bvh T S.compact.toDenotes hdep pk hnan cb hcb fuel (by omega)
  exact ⟨h1, S.nodup h3, fun i hu p hp hK hv hhit =>
    h4 p (S.ids.mem_iff.2 (List.mem_range.2 hp)) _ hv i (S.box hu hp) (S.above hu hp hK) hhit⟩

/-- Queries of the four-wide hierarchy made from it. -/
theorem quads (S : b.ServesFor order bvh T K) (hdep : T.depth ≤ 22 ∨ T.leaves ≤ 65) (k : Nat) (hk : T.depth < k) :
    ∃ q : Mbvh F, Mbvh.construct k bvh = some q ∧ ∃ N, ∀ fuel ≥ N,
      (∀ (ray : Ray F) (cb : Ray F → Nat → Ray F × Bool), (∀ r id, r.Lowered (cb r id).1 ∧ (cb r id).2 = false) →
        let run := q.forIndices cb fuel ray
        run.ending = .finished ∧ run.items.Nodup ∧
        (Usable ray.origin ray.invDirection → ∀ p < b.primitives.length, K p → (boxAt (b.boxes order) p).Valid →
          quadTest (boxAt (b.boxes order) p) run.ray = true → p ∈ run.items)) ∧
      (∀ (pk : RayPacket4 F) (cb : RayPacket4 F → Nat → RayPacket4 F × Bool),
        (∀ r id, r.Lowered (cb r id).1 ∧ (cb r id).2 = false) →
        let run := q.forIndicesPacket cb fuel pk
        run.ending = .finished ∧ run.items.Nodup ∧
        ∀ i, Usable (pk.originOf i) (pk.invOf i) → ∀ p < b.primitives.length, K p → (boxAt (b.boxes order) p).Valid →
          quadTest4 (boxAt (b.boxes order) p) run.ray i = true → p ∈ run.items) := by
  obtain ⟨q, e1, e2, _, h2, _⟩ := construct_main bvh T S.compact k hk
  have need : T.toQuad.stackNeed ≤ 32 := by
    rcases hdep with hdep | hdep
    · refine C29_quad_depth _ ?_
      by_cases h1 : 1 ≤ T.depth
      · have := toQuad_depth' T h1; omega
      · have := toQuad_depth T; omega
    · have := toQuad_need T; omega
  have hids : T.toQuad.ids q.primIndices = T.ids bvh.indices := by rw [toQuad_ids, h2]
  refine ⟨q, e1, T.toQuad.rounds, fun fuel hf => ⟨fun ray cb hcb => ?_, fun pk cb hcb => ?_⟩⟩
  · obtain ⟨h1, _, h3, h4⟩ := C28_ray_offered q T.toQuad e2 need ray cb hcb fuel hf
    rw [hids] at h3 h4
    exact ⟨h1, S.nodup h3, fun hu p hp hK hv hhit => h4 p (S.ids.mem_iff.2 (List.mem_range.2 hp)) _ hv (S.box hu hp)
      (by rw [h2]; exact S.aboveQuad hu hp hK) hhit⟩
  · obtain ⟨h1, _, h3, h4⟩ := C28_packet_offered q T.toQuad e2 need pk cb hcb fuel hf
    rw [hids] at h3 h4
    exact ⟨h1, S.nodup h3, fun i hu p hp hK hv hhit => h4 i p (S.ids.mem_iff.2 (List.mem_range.2 hp)) _ hv (S.box hu hp)
      (by rw [h2]; exact S.aboveQuad hu hp hK) hhit⟩

end Builder.ServesFor

/-- C63, clustering builder, packets, with rounding: a caller that only lowers the lanes of `packet.t` and never breaks is
handed, without repetition, every primitive whose (valid) box some usable lane of the final packet hits. -/
theorem C63_locb_packets (b : Builder F) (order : List Nat) (h : b.Legal order) (t rounds : Nat) (ht : 0 < t)
    (hs : b.primitives.length ≤ 2 ^ 29) (hn : ∀ a ∈ b.boxes order, a.Numeric) (bvh : Bvh F)
    (e : b.constructLocb order t rounds = .ok (some (some bvh))) (T : BTree F) (hU : Unfolds bvh.nodes 0 T)
    (hdep : T.depth ≤ 31) (pk : RayPacket4 F) (hnan : pk.hasNaN = false)
    (cb : RayPacket4 F → Nat → RayPacket4 F × Bool) (hcb : ∀ q id, q.Lowered (cb q id).1 ∧ (cb q id).2 = false)
    (fuel : Nat) (hf : 3 * b.primitives.length ≤ fuel) :
    let run := bvh.forIndicesPacket cb fuel pk
    run.ending = .finished ∧ run.items.Nodup ∧
    ∀ i, Usable (pk.originOf i) (pk.invOf i) → ∀ p < b.primitives.length, (boxAt (b.boxes order) p).Valid →
      (boxAt (b.boxes order) p).mask4 run.ray i = true → p ∈ run.items :=
  by simpa using (locb_serves b order h t rounds ht hs hn bvh e T hU).all.packets hdep pk hnan cb hcb fuel hf

/-- C63, clustering builder, through the `Mbvh`, with rounding, rays and packets: if the tree is at most 22 deep or has at
most 65 leaves, `Mbvh::from` succeeds and every traversal by a caller that only lowers `t` and never breaks hands out,
without repetition, every primitive whose (valid) box the final ray, or some usable lane of the final packet, hits. -/
theorem C63_locb_mbvh (b : Builder F) (order : List Nat) (h : b.Legal order) (t rounds : Nat) (ht : 0 < t)
    (hs : b.primitives.length ≤ 2 ^ 29) (hn : ∀ a ∈ b.boxes order, a.Numeric) (bvh : Bvh F)
    (e : b.constructLocb order t rounds = .ok (some (some bvh))) (T : BTree F) (hU : Unfolds bvh.nodes 0 T)
    (hdep : T.depth ≤ 22 ∨ T.leaves ≤ 65) (k : Nat) (hk : T.depth < k) :
    ∃ q : Mbvh F, Mbvh.construct k bvh = some q ∧ ∃ N, ∀ fuel ≥ N,
      (∀ (ray : Ray F) (cb : Ray F → Nat → Ray F × Bool), (∀ r id, r.Lowered (cb r id).1 ∧ (cb r id).2 = false) →
        let run := q.forIndices cb fuel ray
        run.ending = .finished ∧ run.items.Nodup ∧
        (Usable ray.origin ray.invDirection → ∀ p < b.primitives.length, (boxAt (b.boxes order) p).Valid →
          quadTest (boxAt (b.boxes order) p) run.ray = true → p ∈ run.items)) ∧
      (∀ (pk : RayPacket4 F) (cb : RayPacket4 F → Nat → RayPacket4 F × Bool),
        (∀ r id, r.Lowered (cb r id).1 ∧ (cb r id).2 = false) →
        let run := q.forIndicesPacket cb fuel pk
        run.ending = .finished ∧ run.items.Nodup ∧
        ∀ i, Usable (pk.originOf i) (pk.invOf i) → ∀ p < b.primitives.length, (boxAt (b.boxes order) p).Valid →
          quadTest4 (boxAt (b.boxes order) p) run.ray i = true → p ∈ run.items) :=
  by simpa using (locb_serves b order h t rounds ht hs hn bvh e T hU).all.quads hdep k hk

/-- C63, binned builder, packets: the same for every primitive that no node misplaces (`Spec/Sah.lean`).  Missing:
misplaced primitives (`C07_left_child_misses`, `C07_misplaced_there`). -/
theorem C63_binned_packets_partial (b : Builder F) (order ks : List Nat) (h : b.Legal order)
    (hs : b.primitives.length ≤ 2 ^ 29) (hn : ∀ a ∈ b.boxes order, a.Numeric)
    (bvh : Bvh F)
    (e : b.constructBinnedSah order ks = .ok (some (some bvh))) (T : BTree F) (hU : Unfolds bvh.nodes 0 T)
    (hdep : T.depth ≤ 31) (pk : RayPacket4 F) (hnan : pk.hasNaN = false)
    (cb : RayPacket4 F → Nat → RayPacket4 F × Bool) (hcb : ∀ q id, q.Lowered (cb q id).1 ∧ (cb q id).2 = false)
    (fuel : Nat) (hf : 3 * b.primitives.length ≤ fuel) :
    let run := bvh.forIndicesPacket cb fuel pk
    run.ending = .finished ∧ run.items.Nodup ∧
    ∀ i, Usable (pk.originOf i) (pk.invOf i) → ∀ p < b.primitives.length,
      ¬ T.Misplaces (b.ctx order) bvh.indices p → (boxAt (b.boxes order) p).Valid →
      (boxAt (b.boxes order) p).mask4 run.ray i = true → p ∈ run.items :=
  (binned_serves_for b order ks h hs hn bvh e T hU).packets hdep pk hnan cb hcb fuel hf

/-- C63, binned builder, through the `Mbvh`: the same for every primitive that no node misplaces.  Missing: misplaced
primitives (`C07_left_child_misses`, `C07_misplaced_there`). -/
theorem C63_binned_mbvh_partial (b : Builder F) (order ks : List Nat) (h : b.Legal order)
    (hs : b.primitives.length ≤ 2 ^ 29) (hn : ∀ a ∈ b.boxes order, a.Numeric)
    (bvh : Bvh F)
    (e : b.constructBinnedSah order ks = .ok (some (some bvh))) (T : BTree F) (hU : Unfolds bvh.nodes 0 T)
    (hdep : T.depth ≤ 22 ∨ T.leaves ≤ 65) (k : Nat) (hk : T.depth < k) :
    ∃ q : Mbvh F, Mbvh.construct k bvh = some q ∧ ∃ N, ∀ fuel ≥ N,
      (∀ (ray : Ray F) (cb : Ray F → Nat → Ray F × Bool), (∀ r id, r.Lowered (cb r id).1 ∧ (cb r id).2 = false) →
        let run := q.forIndices cb fuel ray
        run.ending = .finished ∧ run.items.Nodup ∧
        (Usable ray.origin ray.invDirection → ∀ p < b.primitives.length,
      ¬ T.Misplaces (b.ctx order) bvh.indices p → (boxAt (b.boxes order) p).Valid →
          quadTest (boxAt (b.boxes order) p) run.ray = true → p ∈ run.items)) ∧
      (∀ (pk : RayPacket4 F) (cb : RayPacket4 F → Nat → RayPacket4 F × Bool),
        (∀ r id, r.Lowered (cb r id).1 ∧ (cb r id).2 = false) →
        let run := q.forIndicesPacket cb fuel pk
        run.ending = .finished ∧ run.items.Nodup ∧
        ∀ i, Usable (pk.originOf i) (pk.invOf i) → ∀ p < b.primitives.length,
      ¬ T.Misplaces (b.ctx order) bvh.indices p → (boxAt (b.boxes order) p).Valid →
          quadTest4 (boxAt (b.boxes order) p) run.ray i = true → p ∈ run.items) :=
  (binned_serves_for b order ks h hs hn bvh e T hU).quads hdep k hk

/-- A packet whose lane 0 is the ray of the C63 example; lane 3 looks the other way. -/
def threePacket : RayPacket4 F32 :=
  RayPacket4.new (fun _ => ⟨lit (-4) 0, lit 2 (-1), lit 3 (-1), one⟩)
    (fun i => if i = 3 then ⟨lit (-1) 0, lit 1 (-1), lit 1 (-2), zero⟩ else ⟨lit 1 0, lit 1 (-1), lit 1 (-2), zero⟩)

/-- The hypotheses of the four theorems hold in binary32 for the three cubes of the C63 example (their builds and trees of
depth 2 are shown there); the boxes are valid, every lane is usable, lanes 0 to 2 hit two boxes and lane 3 none. -/
example : threePacket.hasNaN = false ∧ (∀ i, Usable (threePacket.originOf i) (threePacket.invOf i)) ∧
    Usable (Ray.new (threeOrigin F32) (threeDir F32)).origin (Ray.new (threeOrigin F32) (threeDir F32)).invDirection ∧
    (∀ a ∈ (threeScene F32).boxes (List.range 3), a.Valid) ∧
    (List.range 3).map (fun p => (boxAt ((threeScene F32).boxes (List.range 3)) p).mask4 threePacket 1) =
      [true, true, false] ∧
    (List.range 3).map (fun p => quadTest4 (boxAt ((threeScene F32).boxes (List.range 3)) p) threePacket 1) =
      [true, true, false] ∧
    (List.range 3).map (fun p => (boxAt ((threeScene F32).boxes (List.range 3)) p).mask4 threePacket 3) =
      [false, false, false] ∧
    (List.range 3).map (fun p => quadTest (boxAt ((threeScene F32).boxes (List.range 3)) p)
      (Ray.new (threeOrigin F32) (threeDir F32))) = [true, true, false] := by
  unfold Usable Vec3.Finite Vec3.NonZero NonZero Fin'
  decide +kernel

/-- The hypotheses of the binned theorems hold with default settings (one primitive per leaf) for the four cubes of
`apartCubes`: the tree has seven nodes, no primitive is misplaced, the boxes are valid, and the ray hits one of them. -/
example : apartCubes.Legal (List.range 4) ∧ (∀ a ∈ apartCubes.boxes (List.range 4), a.Numeric ∧ a.Valid) ∧
    (∃ bvh T, apartCubes.constructBinnedSah (List.range 4) (List.replicate 10 0) = .ok (some (some bvh)) ∧
      Unfolds bvh.nodes 0 T ∧ bvh.nodes.length = 7 ∧ ∀ p, ¬ T.Misplaces (apartCubes.ctx (List.range 4)) bvh.indices p) ∧
    (List.range 4).map (fun p => ((boxAt (apartCubes.boxes (List.range 4)) p).intersect
      (Ray.new (threeOrigin F32) (threeDir F32))).isSome) = [false, true, false, false] := by
  refine ⟨cubeScene_legal _ _ (by decide) (by decide), ?_, apartCubes_built, by decide +kernel⟩
  unfold Aabb.Numeric Vec3.Numeric Num
  decide +kernel

end Rtbvh
