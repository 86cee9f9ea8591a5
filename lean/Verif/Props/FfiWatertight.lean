import Verif.Props.FfiQuery
import Verif.Props.Watertight
/- Property C99: the C interface in single precision never culls a primitive whose box the ray meets in exact arithmetic. -/
namespace Rtbvh
open FloatOps LawfulFloat Aabb

/-- What a successful `create_bvh` call leaves: the call as an event of the history, and a hierarchy around the caller's
boxes with their padding. -/
theorem created_padded {m m₁ : Manager F32} {boxes : Nat → RTAabb F32} {n : Nat} {c : Nat → F32} {stride ppl : Nat}
    {ty : FfiBvhType} {env : BuildEnv} {a : Nat} {code : ResultCode} {h : Handle} (ha : m.Free a)
    (hcall : m.createBvh (some boxes) n (some c) stride ppl ty false env a = .returned m₁ code (some h))
    (hn : n ≤ 2 ^ 29) (ho : env.order.Perm (List.range n)) (hcpu : 0 < env.cpus)
    (hnum : ∀ i < n, (boxes i).toAabb.Numeric) :
    ∃ (b : Bvh F32) (T : BTree F32), Calls m ⟨.create false (.ok b), code, some h⟩ m₁ ∧ code = .ok ∧
      (ffiBuilder (some boxes) n c (stride / 4) ppl).Padded env.order b T (fun p => ty.Faithful n ppl ∨
        ¬ T.Misplaces ((ffiBuilder (some boxes) n c (stride / 4) ppl).ctx env.order) b.primIndices p) ∧ T.depth < n ∧
      b.nodes.length < 2 ^ 32 ∧ b.primIndices.length < 2 ^ 32 := by
  have hs : stride = 12 ∨ stride = 16 := by
    by_cases h1 : stride = 12
    · exact .inl h1
    · by_cases h2 : stride = 16
      · exact .inr h2
      · rw [(C80_refusals m (some boxes) n c stride ppl ty env a).2.2.1 h1 h2] at hcall; cases hcall
  have h1 : 1 ≤ n := by
    cases n with
    | zero => rw [(C80_refusals m (some boxes) 0 c stride ppl ty env a).2.2.2.1 hs] at hcall; cases hcall
    | succ => omega
  obtain ⟨hl, hleg, hbx⟩ := ffiBuilder_facts (some boxes) n c (stride / 4) ppl
  have hleg := hleg env.order h1 (by omega) ho
  rw [createBvh_eq m (some boxes) n c ppl _ env a hs] at hcall
  have hnum' : ∀ x ∈ (ffiBuilder (some boxes) n c (stride / 4) ppl).boxes env.order, x.Numeric := by
    rw [(hbx boxes env.order rfl).1]
    intro x hx
    obtain ⟨i, hi, rfl⟩ := List.mem_map.1 hx
    exact hnum i (List.mem_range.1 hi)
  cases hbuild : ffiBuild (ffiBuilder (some boxes) n c (stride / 4) ppl) ty env with
  | error e =>
    rw [hbuild] at hcall
    simp [Manager.finish, Manager.create] at hcall
  | ok r =>
    rw [hbuild] at hcall
    match r with
    | none => cases hcall
    | some none => cases hcall
    | some (some b) =>
      have hev : Calls m ⟨.create false (.ok b), (m.create false (.ok b) a).2.1, (m.create false (.ok b) a).2.2⟩
        (m.create false (.ok b) a).1 := Calls.create false (.ok b) a ha
      simp only [Manager.finish, CallResult.returned.injEq] at hcall
      obtain ⟨rfl, rfl, hh⟩ := hcall
      rw [hh] at hev
      have hret : (ffiBuilder (some boxes) n c (stride / 4) ppl).Returns env.order b := by
        cases ty with
        | locallyOrderedClustered => exact .inr ⟨env.cpus, env.rounds, hcpu, hbuild⟩
        | binnedSah => exact .inl ⟨env.schedule, hbuild⟩
      obtain ⟨T, hc, _, hdep, _, _⟩ := returns_tree hleg (by omega) hret
      rw [hl] at hdep
      refine ⟨b, T, hev, rfl, ?_, hdep, ?_, ?_⟩
      · cases ty with
        | locallyOrderedClustered =>
          have S := locb_padded _ _ hleg env.cpus env.rounds hcpu (by omega) hnum' b hbuild T hc.unfolds
          exact ⟨S.compact, S.ids, S.rounds, fun p hp _ => S.bounds p hp trivial⟩
        | binnedSah =>
          have S := binned_padded _ _ env.schedule hleg (by omega) hnum' b hbuild T hc.unfolds
          refine ⟨S.compact, S.ids, S.rounds, fun p hp hK => S.bounds p hp ?_⟩
          rcases hK with (h | h) | h
          · cases h
          · refine not_misplaced_small _ _ env.schedule hleg b T hbuild hc.unfolds ?_ p
            rw [hl]
            simp only [ffiBuilder, nonZero]
            rw [if_neg (by omega)]
            exact h
          · exact h
      · have := hc.smallNodes; omega
      · have : b.primIndices.length < 2 ^ 31 := hc.smallIndices
        omega

/-- C99, rays through the BVH.  A client calls `create_bvh` on its boxes and centers, gets `Ok` and a handle, and goes on with
any calls that neither refit nor free that handle.  If the tree is at most 31 deep, `intersect` with an origin of at most 200
in size, direction components that are zero (not `-0.0`) or between `2^-100` and `2^100` in size, and a callback that never
stops the search, calls back for every primitive whose box (coordinates at most 200 in size) the ray meets in exact arithmetic
at a parameter not below `t_min` (the float nearest to 1e-4), whatever the callbacks do to `*t`; except, for a binned build with
fewer than `n` primitives per leaf, those that a node misplaces (C07). -/
theorem C99_ray {D : Type} {es₁ es₂ : List (Event F32)} {m m₁ m₂ : Manager F32} {boxes : Nat → RTAabb F32} {n : Nat}
    {c : Nat → F32} {stride ppl : Nat} {ty : FfiBvhType} {env : BuildEnv} {a : Nat} {code : ResultCode} {h : Handle}
    (h₁ : History .empty es₁ m) (ha : m.Free a)
    (hcall : m.createBvh (some boxes) n (some c) stride ppl ty false env a = .returned m₁ code (some h))
    (h₂ : History m₁ es₂ m₂) (hcount : (bvhHandles es₁).length < 2 ^ 32) (hkeep : ∀ e ∈ es₂, touches h.id e = false)
    (hn : n ≤ 2 ^ 29) (ho : env.order.Perm (List.range n)) (hcpu : 0 < env.cpus)
    (hnum : ∀ i < n, (boxes i).toAabb.Numeric) :
    ∃ nodes indices T, m₂.slices h = some (nodes, indices) ∧ Unfolds nodes 0 T ∧ T.depth < n ∧
      (T.depth ≤ 31 → ∀ (o d : Vec3 F32), o.Moderate → d.Ordinary → d.NoNegZero →
        ∀ (t : F32) (x : D) (cb : Nat → F32 → D → F32 × D × Bool), (∀ id t x, (cb id t x).2.2 = false) →
        ∀ fuel, 3 * n ≤ fuel →
        let out := ffiIntersect nodes indices o d t x cb fuel
        out.code = .ok ∧ out.ending = .finished ∧
        ∀ p < n, (ty.Faithful n ppl ∨
            ¬ T.Misplaces ((ffiBuilder (some boxes) n c (stride / 4) ppl).ctx env.order) indices p) →
          (boxes p).toAabb.Moderate → ∀ s : ℚ, (lit 1 (-4) : F32).val ≤ s →
          (boxes p).toAabb.exact.Has (pointOn o d s) → p ∈ out.calls) := by
  obtain ⟨b, T, hev, rfl, S, hdep, hn1, hn2⟩ := created_padded ha hcall hn ho hcpu hnum
  obtain ⟨hl, _, hbx⟩ := ffiBuilder_facts (some boxes) n c (stride / 4) ppl
  obtain ⟨_, _, hsl⟩ := C46_handle_stable h₁ hev h₂ hcount
  obtain ⟨k1, k2⟩ := keep_foldl hkeep b
  have hsl := hsl k2 hn1 hn2
  rw [k1] at hsl
  refine ⟨b.nodes, b.primIndices, T, hsl, S.compact.unfolds, hdep, ?_⟩
  intro hd31 o d hof hdo hdz t x cb hcb fuel hf out
  have hr := S.rounds
  rw [hl] at hr
  have hnan : (o.isNaN || d.isNaN) = false := by
    simp [Vec3.isNaN, hof.1.num, hof.2.1.num, hof.2.2.num, hdo.1.num, hdo.2.1.num, hdo.2.2.num]
  have hfin : out.ending = .finished ∧ out.code = .ok := by
    show (ffiIntersect b.nodes b.primIndices o d t x cb fuel).ending = _ ∧
      (ffiIntersect b.nodes b.primIndices o d t x cb fuel).code = _
    rw [C47_refines b T S.compact.toDenotes hd31 fuel (by omega) o d hnan t x cb]
    have hstop : ∀ (s : Ray F32 × D) (x : Nat), (rayBody cb s x).2 = false := fun s x => hcb x s.1.t s.2
    exact ⟨visit_finished hstop T _, rfl⟩
  refine ⟨hfin.2, hfin.1, fun p hp hK hm s hs hhit => ?_⟩
  have hb := (hbx boxes env.order rfl).2 p hp
  rcases C47_ids_prefix b T S.compact.toDenotes hd31 fuel (by omega) o d hnan t x cb with ⟨_, e⟩ | ⟨e, _⟩
  · rw [show out.calls = _ from e]
    exact S.watertight.1 hd31 (Ray.new o d) (fun ray _ => (ray, false)) ⟨rfl, rfl, rfl, rfl⟩ (fun r _ => ⟨r.t, rfl⟩) fuel
      (by rw [hl]; exact hf) hof hdo hdz (show (lit 1 (-4) : F32).IsFin by decide +kernel) p
      (by rw [hl]; exact hp) hK (by rw [hb]; exact hm) s hs
      (by rw [hb]; exact hhit)
  · exact absurd ((show out.ending = .stopped from e).symm.trans hfin.1) (by decide)

/-- The padding reaches every node above a primitive, and no product of the box tests is NaN there. -/
theorem Builder.Padded.above {b : Builder F32} {order : List Nat} {bvh : Bvh F32} {T : BTree F32} {K : Nat → Prop}
    (S : b.Padded order bvh T K) {p : Nat} {o d : Vec3 F32} {s : ℚ} (hp : p < b.primitives.length) (hK : K p)
    (hseen : Seen (boxAt (b.boxes order) p) o d s) :
    (T.Forall bvh.indices fun a ids => p ∈ ids → (padAt (b.boxes order) p).Within a ∧ a.NoNaN o (recip3 d)) ∧
    T.toQuad.Forall bvh.indices fun a ids => p ∈ ids → (padAt (b.boxes order) p).Within a ∧ a.NoNaN o (recip3 d) := by
  have h1 : T.Forall bvh.indices fun a ids => p ∈ ids → (padAt (b.boxes order) p).Within a ∧ a.NoNaN o (recip3 d) :=
    (S.bounds _ hp hK).mono fun a ids h hq => ⟨h hq, hseen.wider a (h hq)⟩
  refine ⟨h1, ?_⟩
  have h : T.Forall bvh.indices fun a ids => ∀ x ∈ ids, x = p →
      (padAt (b.boxes order) p).Within a ∧ a.NoNaN o (recip3 d) :=
    h1.mono fun a ids h x hx e => h (e ▸ hx)
  exact (toQuad_forall (C := fun a x => x = p → (padAt (b.boxes order) p).Within a ∧ a.NoNaN o (recip3 d)) h).mono
    fun a ids h hq => h p hq rfl

/-- C99, packets through the BVH: the same for `intersect_packet` and callbacks that only lower the lanes of `*t`, lane by
lane (`-0.0` allowed), for parameters that are not negative and below the `t` left behind in the lane. -/
theorem C99_packet {D : Type} {es₁ es₂ : List (Event F32)} {m m₁ m₂ : Manager F32} {boxes : Nat → RTAabb F32} {n : Nat}
    {c : Nat → F32} {stride ppl : Nat} {ty : FfiBvhType} {env : BuildEnv} {a : Nat} {code : ResultCode} {h : Handle}
    (h₁ : History .empty es₁ m) (ha : m.Free a)
    (hcall : m.createBvh (some boxes) n (some c) stride ppl ty false env a = .returned m₁ code (some h))
    (h₂ : History m₁ es₂ m₂) (hcount : (bvhHandles es₁).length < 2 ^ 32) (hkeep : ∀ e ∈ es₂, touches h.id e = false)
    (hn : n ≤ 2 ^ 29) (ho : env.order.Perm (List.range n)) (hcpu : 0 < env.cpus)
    (hnum : ∀ i < n, (boxes i).toAabb.Numeric) :
    ∃ nodes indices T, m₂.slices h = some (nodes, indices) ∧ Unfolds nodes 0 T ∧ T.depth < n ∧
      (T.depth ≤ 31 → ∀ (ox oy oz dx dy dz t : Vec4 F32),
        (ox.isNaN || oy.isNaN || oz.isNaN || dx.isNaN || dy.isNaN || dz.isNaN) = false →
        ∀ (x : D) (cb : Nat → Vec4 F32 → D → Vec4 F32 × D × Bool), LowersT4 cb → ∀ fuel, 3 * n ≤ fuel →
        let out := ffiIntersectPacket nodes indices ox oy oz dx dy dz t x cb fuel
        out.code = .ok ∧ out.ending = .finished ∧
        ∀ (i : Fin 4) (o d : Vec3 F32), o = ⟨ox.get i, oy.get i, oz.get i⟩ → d = ⟨dx.get i, dy.get i, dz.get i⟩ →
          o.Moderate → d.Ordinary → ∀ p < n, (ty.Faithful n ppl ∨
            ¬ T.Misplaces ((ffiBuilder (some boxes) n c (stride / 4) ppl).ctx env.order) indices p) →
          (boxes p).toAabb.Moderate → ∀ s : ℚ, 0 ≤ s → (out.t.get i).Above s →
          (boxes p).toAabb.exact.Has (pointOn o d s) → p ∈ out.calls) := by
  obtain ⟨b, T, hev, rfl, S, hdep, hn1, hn2⟩ := created_padded ha hcall hn ho hcpu hnum
  obtain ⟨hl, _, hbx⟩ := ffiBuilder_facts (some boxes) n c (stride / 4) ppl
  obtain ⟨_, _, hsl⟩ := C46_handle_stable h₁ hev h₂ hcount
  obtain ⟨k1, k2⟩ := keep_foldl hkeep b
  have hsl := hsl k2 hn1 hn2
  rw [k1] at hsl
  have hids := S.ids
  have hr := S.rounds
  rw [hl] at hids hr
  refine ⟨b.nodes, b.primIndices, T, hsl, S.compact.unfolds, hdep, ?_⟩
  intro hd31 ox oy oz dx dy dz t hnan x cb hcb fuel hf out
  obtain ⟨g1, g2, _, g4⟩ := ffi_packet_complete b T S.compact.toDenotes hd31 ox oy oz dx dy dz t hnan x cb hcb
    fuel (by omega)
  refine ⟨g1, g2, fun i o d ho hd hO hD p hp hK hm s h0 hs hhit => ?_⟩
  have hb := (hbx boxes env.order rfl).2 p hp
  have eo : (packetOf ox oy oz dx dy dz t).originOf i = o := by rw [ho]; fin_cases i <;> rfl
  have ed : (packetOf ox oy oz dx dy dz t).dirOf i = d := by rw [hd]; fin_cases i <;> rfl
  have ei : (packetOf ox oy oz dx dy dz t).invOf i = recip3 d := by rw [hd]; fin_cases i <;> rfl
  have hseen : Seen (boxAt ((ffiBuilder (some boxes) n c (stride / 4) ppl).boxes env.order) p) o d s := by
    rw [hb]; exact seen hm hO hD hhit
  refine g4 p (hids.mem_iff.2 (List.mem_range.2 hp))
    (padAt ((ffiBuilder (some boxes) n c (stride / 4) ppl).boxes env.order) p) hseen.valid i ?_ ?_ ?_
  · rw [eo, ei]; exact hseen.noNaN
  · rw [eo, ei]; exact (S.above (by rw [hl]; exact hp) hK hseen).1
  · refine Seen.mask4 (s := s) ?_ ?_ h0 hs
    · show Seen _ ((packetOf ox oy oz dx dy dz t).originOf i) ((packetOf ox oy oz dx dy dz t).dirOf i) s
      rw [eo, ed]; exact hseen
    · show (packetOf ox oy oz dx dy dz t).invOf i = recip3 ((packetOf ox oy oz dx dy dz t).dirOf i)
      rw [ei, ed]

/-- C99, the four-wide structure: `create_mbvh` on the handle, then any calls that do not free its result; the same for
`intersect_mbvh` and `intersect_mbvh_packet` and callbacks that only lower `*t`, for trees at most 22 deep or at most 65
primitives (`-0.0` allowed; all parameters below the `t` left behind). -/
theorem C99_mbvh {D : Type} {es₁ es₂ es₃ : List (Event F32)} {m m₁ m₂ m₃ m₄ : Manager F32} {boxes : Nat → RTAabb F32}
    {n : Nat} {c : Nat → F32} {stride ppl : Nat} {ty : FfiBvhType} {env : BuildEnv} {a a' k : Nat} {code code' : ResultCode}
    {h h' : Handle} (h₁ : History .empty es₁ m) (ha : m.Free a)
    (hcall : m.createBvh (some boxes) n (some c) stride ppl ty false env a = .returned m₁ code (some h))
    (h₂ : History m₁ es₂ m₂) (hcount : (bvhHandles es₁).length < 2 ^ 32) (hkeep : ∀ e ∈ es₂, touches h.id e = false)
    (ha' : m₂.Free a') (hm : m₂.createMbvh k h false a' = some (m₃, code', some h'))
    (h₃ : History m₃ es₃ m₄) (hcount' : (mbvhHandles (es₁ ++ es₂)).length < 2 ^ 32)
    (hkeep' : ∀ e ∈ es₃, freesM h'.id e = false)
    (hn : n ≤ 2 ^ 29) (ho : env.order.Perm (List.range n)) (hcpu : 0 < env.cpus)
    (hnum : ∀ i < n, (boxes i).toAabb.Numeric) :
    ∃ nodes indices qnodes qindices T, m₂.slices h = some (nodes, indices) ∧ Unfolds nodes 0 T ∧ T.depth < n ∧
      m₄.mslices h' = some (qnodes, qindices) ∧
      (T.depth ≤ 22 ∨ n ≤ 65 → ∃ N, ∀ fuel ≥ N,
        (∀ (o d : Vec3 F32), o.Moderate → d.Ordinary → ∀ (t : F32) (x : D) (cb : Nat → F32 → D → F32 × D × Bool),
          LowersT cb →
          let out := ffiIntersectMbvh qnodes qindices o d t x cb fuel
          out.code = .ok ∧ out.ending = .finished ∧
          ∀ p < n, (ty.Faithful n ppl ∨
              ¬ T.Misplaces ((ffiBuilder (some boxes) n c (stride / 4) ppl).ctx env.order) indices p) →
            (boxes p).toAabb.Moderate → ∀ s : ℚ, out.t.Above s →
            (boxes p).toAabb.exact.Has (pointOn o d s) → p ∈ out.calls) ∧
        (∀ (ox oy oz dx dy dz t : Vec4 F32),
          (ox.isNaN || oy.isNaN || oz.isNaN || dx.isNaN || dy.isNaN || dz.isNaN) = false →
          ∀ (x : D) (cb : Nat → Vec4 F32 → D → Vec4 F32 × D × Bool), LowersT4 cb →
          let out := ffiIntersectMbvhPacket qnodes qindices ox oy oz dx dy dz t x cb fuel
          out.code = .ok ∧ out.ending = .finished ∧
          ∀ (i : Fin 4) (o d : Vec3 F32), o = ⟨ox.get i, oy.get i, oz.get i⟩ → d = ⟨dx.get i, dy.get i, dz.get i⟩ →
            o.Moderate → d.Ordinary → ∀ p < n, (ty.Faithful n ppl ∨
              ¬ T.Misplaces ((ffiBuilder (some boxes) n c (stride / 4) ppl).ctx env.order) indices p) →
            (boxes p).toAabb.Moderate → ∀ s : ℚ, (out.t.get i).Above s →
            (boxes p).toAabb.exact.Has (pointOn o d s) → p ∈ out.calls)) := by
  obtain ⟨b, T, hev, rfl, S, hdep, hn1, hn2⟩ := created_padded ha hcall hn ho hcpu hnum
  obtain ⟨hl, _, hbx⟩ := ffiBuilder_facts (some boxes) n c (stride / 4) ppl
  obtain ⟨_, hslot, hsl⟩ := C46_handle_stable h₁ hev h₂ hcount
  obtain ⟨k1, k2⟩ := keep_foldl hkeep b
  have hsl := hsl k2 hn1 hn2
  rw [k1] at hsl hslot
  have hall : History .empty (es₁ ++ (⟨.create false (.ok b), .ok, some h⟩ :: es₂)) m₂ := h₁.append (.cons hev h₂)
  have hcnt : (mbvhHandles (es₁ ++ (⟨.create false (.ok b), .ok, some h⟩ :: es₂))).length < 2 ^ 32 := by
    rw [mbvhHandles_append, mbvhHandles_cons] at *
    simpa [mbvhHandles] using hcount'
  obtain ⟨_, s, q, fuel₀, hs, hq, _, hms⟩ := C46_mbvh_handle_stable hall (Calls.createMbvh k h false a' ha' hm) h₃ hcnt
  rw [hs] at hslot
  have hval : s.val = b := by simpa using hslot
  rw [hval] at hq
  have hids := S.ids
  rw [hl] at hids
  obtain ⟨q', e1, e2, _, hidx, hqn, hqle⟩ := construct_main b T S.compact (T.depth + 1 + fuel₀) (by omega)
  have : q' = q := by
    have := construct_mono b (show fuel₀ ≤ T.depth + 1 + fuel₀ by omega) hq
    rw [e1] at this; injection this
  subst this
  have hqi : q'.primIndices = b.primIndices := hidx
  have hsmall := S.compact.smallNodes
  refine ⟨b.nodes, b.primIndices, q'.mNodes, q'.primIndices, T, hsl, S.compact.unfolds, hdep,
    hms hkeep' (by omega) (by rw [hqi]; exact hn2), ?_⟩
  intro hlim
  have hleaves : T.leaves ≤ n := by
    have h2 := T.rounds_eq _ S.compact.ranges
    have h3 := T.size_eq_leaves
    have h4 : (T.ids b.indices).length = n := by simpa using hids.length_eq
    have hr := S.rounds
    rw [hl] at hr
    change T.rounds = (T.ids b.indices).length + T.size at h2
    omega
  have need : T.toQuad.stackNeed ≤ 32 := by
    rcases hlim with hdep | hdep
    · refine C29_quad_depth _ ?_
      by_cases h1 : 1 ≤ T.depth
      · have := toQuad_depth' T h1; omega
      · have := toQuad_depth T; omega
    · have := toQuad_need T; omega
  have hqids : T.toQuad.ids q'.primIndices = T.ids b.indices := by rw [toQuad_ids, hidx]
  refine ⟨T.toQuad.rounds, fun fuel hf => ⟨fun o d hO hD t x cb hcb => ?_, fun ox oy oz dx dy dz t hnan x cb hcb => ?_⟩⟩
  · have hnan : (o.isNaN || d.isNaN) = false := by
      simp [Vec3.isNaN, hO.1.num, hO.2.1.num, hO.2.2.num, hD.1.num, hD.2.1.num, hD.2.2.num]
    obtain ⟨g1, g2, _, g4⟩ := ffi_mbvh_complete q' T.toQuad e2 need o d hnan t x cb hcb fuel hf
    rw [hqids] at g4
    refine ⟨g1, g2, fun p hp hK hm s hs hhit => ?_⟩
    have hb := (hbx boxes env.order rfl).2 p hp
    have hseen : Seen (boxAt ((ffiBuilder (some boxes) n c (stride / 4) ppl).boxes env.order) p) o d s := by
      rw [hb]; exact seen hm hO hD hhit
    refine g4 p (hids.mem_iff.2 (List.mem_range.2 hp))
      (padAt ((ffiBuilder (some boxes) n c (stride / 4) ppl).boxes env.order) p) hseen.valid hseen.noNaN ?_ ?_
    · rw [hidx]; exact (S.above (by rw [hl]; exact hp) hK hseen).2
    · exact Seen.quadTest (s := s) hseen rfl hs
  · obtain ⟨g1, g2, _, g4⟩ := ffi_mbvh_packet_complete q' T.toQuad e2 need ox oy oz dx dy dz t hnan x cb hcb fuel hf
    rw [hqids] at g4
    refine ⟨g1, g2, fun i o d ho hd hO hD p hp hK hm s hs hhit => ?_⟩
    have hb := (hbx boxes env.order rfl).2 p hp
    have eo : (packetOf ox oy oz dx dy dz t).originOf i = o := by rw [ho]; fin_cases i <;> rfl
    have ed : (packetOf ox oy oz dx dy dz t).dirOf i = d := by rw [hd]; fin_cases i <;> rfl
    have ei : (packetOf ox oy oz dx dy dz t).invOf i = recip3 d := by rw [hd]; fin_cases i <;> rfl
    have hseen : Seen (boxAt ((ffiBuilder (some boxes) n c (stride / 4) ppl).boxes env.order) p) o d s := by
      rw [hb]; exact seen hm hO hD hhit
    refine g4 i p (hids.mem_iff.2 (List.mem_range.2 hp))
      (padAt ((ffiBuilder (some boxes) n c (stride / 4) ppl).boxes env.order) p) hseen.valid ?_ ?_ ?_
    · rw [eo, ei]; exact hseen.noNaN
    · rw [eo, ei, hidx]; exact (S.above (by rw [hl]; exact hp) hK hseen).2
    · refine Seen.quadTest4 (s := s) ?_ ?_ hs
      · show Seen _ ((packetOf ox oy oz dx dy dz t).originOf i) ((packetOf ox oy oz dx dy dz t).dirOf i) s
        rw [eo, ed]; exact hseen
      · show (packetOf ox oy oz dx dy dz t).invOf i = recip3 ((packetOf ox oy oz dx dy dz t).dirOf i)
        rw [ei, ed]

/-- Not vacuous: the client of C80 (both kinds of build return `Ok`, as shown there; three primitives, so depth at most 2), with
the axis-parallel ray of C95 through all three cubes.  Every hypothesis holds, and the calls are made: all three primitives by
`intersect`, and by `intersect_mbvh` on the structure made from it. -/
example : (∀ i < 3, (clientBoxes i).toAabb.Numeric ∧ (clientBoxes i).toAabb.Moderate) ∧ alongX.origin.Moderate ∧
    alongX.direction.Ordinary ∧ alongX.direction.NoNegZero ∧ (∀ ty : FfiBvhType, ty.Faithful 3 4) ∧
    (∀ p < 3, ∃ s : ℚ, (lit 1 (-4) : F32).val ≤ s ∧ (lit 1 34 : F32).Above s ∧
      (clientBoxes p).toAabb.exact.Has (pointOn alongX.origin alongX.direction s)) ∧
    ∀ ty : FfiBvhType, (match (Manager.empty : Manager F32).createBvh (some clientBoxes) 3 (some clientCenters) 12 4 ty false
        ⟨[0, 1, 2], List.replicate 10 0, 2, 5⟩ 7 with
       | .returned m .ok (some h) => (m.slices h).map fun x =>
          (ffiIntersect x.1 x.2 alongX.origin alongX.direction (lit 1 34) () (fun _ t _ => (t, (), false)) 9).calls.length
       | _ => none) = some 3 ∧
      (match (Manager.empty : Manager F32).createBvh (some clientBoxes) 3 (some clientCenters) 12 4 ty false
        ⟨[0, 1, 2], List.replicate 10 0, 2, 5⟩ 7 with
       | .returned m .ok (some h) => match m.createMbvh 5 h false 8 with
          | some (m', .ok, some h') => (m'.mslices h').map fun x =>
            (ffiIntersectMbvh x.1 x.2 alongX.origin alongX.direction (lit 1 34) () (fun _ t _ => (t, (), false)) 20).calls.length
          | _ => none
       | _ => none) = some 3 := by
  refine ⟨by unfold Aabb.Numeric Vec3.Numeric Num Aabb.Moderate Vec3.Moderate; decide +kernel,
    by unfold Vec3.Moderate; decide +kernel, by unfold Vec3.Ordinary; decide +kernel,
    by unfold Vec3.NoNegZero; decide +kernel, fun ty => .inr (by omega), ?_, fun ty => ?_⟩
  · intro p hp
    have : p = 0 ∨ p = 1 ∨ p = 2 := by omega
    rcases this with rfl | rfl | rfl
    · exact ⟨4, by decide +kernel⟩
    · exact ⟨8, by decide +kernel⟩
    · exact ⟨13, by decide +kernel⟩
  · cases ty <;> decide +kernel

end Rtbvh
