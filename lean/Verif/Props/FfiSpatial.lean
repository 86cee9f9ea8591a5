import Verif.Props.FfiQuery
import Verif.Props.Triangle
/- Property C81: `create_spatial_Bvh` and queries of its result through the C interface. -/
namespace Rtbvh
open FloatOps Aabb
variable {F : Type} [FloatOps F]

/-- The builder of `create_spatial_Bvh` is legal whatever the buffers contain. -/
theorem ffiSpatialBuilder_facts (aabbs : Option (Nat → RTAabb F)) (n : Nat) (w : Nat → TriWrapper F) (ppl : Nat) :
    (ffiSpatialBuilder aabbs n w ppl).primitives.length = n ∧
    (∀ l, (ffiSpatialBuilder aabbs n w ppl).aabbs = some l → l.length = n) ∧
    ∀ order sort, 1 ≤ n → n ≤ 2 ^ 30 → referenceLimit F n < 2 ^ 30 → order.Perm (List.range n) →
      (∀ a l l', sort a l = some l' → l'.Perm l) → (ffiSpatialBuilder aabbs n w ppl).LegalSpatial order sort := by
  have hl : (ffiSpatialBuilder aabbs n w ppl).primitives.length = n := by simp [ffiSpatialBuilder]
  have ha : ∀ l, (ffiSpatialBuilder aabbs n w ppl).aabbs = some l → l.length = n := by
    intro l h
    cases aabbs with
    | none => cases h
    | some bs => cases h; simp
  refine ⟨hl, ha, fun order sort h1 h2 h3 ho hs => ?_⟩
  exact { nonempty := by rw [← List.length_pos_iff]; omega
          boxes := fun l h => by rw [hl]; exact ha l h
          order := by rw [hl]; exact ho
          small := by rw [hl]; exact h2
          fits := by rw [hl]; exact h3
          sorts := hs }

/-- C81, refusals.  A center stride that is no multiple of 4 panics; no primitives gives `NoPrimitives` (the buffers are not
looked at, not even whether `result` is null); `InequalAabbsAndPrimitives` and `Error` are never returned; and a call that
returns at all on a non-empty scene returns `Ok` and a handle. -/
theorem C81_refusals (m : Manager F) (aabbs : Option (Nat → RTAabb F)) (n : Nat) (c v : Nat → F) (stride vs ts ppl : Nat)
    (null : Bool) (sort : Fin 3 → List (Ref F) → Option (List (Ref F))) (env : BuildEnv) (a : Nat) :
    (stride % 4 ≠ 0 → m.createSpatialBvh aabbs n c v stride vs ts ppl null sort env a = .panicked) ∧
    (stride % 4 = 0 → m.createSpatialBvh aabbs 0 c v stride vs ts ppl null sort env a = .returned m .noPrimitives none) ∧
    (∀ m' code o, m.createSpatialBvh aabbs n c v stride vs ts ppl null sort env a = .returned m' code o →
      (n = 0 ∧ code = .noPrimitives ∧ o = none ∧ m' = m) ∨ (0 < n ∧ null = false ∧ code = .ok ∧ ∃ h, o = some h)) := by
  have E := C01_builder_errors (ffiSpatialBuilder aabbs n (TriWrapper.new c v stride vs ts) ppl) env.order env.schedule 0 0
    (fun i => (TriWrapper.new c v stride vs ts i).triangle.split) sort
  obtain ⟨hl, ha, _⟩ := ffiSpatialBuilder_facts aabbs n (TriWrapper.new c v stride vs ts) ppl
  have zero : stride % 4 = 0 → m.createSpatialBvh aabbs 0 c v stride vs ts ppl null sort env a =
      .returned m .noPrimitives none := by
    intro h
    have E0 := (C01_builder_errors (ffiSpatialBuilder aabbs 0 (TriWrapper.new c v stride vs ts) ppl) env.order env.schedule 0 0
      (fun i => (TriWrapper.new c v stride vs ts i).triangle.split) sort).1 rfl
    simp only [Manager.createSpatialBvh, h, ne_eq, not_true_eq_false, if_false, E0.2.2]
    rfl
  refine ⟨fun h => ?_, zero, fun m' code o h => ?_⟩
  · simp [Manager.createSpatialBvh, h]
  · by_cases hs : stride % 4 = 0
    · cases n with
      | zero =>
        rw [zero hs] at h
        injection h with h1 h2 h3
        exact .inl ⟨rfl, h2.symm, h3.symm, h1.symm⟩
      | succ n =>
        refine .inr ⟨by omega, ?_⟩
        have hne : (ffiSpatialBuilder aabbs (n + 1) (TriWrapper.new c v stride vs ts) ppl).primitives ≠ [] := by
          rw [← List.length_pos_iff]; omega
        have E := fun e => (E.2.2 hne (fun l h => by rw [hl]; exact ha l h) e).2.2
        simp only [Manager.createSpatialBvh, hs, ne_eq, not_true_eq_false, if_false] at h
        cases hr : (ffiSpatialBuilder aabbs (n + 1) (TriWrapper.new c v stride vs ts) ppl).constructSpatialSah
            (fun i => (TriWrapper.new c v stride vs ts i).triangle.split) sort env.order env.schedule with
        | error e => exact (E e hr).elim
        | ok r =>
          rw [hr] at h
          match r with
          | .error .panic => cases h
          | .error .wildWrite => cases h
          | .ok none => cases h
          | .ok (some b) =>
            cases null with
            | true => cases h
            | false =>
              simp only [Bool.false_eq_true, if_false, Manager.finish, Manager.create, CallResult.returned.injEq] at h
              exact ⟨rfl, h.2.1.symm, _, h.2.2.symm⟩
    · simp [Manager.createSpatialBvh, hs] at h

/-- A successful call: the event it is in the history and the build behind it. -/
theorem spatial_created {m m₁ : Manager F} {aabbs : Option (Nat → RTAabb F)} {n : Nat} {c v : Nat → F}
    {stride vs ts ppl : Nat} {null : Bool} {sort : Fin 3 → List (Ref F) → Option (List (Ref F))} {env : BuildEnv} {a : Nat}
    {code : ResultCode} {h : Handle} (ha : m.Free a)
    (hcall : m.createSpatialBvh aabbs n c v stride vs ts ppl null sort env a = .returned m₁ code (some h)) :
    ∃ b : Bvh F, Calls m ⟨.create false (.ok b), code, some h⟩ m₁ ∧ 1 ≤ n ∧ null = false ∧
      (ffiSpatialBuilder aabbs n (TriWrapper.new c v stride vs ts) ppl).constructSpatialSah
        (fun i => (TriWrapper.new c v stride vs ts i).triangle.split) sort env.order env.schedule = .ok (.ok (some b)) := by
  rcases (C81_refusals m aabbs n c v stride vs ts ppl null sort env a).2.2 _ _ _ hcall with ⟨_, _, h, _⟩ | ⟨h0, hn, hc, _⟩
  · cases h
  subst hn
  by_cases hs : stride % 4 = 0
  · simp only [Manager.createSpatialBvh, hs, ne_eq, not_true_eq_false, if_false] at hcall
    cases hr : (ffiSpatialBuilder aabbs n (TriWrapper.new c v stride vs ts) ppl).constructSpatialSah
        (fun i => (TriWrapper.new c v stride vs ts i).triangle.split) sort env.order env.schedule with
    | error e => rw [hr] at hcall; simp [Manager.finish, Manager.create] at hcall
    | ok r =>
      rw [hr] at hcall
      match r with
      | .error .panic => cases hcall
      | .error .wildWrite => cases hcall
      | .ok none => cases hcall
      | .ok (some b) =>
        have hev : Calls m ⟨.create false (.ok b), (m.create false (.ok b) a).2.1, (m.create false (.ok b) a).2.2⟩
          (m.create false (.ok b) a).1 := Calls.create false (.ok b) a ha
        simp only [Bool.false_eq_true, if_false, Manager.finish, CallResult.returned.injEq] at hcall
        obtain ⟨rfl, rfl, hh⟩ := hcall
        rw [hh] at hev
        exact ⟨b, hev, h0, rfl, rfl⟩
  · simp [Manager.createSpatialBvh, hs] at hcall

/-- C81, what the threads decide: nothing but the layout of the index array.  If the call returns `Ok` under one schedule
then under every schedule it is still running or returns `Ok` with a handle to buffers of the same sizes; it panics and
writes out of bounds under none. -/
theorem C81_schedule {m m₁ : Manager F} {aabbs : Option (Nat → RTAabb F)} {n : Nat} {c v : Nat → F}
    {stride vs ts ppl : Nat} {sort : Fin 3 → List (Ref F) → Option (List (Ref F))} {order ks : List Nat} {cpus rounds a : Nat}
    {code : ResultCode} {h : Handle} (ha : m.Free a)
    (hcall : m.createSpatialBvh aabbs n c v stride vs ts ppl false sort ⟨order, ks, cpus, rounds⟩ a =
      .returned m₁ code (some h))
    (hn : n ≤ 2 ^ 30) (hr : referenceLimit F n < 2 ^ 30) (ho : order.Perm (List.range n))
    (hsort : ∀ a l l', sort a l = some l' → l'.Perm l) (ks' : List Nat) (cpus' rounds' : Nat) :
    m.createSpatialBvh aabbs n c v stride vs ts ppl false sort ⟨order, ks', cpus', rounds'⟩ a = .running ∨
    ∃ m₂, m.createSpatialBvh aabbs n c v stride vs ts ppl false sort ⟨order, ks', cpus', rounds'⟩ a =
      .returned m₂ .ok (some h) := by
  obtain ⟨b, hev, h1, _, e⟩ := spatial_created ha hcall
  obtain ⟨hl, hb, hleg⟩ := ffiSpatialBuilder_facts aabbs n (TriWrapper.new c v stride vs ts) ppl
  have hleg := hleg order sort h1 hn hr ho hsort
  obtain ⟨k1, k2, k3⟩ := C60_spatial_schedule_independent _ _ _ _ _ hleg _ e
  have hs : stride % 4 = 0 := by
    by_cases hs : stride % 4 = 0
    · exact hs
    · simp [Manager.createSpatialBvh, hs] at hcall
  have hne := fun e => ((C01_builder_errors (ffiSpatialBuilder aabbs n (TriWrapper.new c v stride vs ts) ppl) order ks' 0 0
    (fun i => (TriWrapper.new c v stride vs ts i).triangle.split) sort).2.2 hleg.nonempty hleg.boxes e).2.2
  simp only [Manager.createSpatialBvh, hs, ne_eq, not_true_eq_false, if_false, e, Bool.false_eq_true, Manager.finish,
    Manager.create, CallResult.returned.injEq] at hcall
  obtain ⟨_, _, hh⟩ := hcall
  simp only [Manager.createSpatialBvh, hs, ne_eq, not_true_eq_false, if_false]
  cases hr' : (ffiSpatialBuilder aabbs n (TriWrapper.new c v stride vs ts) ppl).constructSpatialSah
      (fun i => (TriWrapper.new c v stride vs ts i).triangle.split) sort order ks' with
  | error e => exact (hne e hr').elim
  | ok r =>
    match r with
    | .error f => exact (k1 ks' f hr').elim
    | .ok none => exact .inl rfl
    | .ok (some b') =>
      refine .inr ⟨(m.create false (.ok b') a).1, ?_⟩
      simp only [Bool.false_eq_true, if_false, Manager.finish]
      obtain ⟨hnodes, hidx, _⟩ := k3 ks' b' hr'
      have hidx : b'.primIndices.length = b.primIndices.length := hidx
      rw [← hh]
      simp only [Manager.create, Bool.false_eq_true, if_false, Manager.store, hnodes, hidx]

/-- C81, queries, the part that holds: after any history of calls that neither refit nor free the handle, its buffers hold a
tree all of whose ids are below `n`; if it is at most 31 deep, `intersect` returns `Ok` for every ray without NaN and every
callback, ends, and calls back with at most `n + ⌊0.75 n⌋` ids, all below `n` (an id may come twice).  Missing: that every
triangle the ray hits is among them, which is false (`C81_null_boxes_miss`, and C42, C76 with the caller's boxes). -/
theorem C81_query_partial {D : Type} {es₁ es₂ : List (Event F)} {m m₁ m₂ : Manager F} {aabbs : Option (Nat → RTAabb F)}
    {n : Nat} {c v : Nat → F} {stride vs ts ppl : Nat} {null : Bool}
    {sort : Fin 3 → List (Ref F) → Option (List (Ref F))} {env : BuildEnv} {a : Nat} {code : ResultCode} {h : Handle}
    (h₁ : History .empty es₁ m) (ha : m.Free a)
    (hcall : m.createSpatialBvh aabbs n c v stride vs ts ppl null sort env a = .returned m₁ code (some h))
    (h₂ : History m₁ es₂ m₂) (hcount : (bvhHandles es₁).length < 2 ^ 32) (hkeep : ∀ e ∈ es₂, touches h.id e = false)
    (hn : n ≤ 2 ^ 30) (hr : referenceLimit F n < 2 ^ 30) (ho : env.order.Perm (List.range n))
    (hsort : ∀ a l l', sort a l = some l' → l'.Perm l) :
    code = .ok ∧ ∃ nodes indices T, m₂.slices h = some (nodes, indices) ∧ Unfolds nodes 0 T ∧ T.RangesIn indices ∧
      T.depth ≤ 64 ∧ (∀ p ∈ T.ids indices, p < n) ∧
      (T.depth ≤ 31 → ∃ N, ∀ (o d : Vec3 F), (o.isNaN || d.isNaN) = false → ∀ (t : F) (x : D)
        (cb : Nat → F → D → F × D × Bool), ∀ fuel ≥ N,
        let out := ffiIntersect nodes indices o d t x cb fuel
        out.code = .ok ∧ (out.ending = .finished ∨ out.ending = .stopped) ∧ (∀ p ∈ out.calls, p < n) ∧
        out.calls.length ≤ referenceLimit F n ∧ ((∀ id t x, (cb id t x).2.2 = false) → out.ending = .finished)) := by
  obtain ⟨b, hev, h1, _, e⟩ := spatial_created ha hcall
  obtain ⟨hl, hb, hleg⟩ := ffiSpatialBuilder_facts aabbs n (TriWrapper.new c v stride vs ts) ppl
  have hleg := hleg env.order sort h1 hn hr ho hsort
  obtain ⟨T, u1, u2, u3, u4, u5, u6, u7, u8, u9, _, u11⟩ := spatial_built hleg e
  rw [hl] at u7 u8 u9 u11
  obtain ⟨hok, _, hsl⟩ := C46_handle_stable h₁ hev h₂ hcount
  obtain ⟨k1, k2⟩ := keep_foldl hkeep b
  have hi : b.primIndices.length = referenceLimit F n := u8
  have hsl := hsl k2 (by omega) (by omega)
  rw [k1] at hsl
  have den : b.Denotes T := ⟨u1, u4⟩
  refine ⟨hok, b.nodes, b.primIndices, T, hsl, u1, u4, u5, u7, fun hd => ⟨T.rounds + 1, ?_⟩⟩
  intro o d hnan t x cb fuel hf out
  have hpre := C47_ids_prefix b T den hd fuel (by omega) o d hnan t x cb
  have hout : out = _ := C47_refines b T den hd fuel (by omega) o d hnan t x cb
  have hn' : (Ray.new o d).hasNaN = false := hnan
  obtain ⟨_, _, hperm⟩ := C20_ray_traversal_exact b T den hd (Ray.new o d) hn' (fun ray _ => (ray, false))
    (fun r _ => ⟨r.t, rfl⟩) fuel (by omega)
  have hsub : out.calls <+: (b.forIndices (fun ray _ => (ray, false)) fuel (Ray.new o d)).items := by
    rcases hpre with ⟨_, e⟩ | ⟨_, e⟩
    · rw [show out.calls = _ from e]
    · exact e
  have hcnt := fun p => reach_count_le_ids b.indices (fun a => (a.intersect (Ray.new o d)).isSome) p T
  have hsp : List.Subperm (b.forIndices (fun ray _ => (ray, false)) fuel (Ray.new o d)).items (T.ids b.indices) := by
    refine hperm.subperm.trans (List.subperm_iff_count.2 fun p => hcnt p)
  refine ⟨by rw [hout], ?_, fun p hp => u7 p (hsp.subset (hsub.subset hp)), ?_, fun hcb => ?_⟩
  · rcases hpre with ⟨e, _⟩ | ⟨e, _⟩
    · exact .inl e
    · exact .inr e
  · exact (hsub.length_le.trans hsp.length_le).trans u9
  · rw [hout]
    have hstop : ∀ (s : Ray F × D) (x : Nat), (rayBody cb s x).2 = false := fun s x => hcb x s.1.t s.2
    exact visit_finished hstop T _

/-! ### The refutation -/

/-- Two triangles, tightly packed: (0,0,0) (1,0,0) (0,1,0) and (10,0,0) (11,0,0) (10,1,0). -/
def packedVertices (k : Nat) : F32 :=
  if k = 3 ∨ k = 7 ∨ k = 16 then one else if k = 9 ∨ k = 15 then lit 10 0 else if k = 12 then lit 11 0 else zero
/-- Their centers (stride 12). -/
def packedCenters (k : Nat) : F32 :=
  if k = 0 ∨ k = 1 ∨ k = 4 then lit 33 (-2) else if k = 3 then lit 1033 (-2) else zero
/-- A ray through the second triangle. -/
def packedOrigin : Vec3 F32 := ⟨lit 10125 (-3), lit 125 (-3), lit (-1) 0⟩
def packedDir : Vec3 F32 := ⟨lit 125 (-3), lit 125 (-3), one⟩

/-- C81 is false: two tightly packed triangles (vertex stride 12 bytes, triangle stride 36) with null `aabbs`, so that the
library computes the boxes.  The call returns `Ok`, but `intersect` with a ray that hits the second triangle calls nobody
back. -/
theorem C81_null_boxes_miss : ∃ (m : Manager F32) (h : Handle) (nodes : List (BvhNode F32)) (indices : List Nat),
    (Manager.empty : Manager F32).createSpatialBvh none 2 packedCenters packedVertices 12 12 36 0 false refSort
      ⟨[0, 1], List.replicate 6 0, 1, 0⟩ 7 = .returned m .ok (some h) ∧
    m.slices h = some (nodes, indices) ∧
    (ffiIntersect nodes indices packedOrigin packedDir (lit 1 34) () (fun _ t d => (t, d, false)) 50).calls = [] ∧
    (ffiIntersect nodes indices packedOrigin packedDir (lit 1 34) () (fun _ t d => (t, d, false)) 50).ending = .finished ∧
    ((TriWrapper.new packedCenters packedVertices 12 12 36 1).triangle.intersect (Ray.new packedOrigin packedDir)).2 = true := by
  have key : (match (Manager.empty : Manager F32).createSpatialBvh none 2 packedCenters packedVertices 12 12 36 0 false refSort
      ⟨[0, 1], List.replicate 6 0, 1, 0⟩ 7 with
    | .returned m .ok (some h) => (m.slices h).map fun x =>
      ((ffiIntersect x.1 x.2 packedOrigin packedDir (lit 1 34) () (fun _ t d => (t, d, false)) 50).calls,
       (ffiIntersect x.1 x.2 packedOrigin packedDir (lit 1 34) () (fun _ t d => (t, d, false)) 50).ending)
    | _ => none) = some ([], .finished) := by decide +kernel
  have hit : ((TriWrapper.new packedCenters packedVertices 12 12 36 1).triangle.intersect
    (Ray.new packedOrigin packedDir)).2 = true := by decide +kernel
  split at key
  · rename_i m h e
    obtain ⟨⟨nodes, indices⟩, h1, h2⟩ := Option.map_eq_some_iff.1 key
    simp only [Prod.mk.injEq] at h2
    exact ⟨m, h, nodes, indices, e, h1, h2.1, h2.2, hit⟩
  · cases key

/-- The hypotheses of `C81_schedule` and `C81_query_partial` are met by that call (the tree is not deep). -/
example : (Manager.empty : Manager F32).Free 7 ∧ History (.empty : Manager F32) [] .empty ∧ 2 ≤ 2 ^ 30 ∧
    referenceLimit F32 2 < 2 ^ 30 ∧ [0, 1].Perm (List.range 2) ∧
    (∀ a (l l' : List (Ref F32)), refSort a l = some l' → l'.Perm l) ∧
    (packedOrigin.isNaN || packedDir.isNaN) = false :=
  ⟨by simp [Manager.Free, Manager.empty], .nil, by decide, by decide +kernel, by decide, fun a l l' h => refSort_sorts a l l' h,
    by decide +kernel⟩

omit [FloatOps F] in
theorem filterMap_range_get {α β : Type} (g : Nat → α) (h : α → β) (n : Nat) : ∀ l : List Nat, (∀ k ∈ l, k < n) →
    l.filterMap (fun i => (((List.range n).map g)[i]?).map h) = l.map fun k => h (g k) := by
  intro l
  induction l with
  | nil => intro _; rfl
  | cons k l ih =>
    intro hl
    have hk : k < n := hl k (by simp)
    have : ((List.range n).map g)[k]? = some (g k) := by simp [hk]
    rw [List.filterMap_cons, this, List.map_cons, ← ih fun x hx => hl x (by simp [hx])]
    rfl

/-- C81, null boxes: a call without boxes is the call with, for box number `i`, the box around three points read from the
vertex buffer.  These are not the vertices of triangle `q`, the `i`-th to arrive (`vs / 4` floats apart, the first one at
float `q * ts / 4`, which is where the splitting finds them), but points `vs / 16` floats apart, the first one at float
`(q * ts / 4) * (vs / 4) / 4`. -/
theorem C81_null_boxes (m : Manager F) (n : Nat) (c v : Nat → F) (stride vs ts ppl : Nat) (null : Bool)
    (sort : Fin 3 → List (Ref F) → Option (List (Ref F))) (env : BuildEnv) (a : Nat) (ho : env.order.Perm (List.range n))
    (hv : vs / 4 < 2 ^ 32) (hts : ∀ q < n, q * ts / 4 < 2 ^ 32 ∧ q * ts / 4 * (vs / 4) < 2 ^ 32) :
    m.createSpatialBvh none n c v stride vs ts ppl null sort env a =
      m.createSpatialBvh (some fun i =>
        let p := env.order.getD i 0 * ts / 4 * (vs / 4) / 4
        let s := vs / 16
        RTAabb.ofAabb (((Aabb.empty.grow ⟨v p, v (p + 1), v (p + 2)⟩).grow ⟨v (p + s), v (p + s + 1), v (p + s + 2)⟩).grow
          ⟨v (p + 2 * s), v (p + 2 * s + 1), v (p + 2 * s + 2)⟩))
        n c v stride vs ts ppl null sort env a := by
  have hlen : env.order.length = n := by simpa using ho.length_eq
  have hlt : ∀ k ∈ env.order, k < n := fun k hk => List.mem_range.1 (ho.mem_iff.1 hk)
  have hcheck : ∀ fn : Nat → RTAabb F, (∀ i (hi : i < env.order.length),
        (fn i).toAabb = (TriWrapper.new c v stride vs ts env.order[i]).aabb) →
      (ffiSpatialBuilder none n (TriWrapper.new c v stride vs ts) ppl).check env.order =
        (ffiSpatialBuilder (some fn) n (TriWrapper.new c v stride vs ts) ppl).check env.order := by
    intro fn hfn
    unfold Builder.check
    simp only [ffiSpatialBuilder, ffiBoxes, Option.map_none, Option.map_some, List.length_map, List.length_range, ne_eq,
      not_true_eq_false, if_false]
    congr 2
    unfold collectAabbs
    rw [filterMap_range_get _ _ _ _ hlt]
    apply List.ext_getElem?
    intro i
    by_cases hi : i < n
    · rw [List.getElem?_map, List.getElem?_map, List.getElem?_eq_getElem (by rw [hlen]; exact hi),
        List.getElem?_eq_getElem (by simpa using hi)]
      simp only [Option.map_some, List.getElem_range]
      rw [hfn i (by rw [hlen]; exact hi)]
    · rw [List.getElem?_eq_none (by simp [hlen]; omega), List.getElem?_eq_none (by simp; omega)]
  unfold Manager.createSpatialBvh Builder.constructSpatialSah
  dsimp only
  rw [hcheck]
  · rfl
  · intro i hi
    obtain ⟨h1, h2⟩ := hts _ (hlt _ (List.getElem_mem hi))
    have hget : env.order.getD i 0 = env.order[i] := by
      rw [List.getD_eq_getElem?_getD, List.getElem?_eq_getElem hi]; rfl
    have e1 : vs / 4 / 4 = vs / 16 := by omega
    simp only [toAabb_ofAabb, hget, TriWrapper.new, TriWrapper.aabb, TriWrapper.read3, natAsU32, Nat.mod_eq_of_lt h1,
      Nat.mod_eq_of_lt hv, Nat.mod_eq_of_lt h2, e1, Nat.mul_comm (vs / 16) 2]

/-- The hypotheses are met by two tightly packed triangles, and the box of the second is not the triangle's. -/
example : [0, 1].Perm (List.range 2) ∧ 12 / 4 < 2 ^ 32 ∧ (∀ q < 2, q * 36 / 4 < 2 ^ 32 ∧ q * 36 / 4 * (12 / 4) < 2 ^ 32) ∧
    1 * 36 / 4 * (12 / 4) / 4 = 6 ∧ 12 / 16 = 0 :=
  ⟨by decide, by decide, fun q hq => by omega, rfl, rfl⟩

end Rtbvh
