import Verif.Proofs.FfiQuery
import Verif.Props.Spatial
/- Property C80: the C interface from raw buffers to query results. -/
namespace Rtbvh
open FloatOps Aabb
variable {F : Type} [FloatOps F]

/-! ### What `create_bvh` returns -/

/-- C80, refusals: null pointers give `Error`, a center stride other than 12 or 16 bytes panics, zero primitives give
`NoPrimitives`; the manager is unchanged and no handle is written.  `InequalAabbsAndPrimitives` is never returned. -/
theorem C80_refusals (m : Manager F) (aabbs : Option (Nat → RTAabb F)) (n : Nat) (c : Nat → F) (stride ppl : Nat)
    (ty : FfiBvhType) (env : BuildEnv) (a : Nat) :
    (∀ null, m.createBvh aabbs n none stride ppl ty null env a = .returned m .error none) ∧
    m.createBvh aabbs n (some c) stride ppl ty true env a = .returned m .error none ∧
    (stride ≠ 12 → stride ≠ 16 → m.createBvh aabbs n (some c) stride ppl ty false env a = .panicked) ∧
    (stride = 12 ∨ stride = 16 →
      m.createBvh aabbs 0 (some c) stride ppl ty false env a = .returned m .noPrimitives none) ∧
    (∀ m' o, m.createBvh aabbs n (some c) stride ppl ty false env a ≠ .returned m' .inequalAabbsAndPrimitives o) := by
  have herr : ∀ floats e, ffiBuild (ffiBuilder aabbs n c floats ppl) ty env = .error e → e = .noPrimitives := by
    intro floats e h
    have hl : ∀ l, (ffiBuilder aabbs n c floats ppl).aabbs = some l →
        l.length = (ffiBuilder aabbs n c floats ppl).primitives.length := by
      intro l h
      cases aabbs with
      | none => cases h
      | some bs => cases h; simp [ffiBuilder]
    have hc : ∀ e, (ffiBuilder aabbs n c floats ppl).check env.order = .error e → e = .noPrimitives := by
      intro e h
      unfold Builder.check at h
      split at h
      · cases h; rfl
      · split at h
        · rename_i l hl'
          rw [if_neg (by rw [hl l hl']; exact fun h => h rfl)] at h; cases h
        · cases h
    cases ty with
    | locallyOrderedClustered =>
      unfold ffiBuild Builder.constructLocb at h
      simp only at h
      split at h
      · rename_i e' he; cases h; exact hc _ he
      · cases h
    | binnedSah =>
      unfold ffiBuild Builder.constructBinnedSah at h
      simp only at h
      split at h
      · rename_i e' he; cases h; exact hc _ he
      · cases h
  refine ⟨fun _ => rfl, rfl, fun h1 h2 => ?_, fun h => ?_, fun m' o h => ?_⟩
  · unfold Manager.createBvh
    simp only [Bool.false_eq_true, if_false, h1, h2]
    split
    · rfl
    · split
      · rfl
      · split
        · rfl
        · rfl
  · have h0 : ∀ floats, ffiBuild (ffiBuilder aabbs 0 c floats ppl) ty env = .error .noPrimitives := by
      intro floats; cases ty <;> rfl
    rcases h with rfl | rfl <;> simp [Manager.createBvh, h0, Manager.finish, Manager.create, ResultCode.ofBuildError]
  · unfold Manager.createBvh at h
    simp only [Bool.false_eq_true, if_false] at h
    split at h
    · cases h
    split at h
    · cases h
    split at h
    · cases h
    split at h
    · cases h
    · rename_i e he
      have : e = .noPrimitives := by
        split at he
        · injection he with he; exact herr _ _ he
        · split at he
          · injection he with he; exact herr _ _ he
          · cases he
      subst this
      simp [Manager.finish, Manager.create, ResultCode.ofBuildError] at h
    · cases h
    · cases h
    · simp [Manager.finish, Manager.create] at h

omit [FloatOps F] in
/-- The builder `create_bvh` makes. -/
theorem ffiBuilder_facts [FloatOps F] (aabbs : Option (Nat → RTAabb F)) (n : Nat) (c : Nat → F) (floats ppl : Nat) :
    (ffiBuilder aabbs n c floats ppl).primitives.length = n ∧
    (∀ order, 1 ≤ n → n ≤ 2 ^ 30 → order.Perm (List.range n) → (ffiBuilder aabbs n c floats ppl).Legal order) ∧
    ∀ boxes order, aabbs = some boxes →
      ((ffiBuilder aabbs n c floats ppl).boxes order = (List.range n).map fun i => (boxes i).toAabb) ∧
      ∀ p < n, boxAt ((ffiBuilder aabbs n c floats ppl).boxes order) p = (boxes p).toAabb := by
  have hlen : (ffiBuilder aabbs n c floats ppl).primitives.length = n := by simp [ffiBuilder]
  refine ⟨hlen, fun order h1 h2 h3 => ⟨?_, ?_, by rw [hlen]; exact h3, by omega⟩, ?_⟩
  · intro h; rw [h] at hlen; simp at hlen; omega
  · intro l h
    cases aabbs with
    | none => cases h
    | some bs => cases h; simp [ffiBuilder]
  · rintro boxes order rfl
    have : (ffiBuilder (some boxes) n c floats ppl).boxes order = (List.range n).map fun i => (boxes i).toAabb := rfl
    refine ⟨this, fun p hp => ?_⟩
    rw [this]
    unfold boxAt
    simp [hp]

/-- A call of `create_bvh` on proper arguments, as far as the build has got. -/
theorem createBvh_eq (m : Manager F) (aabbs : Option (Nat → RTAabb F)) (n : Nat) (c : Nat → F) {stride : Nat} (ppl : Nat)
    (ty : FfiBvhType) (env : BuildEnv) (a : Nat) (hs : stride = 12 ∨ stride = 16) :
    m.createBvh aabbs n (some c) stride ppl ty false env a =
      match ffiBuild (ffiBuilder aabbs n c (stride / 4) ppl) ty env with
      | .error e => m.finish (.error e) a
      | .ok none => .panicked
      | .ok (some none) => .running
      | .ok (some (some b)) => m.finish (.ok b) a := by
  rcases hs with rfl | rfl
  · simp only [Manager.createBvh]
    rw [if_neg (by decide), if_neg (by decide), if_neg (by decide), if_neg (by decide), if_pos trivial]
    cases ffiBuild (ffiBuilder aabbs n c 3 ppl) ty env with
    | error => rfl
    | ok r => match r with
      | none => rfl
      | some none => rfl
      | some (some b) => rfl
  · simp only [Manager.createBvh]
    rw [if_neg (by decide), if_neg (by decide), if_neg (by decide), if_neg (by decide), if_neg (by decide), if_pos trivial]
    cases ffiBuild (ffiBuilder aabbs n c 4 ppl) ty env with
    | error => rfl
    | ok r => match r with
      | none => rfl
      | some none => rfl
      | some (some b) => rfl

/-- C80, binned builds return: with a proper stride and at least one primitive, the call never panics; under every schedule
of the build it is running for fewer than `N ≤ 3n-2` task steps and then returns `Ok` and writes a handle. -/
theorem C80_binned_returns (m : Manager F) (aabbs : Option (Nat → RTAabb F)) (n : Nat) (c : Nat → F) (stride ppl : Nat)
    (order : List Nat) (a : Nat) (hs : stride = 12 ∨ stride = 16) (h1 : 1 ≤ n) (h2 : n ≤ 2 ^ 30)
    (ho : order.Perm (List.range n)) :
    ∃ N ≤ 3 * n - 2, ∀ env : BuildEnv, env.order = order →
      (ffiBuilder aabbs n c (stride / 4) ppl).Schedule order env.schedule → env.schedule.length ≤ N ∧
      (env.schedule.length < N → m.createBvh aabbs n (some c) stride ppl .binnedSah false env a = .running) ∧
      (env.schedule.length = N → ∃ b, m.createBvh aabbs n (some c) stride ppl .binnedSah false env a =
        .returned (m.store b a).1 .ok (some (m.store b a).2)) := by
  obtain ⟨hl, hleg, _⟩ := ffiBuilder_facts aabbs n c (stride / 4) ppl
  obtain ⟨_, ⟨N, hN, H⟩, _⟩ := C02_binned_completes _ order (hleg order h1 h2 ho)
  rw [hl] at hN
  refine ⟨N, hN, fun env he hsch => ?_⟩
  obtain ⟨k1, k2, k3⟩ := H _ hsch
  subst he
  refine ⟨k1, fun hlt => ?_, fun heq => ?_⟩
  · rw [createBvh_eq m aabbs n c ppl _ env a hs]
    simp only [ffiBuild, (k2 hlt).1]
  · obtain ⟨b, e⟩ := k3 heq
    refine ⟨b, ?_⟩
    rw [createBvh_eq m aabbs n c ppl _ env a hs]
    simp only [ffiBuild, e]
    rfl

/-- C80, strides: centers packed as 16-byte records give the same call as the same centers packed as 12-byte records; the
fourth float of each record is never looked at. -/
theorem C80_strides_agree (m : Manager F) (aabbs : Option (Nat → RTAabb F)) (n : Nat) (c c' : Nat → F) (ppl : Nat)
    (ty : FfiBvhType) (env : BuildEnv) (a : Nat) (h : ∀ i < n, ∀ k < 3, c (4 * i + k) = c' (3 * i + k)) :
    m.createBvh aabbs n (some c) 16 ppl ty false env a = m.createBvh aabbs n (some c') 12 ppl ty false env a := by
  have hb : ffiBuilder aabbs n c (16 / 4) ppl = ffiBuilder aabbs n c' (12 / 4) ppl := by
    unfold ffiBuilder
    congr 1
    refine List.map_congr_left fun i hi => ?_
    have hi := List.mem_range.1 hi
    have : TriWrapper.read3 c (i * (16 / 4)) = TriWrapper.read3 c' (i * (12 / 4)) := by
      have h0 := h i hi 0 (by omega)
      have h1 := h i hi 1 (by omega)
      have h2 := h i hi 2 (by omega)
      unfold TriWrapper.read3
      rw [show i * (16 / 4) = 4 * i by omega, show i * (12 / 4) = 3 * i by omega]
      rw [Nat.add_zero] at h0
      rw [Nat.add_zero] at h0
      rw [h0, h1, h2]
    unfold ffiPrim
    rw [this]
  rw [createBvh_eq _ _ _ _ _ _ _ _ (.inr rfl), createBvh_eq _ _ _ _ _ _ _ _ (.inl rfl), hb]

omit [FloatOps F] in
theorem toAabb_ofAabb (b : Aabb F) : (RTAabb.ofAabb b).toAabb = b := rfl

/-- C80, null boxes: a call without boxes is the call with, for box number `i`, the box around the one point that is the
center that arrived `i`-th (`order`: the order in which rayon's `par_bridge` happened to deliver the primitives).  If they
arrived in order, box `i` is center `i`; otherwise boxes and centers are matched wrongly (C57). -/
theorem C80_null_boxes (m : Manager F) (n : Nat) (c : Nat → F) (stride ppl : Nat) (ty : FfiBvhType) (env : BuildEnv) (a : Nat)
    (hs : stride = 12 ∨ stride = 16) (ho : env.order.Perm (List.range n)) :
    m.createBvh none n (some c) stride ppl ty false env a =
      m.createBvh (some fun i => RTAabb.ofAabb (Aabb.empty.grow
        ⟨c (stride / 4 * env.order.getD i 0), c (stride / 4 * env.order.getD i 0 + 1), c (stride / 4 * env.order.getD i 0 + 2)⟩))
        n (some c) stride ppl ty false env a := by
  rw [createBvh_eq _ _ _ _ _ _ _ _ hs, createBvh_eq _ _ _ _ _ _ _ _ hs]
  have hlen : env.order.length = n := by simpa using ho.length_eq
  have hcheck : ∀ fn, fn = (fun i => RTAabb.ofAabb (Aabb.empty.grow
        (⟨c (stride / 4 * env.order.getD i 0), c (stride / 4 * env.order.getD i 0 + 1),
          c (stride / 4 * env.order.getD i 0 + 2)⟩ : Vec3 F))) →
      (ffiBuilder none n c (stride / 4) ppl).check env.order = (ffiBuilder (some fn) n c (stride / 4) ppl).check env.order := by
    rintro fn rfl
    unfold Builder.check
    simp only [ffiBuilder, ffiBoxes, Option.map_none, Option.map_some, List.length_map, List.length_range, ne_eq,
      not_true_eq_false, if_false]
    congr 2
    unfold collectAabbs
    apply List.ext_getElem?
    intro i
    have hmem : ∀ k ∈ env.order, ((List.range n).map (ffiPrim c (stride / 4)))[k]? = some (ffiPrim c (stride / 4) k) := by
      intro k hk
      have := List.mem_range.1 (ho.mem_iff.1 hk)
      simp [this]
    have hfm : env.order.filterMap (fun i => (((List.range n).map (ffiPrim c (stride / 4)))[i]?).map Prim.aabb) =
        env.order.map fun k => (ffiPrim c (stride / 4) k).aabb := by
      have : ∀ l : List Nat, (∀ k ∈ l, k ∈ env.order) →
          l.filterMap (fun i => (((List.range n).map (ffiPrim c (stride / 4)))[i]?).map Prim.aabb) =
            l.map fun k => (ffiPrim c (stride / 4) k).aabb := by
        intro l
        induction l with
        | nil => intro _; rfl
        | cons k l ih =>
          intro hl
          rw [List.filterMap_cons, hmem k (hl k (by simp)), List.map_cons, ← ih fun x hx => hl x (by simp [hx])]
          rfl
      exact this _ fun _ h => h
    rw [hfm]
    by_cases hi : i < n
    · rw [List.getElem?_map, List.getElem?_map, List.getElem?_eq_getElem (by rw [hlen]; exact hi),
        List.getElem?_eq_getElem (by simpa using hi)]
      simp only [Option.map_some, List.getElem_range, toAabb_ofAabb]
      have : env.order.getD i 0 = env.order[i]'(by rw [hlen]; exact hi) := by
        rw [List.getD_eq_getElem?_getD, List.getElem?_eq_getElem (by rw [hlen]; exact hi)]; rfl
      rw [this]
      unfold ffiPrim TriWrapper.read3
      simp only [Nat.mul_comm]
    · rw [List.getElem?_eq_none (by simp [hlen]; omega), List.getElem?_eq_none (by simp; omega)]
  have hbuild : ∀ fn, fn = (fun i => RTAabb.ofAabb (Aabb.empty.grow
        (⟨c (stride / 4 * env.order.getD i 0), c (stride / 4 * env.order.getD i 0 + 1),
          c (stride / 4 * env.order.getD i 0 + 2)⟩ : Vec3 F))) →
      ffiBuild (ffiBuilder none n c (stride / 4) ppl) ty env = ffiBuild (ffiBuilder (some fn) n c (stride / 4) ppl) ty env := by
    intro fn hfn
    cases ty with
    | locallyOrderedClustered =>
      simp only [ffiBuild, Builder.constructLocb, hcheck fn hfn]
      rfl
    | binnedSah =>
      simp only [ffiBuild, Builder.constructBinnedSah, hcheck fn hfn]
      rfl
  rw [hbuild _ rfl]

/-- C80, clustering builds return, binary32: with a proper stride, at least one primitive and valid boxes with coordinates
of magnitude up to `2^60`, the call returns `Ok` and writes a handle, after at most `n-1` rounds, whatever the number of
CPUs. -/
theorem C80_locb_returns (m : Manager F32) (boxes : Nat → RTAabb F32) (n : Nat) (c : Nat → F32) (stride ppl : Nat)
    (env : BuildEnv) (a : Nat) (hs : stride = 12 ∨ stride = 16) (h1 : 1 ≤ n) (h2 : n ≤ 2 ^ 30)
    (ho : env.order.Perm (List.range n)) (hc : 0 < env.cpus) (hr : n - 1 ≤ env.rounds)
    (hb : ∀ i < n, (boxes i).toAabb.Valid ∧ Moderate (boxes i).toAabb.min ∧ Moderate (boxes i).toAabb.max) :
    ∃ b, m.createBvh (some boxes) n (some c) stride ppl .locallyOrderedClustered false env a =
        .returned (m.store b a).1 .ok (some (m.store b a).2) := by
  obtain ⟨hl, hleg, hbx⟩ := ffiBuilder_facts (some boxes) n c (stride / 4) ppl
  obtain ⟨b, e⟩ := C10_locb_completes_f32 _ env.order (hleg _ h1 h2 ho) (by
    rw [(hbx boxes env.order rfl).1]
    intro x hx
    obtain ⟨i, hi, rfl⟩ := List.mem_map.1 hx
    exact hb i (List.mem_range.1 hi)) env.cpus env.rounds hc (by rw [hl]; exact hr)
  refine ⟨b, ?_⟩
  rw [createBvh_eq m (some boxes) n c ppl _ env a hs]
  simp only [ffiBuild, e]
  rfl

omit [FloatOps F] in
theorem keep_foldl [FloatOps F] {id : Nat} {es : List (Event F)} (h : ∀ e ∈ es, touches id e = false) (b : Bvh F) :
    es.foldl (Event.after id) b = b ∧ ∀ e ∈ es, frees id e = false := by
  have one : ∀ e : Event F, touches id e = false → (∀ b, e.after id b = b) ∧ frees id e = false := by
    rintro ⟨call, code, out⟩ h
    cases call with
    | create => exact ⟨fun _ => rfl, rfl⟩
    | createMbvh => exact ⟨fun _ => rfl, rfl⟩
    | refit aabbs hd =>
      have : hd.id ≠ id := by simpa [touches] using h
      refine ⟨fun b => ?_, rfl⟩
      cases aabbs with
      | none => rfl
      | some bs => simp [Event.after, this]
    | freeBvh hd =>
      have : hd.id ≠ id := by simpa [touches] using h
      exact ⟨fun b => by simp [Event.after, this], by simp [frees, this]⟩
    | freeMbvh => exact ⟨fun _ => rfl, rfl⟩
  refine ⟨?_, fun e he => (one e (h e he)).2⟩
  induction es generalizing b with
  | nil => rfl
  | cons e es ih =>
    rw [List.foldl_cons, (one e (h e (by simp))).1 b]
    exact ih (fun e he => h e (by simp [he])) b

section lawful
variable [LawfulFloat F]
open LawfulFloat

/-- What a successful `create_bvh` call leaves: the call as an event of the history, and a hierarchy that serves the
caller's boxes. -/
theorem created_serves {m m₁ : Manager F} {boxes : Nat → RTAabb F} {n : Nat} {c : Nat → F} {stride ppl : Nat}
    {ty : FfiBvhType} {env : BuildEnv} {a : Nat} {code : ResultCode} {h : Handle} (ha : m.Free a)
    (hcall : m.createBvh (some boxes) n (some c) stride ppl ty false env a = .returned m₁ code (some h))
    (hn : n ≤ 2 ^ 29) (ho : env.order.Perm (List.range n)) (hcpu : 0 < env.cpus)
    (hnum : ∀ i < n, (boxes i).toAabb.Numeric) :
    ∃ (b : Bvh F) (T : BTree F), Calls m ⟨.create false (.ok b), code, some h⟩ m₁ ∧ code = .ok ∧ 1 ≤ n ∧
      (ffiBuilder (some boxes) n c (stride / 4) ppl).ServesFor env.order b T (fun p => ty.Faithful n ppl ∨
        ¬ T.Misplaces ((ffiBuilder (some boxes) n c (stride / 4) ppl).ctx env.order) b.primIndices p) ∧ T.depth < n ∧
      b.nodes.length < 2 ^ 32 ∧ b.primIndices.length < 2 ^ 32 := by
  have hs : stride = 12 ∨ stride = 16 := by
    by_cases h1 : stride = 12
    · exact .inl h1
    · by_cases h2 : stride = 16
      · exact .inr h2
      · rw [(C80_refusals m (some boxes) n c stride ppl ty env a).2.2.1 h1 h2] at hcall; cases hcall
  have h1 : 1 ≤ n := by
    cases n with
    | zero => rw [(C80_refusals m (some boxes) 0 c stride ppl ty env a).2.2.2.1 hs] at hcall; cases hcall
    | succ => omega
  obtain ⟨hl, hleg, hbx⟩ := ffiBuilder_facts (some boxes) n c (stride / 4) ppl
  have hleg := hleg env.order h1 (by omega) ho
  rw [createBvh_eq m (some boxes) n c ppl _ env a hs] at hcall
  have hnum' : ∀ x ∈ (ffiBuilder (some boxes) n c (stride / 4) ppl).boxes env.order, x.Numeric := by
    rw [(hbx boxes env.order rfl).1]
    intro x hx
    obtain ⟨i, hi, rfl⟩ := List.mem_map.1 hx
    exact hnum i (List.mem_range.1 hi)
  cases hbuild : ffiBuild (ffiBuilder (some boxes) n c (stride / 4) ppl) ty env with
  | error e =>
    rw [hbuild] at hcall
    simp [Manager.finish, Manager.create] at hcall
  | ok r =>
    rw [hbuild] at hcall
    match r with
    | none => cases hcall
    | some none => cases hcall
    | some (some b) =>
      have hev : Calls m ⟨.create false (.ok b), (m.create false (.ok b) a).2.1, (m.create false (.ok b) a).2.2⟩
        (m.create false (.ok b) a).1 := Calls.create false (.ok b) a ha
      simp only [Manager.finish, CallResult.returned.injEq] at hcall
      obtain ⟨rfl, rfl, hh⟩ := hcall
      rw [hh] at hev
      have hret : (ffiBuilder (some boxes) n c (stride / 4) ppl).Returns env.order b := by
        cases ty with
        | locallyOrderedClustered => exact .inr ⟨env.cpus, env.rounds, hcpu, hbuild⟩
        | binnedSah => exact .inl ⟨env.schedule, hbuild⟩
      obtain ⟨T, hc, _, hdep, _, _⟩ := returns_tree hleg (by omega) hret
      rw [hl] at hdep
      refine ⟨b, T, hev, rfl, h1, ?_, hdep, ?_, ?_⟩
      · cases ty with
        | locallyOrderedClustered =>
          have S := (locb_serves _ _ hleg env.cpus env.rounds hcpu (by omega) hnum' b hbuild T hc.unfolds).all
          exact ⟨S.legal, S.numeric, S.compact, S.ids, S.rounds, fun p hp _ => S.bounds p hp trivial⟩
        | binnedSah =>
          have S := binned_serves_for _ _ env.schedule hleg (by omega) hnum' b hbuild T hc.unfolds
          refine ⟨S.legal, S.numeric, S.compact, S.ids, S.rounds, fun p hp hK => S.bounds p hp ?_⟩
          rcases hK with (h | h) | h
          · cases h
          · refine not_misplaced_small _ _ env.schedule hleg b T hbuild hc.unfolds ?_ p
            rw [hl]
            simp only [ffiBuilder, nonZero]
            rw [if_neg (by omega)]
            exact h
          · exact h
      · have := hc.smallNodes; omega
      · have : b.primIndices.length < 2 ^ 31 := hc.smallIndices
        omega

/-- C80, single rays.  A client calls `create_bvh` on its boxes and centers, gets `Ok` and a handle, and goes on with any
calls that neither refit nor free that handle.  Then the handle's buffers are still readable; if the tree in them is at most
31 deep (so for up to 32 primitives), `intersect` with a non-degenerate ray and any callback returns `Ok`; the ids called
back with are distinct and below `n`; and if no callback stops the loop, every primitive whose own box the ray hits is
among them, except, for a binned build with fewer than `n` primitives per leaf, those that a node misplaces (C07). -/
theorem C80_intersect {D : Type} {es₁ es₂ : List (Event F)} {m m₁ m₂ : Manager F} {boxes : Nat → RTAabb F} {n : Nat}
    {c : Nat → F} {stride ppl : Nat} {ty : FfiBvhType} {env : BuildEnv} {a : Nat} {code : ResultCode} {h : Handle}
    (h₁ : History .empty es₁ m) (ha : m.Free a)
    (hcall : m.createBvh (some boxes) n (some c) stride ppl ty false env a = .returned m₁ code (some h))
    (h₂ : History m₁ es₂ m₂) (hcount : (bvhHandles es₁).length < 2 ^ 32) (hkeep : ∀ e ∈ es₂, touches h.id e = false)
    (hn : n ≤ 2 ^ 29) (ho : env.order.Perm (List.range n)) (hcpu : 0 < env.cpus)
    (hnum : ∀ i < n, (boxes i).toAabb.Numeric) :
    code = .ok ∧ ∃ nodes indices T, m₂.slices h = some (nodes, indices) ∧ Unfolds nodes 0 T ∧ T.depth < n ∧
      (T.depth ≤ 31 → ∀ (o d : Vec3 F), o.Finite → d.NonZero → (Ray.new o d).invDirection.Finite →
        (Ray.new o d).invDirection.NonZero → ∀ (t : F) (x : D) (cb : Nat → F → D → F × D × Bool) (fuel : Nat),
        3 * n ≤ fuel →
        let out := ffiIntersect nodes indices o d t x cb fuel
        out.code = .ok ∧ (out.ending = .finished ∨ out.ending = .stopped) ∧ out.calls.Nodup ∧ (∀ p ∈ out.calls, p < n) ∧
        ((∀ id t x, (cb id t x).2.2 = false) → out.ending = .finished ∧
          ∀ p < n, (ty.Faithful n ppl ∨
            ¬ T.Misplaces ((ffiBuilder (some boxes) n c (stride / 4) ppl).ctx env.order) indices p) →
            ((boxes p).toAabb.intersect (Ray.new o d)).isSome = true → p ∈ out.calls)) := by
  obtain ⟨b, T, hev, rfl, h1, S, hdep, hn1, hn2⟩ := created_serves ha hcall hn ho hcpu hnum
  obtain ⟨hl, _, hbx⟩ := ffiBuilder_facts (some boxes) n c (stride / 4) ppl
  obtain ⟨_, _, hsl⟩ := C46_handle_stable h₁ hev h₂ hcount
  obtain ⟨k1, k2⟩ := keep_foldl hkeep b
  have hsl := hsl k2 hn1 hn2
  rw [k1] at hsl
  refine ⟨rfl, b.nodes, b.primIndices, T, hsl, S.compact.unfolds, hdep, ?_⟩
  intro hd31 o d hof hdn hif hin t x cb fuel hf out
  have hr := S.rounds
  rw [hl] at hr
  have hids := S.ids
  rw [hl] at hids
  have hnan : (o.isNaN || d.isNaN) = false := by
    have ho' : ∀ x : F, Fin' x → FloatOps.isNaN x = false := fun x hx => (fin_num hx)
    have hd' : ∀ x : F, NonZero x → FloatOps.isNaN x = false := by
      intro x hx
      rcases hx with hx | hx
      · exact (lt_iff.1 hx).1
      · exact (lt_iff.1 hx).2.1
    simp [Vec3.isNaN, ho' _ hof.1, ho' _ hof.2.1, ho' _ hof.2.2, hd' _ hdn.1, hd' _ hdn.2.1, hd' _ hdn.2.2]
  have hq := query_main S.legal S.numeric S.compact S.ids S.rounds _ S.bounds hd31 o d hof hdn hif hin
    (fun ray _ => (ray, false)) (fun r _ => ⟨r.t, rfl⟩) fuel (by rw [hl]; exact hf)
  obtain ⟨_, hnd, hall⟩ := hq
  rw [hl] at hall
  have hpre := C47_ids_prefix b T S.compact.toDenotes hd31 fuel (by omega) o d hnan t x cb
  have hcode : out.code = .ok := by
    show (ffiIntersect b.nodes b.primIndices o d t x cb fuel).code = .ok
    rw [C47_refines b T S.compact.toDenotes hd31 fuel (by omega) o d hnan t x cb]
  have hsub : out.calls <+: (b.forIndices (fun ray _ => (ray, false)) fuel (Ray.new o d)).items := by
    rcases hpre with ⟨_, e⟩ | ⟨_, e⟩
    · rw [show out.calls = _ from e]
    · exact e
  have hmem : ∀ p ∈ (b.forIndices (fun ray _ => (ray, false)) fuel (Ray.new o d)).items, p < n := by
    intro p hp
    have hn' : (Ray.new o d).hasNaN = false := hnan
    obtain ⟨_, _, hperm⟩ := C20_ray_traversal_exact b T S.compact.toDenotes hd31 (Ray.new o d) hn' (fun ray _ => (ray, false))
      (fun r _ => ⟨r.t, rfl⟩) fuel (by omega)
    have := (List.count_pos_iff (l := T.ids b.indices)).1 (Nat.lt_of_lt_of_le (List.count_pos_iff.2 (hperm.mem_iff.1 hp))
      (reach_count_le_ids _ _ p T))
    exact List.mem_range.1 (hids.mem_iff.1 this)
  refine ⟨hcode, ?_, hnd.sublist hsub.sublist, fun p hp => hmem p (hsub.subset hp), fun hcb => ?_⟩
  · rcases hpre with ⟨e, _⟩ | ⟨e, _⟩
    · exact .inl e
    · exact .inr e
  · have hfin : out.ending = .finished := by
      show (ffiIntersect b.nodes b.primIndices o d t x cb fuel).ending = _
      rw [C47_refines b T S.compact.toDenotes hd31 fuel (by omega) o d hnan t x cb]
      have hstop : ∀ (s : Ray F × D) (x : Nat), (rayBody cb s x).2 = false := fun s x => hcb x s.1.t s.2
      exact visit_finished hstop T _
    refine ⟨hfin, fun p hp hK hhit => ?_⟩
    rcases hpre with ⟨_, e⟩ | ⟨e, _⟩
    · rw [show out.calls = _ from e]
      exact hall p hp hK (by rw [(hbx boxes env.order rfl).2 p hp]; exact hhit)
    · exact absurd ((show out.ending = .stopped from e).symm.trans hfin) (by decide)

/-- C80, packets: the same for `intersect_packet`, for callbacks that only lower the lanes of `*t` and never stop the
loop: every primitive whose valid box is hit by a usable lane of the packet with the `t` the function leaves behind. -/
theorem C80_intersect_packet {D : Type} {es₁ es₂ : List (Event F)} {m m₁ m₂ : Manager F} {boxes : Nat → RTAabb F} {n : Nat}
    {c : Nat → F} {stride ppl : Nat} {ty : FfiBvhType} {env : BuildEnv} {a : Nat} {code : ResultCode} {h : Handle}
    (h₁ : History .empty es₁ m) (ha : m.Free a)
    (hcall : m.createBvh (some boxes) n (some c) stride ppl ty false env a = .returned m₁ code (some h))
    (h₂ : History m₁ es₂ m₂) (hcount : (bvhHandles es₁).length < 2 ^ 32) (hkeep : ∀ e ∈ es₂, touches h.id e = false)
    (hn : n ≤ 2 ^ 29) (ho : env.order.Perm (List.range n)) (hcpu : 0 < env.cpus)
    (hnum : ∀ i < n, (boxes i).toAabb.Numeric) :
    ∃ nodes indices T, m₂.slices h = some (nodes, indices) ∧ Unfolds nodes 0 T ∧ T.depth < n ∧
      (T.depth ≤ 31 → ∀ (ox oy oz dx dy dz t : Vec4 F),
        (ox.isNaN || oy.isNaN || oz.isNaN || dx.isNaN || dy.isNaN || dz.isNaN) = false →
        ∀ (x : D) (cb : Nat → Vec4 F → D → Vec4 F × D × Bool), LowersT4 cb → ∀ fuel, 3 * n ≤ fuel →
        let out := ffiIntersectPacket nodes indices ox oy oz dx dy dz t x cb fuel
        let pk := packetOf ox oy oz dx dy dz t
        out.code = .ok ∧ out.ending = .finished ∧ out.calls.Nodup ∧ (∀ p ∈ out.calls, p < n) ∧
        ∀ i, Usable (pk.originOf i) (pk.invOf i) → ∀ p < n, (ty.Faithful n ppl ∨
            ¬ T.Misplaces ((ffiBuilder (some boxes) n c (stride / 4) ppl).ctx env.order) indices p) →
          (boxes p).toAabb.Valid →
          (boxes p).toAabb.mask4 { pk with t := out.t } i = true → p ∈ out.calls) := by
  obtain ⟨b, T, hev, rfl, h1, S, hdep, hn1, hn2⟩ := created_serves ha hcall hn ho hcpu hnum
  obtain ⟨hl, _, hbx⟩ := ffiBuilder_facts (some boxes) n c (stride / 4) ppl
  obtain ⟨_, _, hsl⟩ := C46_handle_stable h₁ hev h₂ hcount
  obtain ⟨k1, k2⟩ := keep_foldl hkeep b
  have hsl := hsl k2 hn1 hn2
  rw [k1] at hsl
  have hids := S.ids
  have hr := S.rounds
  rw [hl] at hids hr
  refine ⟨b.nodes, b.primIndices, T, hsl, S.compact.unfolds, hdep, ?_⟩
  intro hd31 ox oy oz dx dy dz t hnan x cb hcb fuel hf out pk
  obtain ⟨g1, g2, g3, g4⟩ := ffi_packet_complete b T S.compact.toDenotes hd31 ox oy oz dx dy dz t hnan x cb hcb
    fuel (by omega)
  refine ⟨g1, g2, S.nodup g3, fun p hp => ?_, fun i hu p hp hK hv hhit => ?_⟩
  · have := List.count_pos_iff.1 (Nat.lt_of_lt_of_le (List.count_pos_iff.2 hp) (g3 p))
    exact List.mem_range.1 (hids.mem_iff.1 this)
  · have hb := (hbx boxes env.order rfl).2 p hp
    refine g4 p (hids.mem_iff.2 (List.mem_range.2 hp)) _ (by rw [hb]; exact hv) i (S.box hu (by rw [hl]; exact hp))
      (S.above hu (by rw [hl]; exact hp) hK) (by rw [hb]; exact hhit)

/-- C80, the four-wide structure: the client then calls `create_mbvh` on the handle, gets a handle for the `Mbvh`, and goes
on with any calls that do not free that one (the BVH may be freed or refitted).  If the tree of the BVH was at most 22 deep
(so for up to 23 primitives) or there are at most 65 primitives, `intersect_mbvh` and `intersect_mbvh_packet` with callbacks
that only lower `*t` and never stop return `Ok`, call back with distinct ids below `n`, and with every primitive whose valid
box is hit by the ray, or by a usable lane, with the `t` the function leaves behind. -/
theorem C80_intersect_mbvh {D : Type} {es₁ es₂ es₃ : List (Event F)} {m m₁ m₂ m₃ m₄ : Manager F} {boxes : Nat → RTAabb F}
    {n : Nat} {c : Nat → F} {stride ppl : Nat} {ty : FfiBvhType} {env : BuildEnv} {a a' k : Nat} {code code' : ResultCode}
    {h h' : Handle} (h₁ : History .empty es₁ m) (ha : m.Free a)
    (hcall : m.createBvh (some boxes) n (some c) stride ppl ty false env a = .returned m₁ code (some h))
    (h₂ : History m₁ es₂ m₂) (hcount : (bvhHandles es₁).length < 2 ^ 32) (hkeep : ∀ e ∈ es₂, touches h.id e = false)
    (ha' : m₂.Free a') (hm : m₂.createMbvh k h false a' = some (m₃, code', some h'))
    (h₃ : History m₃ es₃ m₄) (hcount' : (mbvhHandles (es₁ ++ es₂)).length < 2 ^ 32)
    (hkeep' : ∀ e ∈ es₃, freesM h'.id e = false)
    (hn : n ≤ 2 ^ 29) (ho : env.order.Perm (List.range n)) (hcpu : 0 < env.cpus)
    (hnum : ∀ i < n, (boxes i).toAabb.Numeric) :
    code' = .ok ∧ ∃ nodes indices qnodes qindices T, m₂.slices h = some (nodes, indices) ∧ Unfolds nodes 0 T ∧ T.depth < n ∧
      m₄.mslices h' = some (qnodes, qindices) ∧
      (T.depth ≤ 22 ∨ n ≤ 65 → ∃ N, ∀ fuel ≥ N,
        (∀ (o d : Vec3 F), (o.isNaN || d.isNaN) = false → ∀ (t : F) (x : D) (cb : Nat → F → D → F × D × Bool), LowersT cb →
          let out := ffiIntersectMbvh qnodes qindices o d t x cb fuel
          out.code = .ok ∧ out.ending = .finished ∧ out.calls.Nodup ∧ (∀ p ∈ out.calls, p < n) ∧
          (Usable o (Ray.new o d).invDirection → ∀ p < n, (ty.Faithful n ppl ∨
            ¬ T.Misplaces ((ffiBuilder (some boxes) n c (stride / 4) ppl).ctx env.order) indices p) →
            (boxes p).toAabb.Valid →
            quadTest (boxes p).toAabb { Ray.new o d with t := out.t } = true → p ∈ out.calls)) ∧
        (∀ (ox oy oz dx dy dz t : Vec4 F),
          (ox.isNaN || oy.isNaN || oz.isNaN || dx.isNaN || dy.isNaN || dz.isNaN) = false →
          ∀ (x : D) (cb : Nat → Vec4 F → D → Vec4 F × D × Bool), LowersT4 cb →
          let out := ffiIntersectMbvhPacket qnodes qindices ox oy oz dx dy dz t x cb fuel
          let pk := packetOf ox oy oz dx dy dz t
          out.code = .ok ∧ out.ending = .finished ∧ out.calls.Nodup ∧ (∀ p ∈ out.calls, p < n) ∧
          ∀ i, Usable (pk.originOf i) (pk.invOf i) → ∀ p < n, (ty.Faithful n ppl ∨
            ¬ T.Misplaces ((ffiBuilder (some boxes) n c (stride / 4) ppl).ctx env.order) indices p) →
          (boxes p).toAabb.Valid →
            quadTest4 (boxes p).toAabb { pk with t := out.t } i = true → p ∈ out.calls)) := by
  obtain ⟨b, T, hev, rfl, h1, S, hdep, hn1, hn2⟩ := created_serves ha hcall hn ho hcpu hnum
  obtain ⟨hl, _, hbx⟩ := ffiBuilder_facts (some boxes) n c (stride / 4) ppl
  obtain ⟨_, hslot, hsl⟩ := C46_handle_stable h₁ hev h₂ hcount
  obtain ⟨k1, k2⟩ := keep_foldl hkeep b
  have hsl := hsl k2 hn1 hn2
  rw [k1] at hsl hslot
  have hall : History .empty (es₁ ++ (⟨.create false (.ok b), .ok, some h⟩ :: es₂)) m₂ := h₁.append (.cons hev h₂)
  have hcnt : (mbvhHandles (es₁ ++ (⟨.create false (.ok b), .ok, some h⟩ :: es₂))).length < 2 ^ 32 := by
    rw [mbvhHandles_append, mbvhHandles_cons] at *
    simpa [mbvhHandles] using hcount'
  obtain ⟨hok, s, q, fuel₀, hs, hq, _, hms⟩ := C46_mbvh_handle_stable hall (Calls.createMbvh k h false a' ha' hm) h₃ hcnt
  rw [hs] at hslot
  have hval : s.val = b := by simpa using hslot
  rw [hval] at hq
  have hids := S.ids
  have hr := S.rounds
  rw [hl] at hids hr
  obtain ⟨q', e1, e2, _, hidx, hqn, hqle⟩ := construct_main b T S.compact (T.depth + 1 + fuel₀) (by omega)
  have : q' = q := by
    have := construct_mono b (show fuel₀ ≤ T.depth + 1 + fuel₀ by omega) hq
    rw [e1] at this; injection this
  subst this
  have hqi : q'.primIndices = b.primIndices := hidx
  refine ⟨hok, b.nodes, b.primIndices, q'.mNodes, q'.primIndices, T, hsl, S.compact.unfolds, hdep,
    hms hkeep' (by omega) (by rw [hqi]; exact hn2), ?_⟩
  intro hlim
  have hleaves : T.leaves ≤ n := by
    have h2 := T.rounds_eq _ S.compact.ranges
    have h3 := T.size_eq_leaves
    have h4 : (T.ids b.indices).length = n := by simpa using hids.length_eq
    change T.rounds = (T.ids b.indices).length + T.size at h2
    omega
  have need : T.toQuad.stackNeed ≤ 32 := by
    rcases hlim with hdep | hdep
    · refine C29_quad_depth _ ?_
      by_cases h1 : 1 ≤ T.depth
      · have := toQuad_depth' T h1; omega
      · have := toQuad_depth T; omega
    · have := toQuad_need T; omega
  have hqids : T.toQuad.ids q'.primIndices = T.ids b.indices := by rw [toQuad_ids, hidx]
  refine ⟨T.toQuad.rounds, fun fuel hf => ⟨fun o d hnan t x cb hcb => ?_, fun ox oy oz dx dy dz t hnan x cb hcb => ?_⟩⟩
  · obtain ⟨g1, g2, g3, g4⟩ := ffi_mbvh_complete q' T.toQuad e2 need o d hnan t x cb hcb fuel hf
    rw [hqids] at g3 g4
    refine ⟨g1, g2, S.nodup g3, fun p hp => ?_, fun hu p hp hK hv hhit => ?_⟩
    · have := List.count_pos_iff.1 (Nat.lt_of_lt_of_le (List.count_pos_iff.2 hp) (g3 p))
      exact List.mem_range.1 (hids.mem_iff.1 this)
    · have hb := (hbx boxes env.order rfl).2 p hp
      exact g4 p (hids.mem_iff.2 (List.mem_range.2 hp)) _ (by rw [hb]; exact hv) (S.box hu (by rw [hl]; exact hp))
        (by rw [hidx]; exact S.aboveQuad hu (by rw [hl]; exact hp) hK) (by rw [hb]; exact hhit)
  · obtain ⟨g1, g2, g3, g4⟩ := ffi_mbvh_packet_complete q' T.toQuad e2 need ox oy oz dx dy dz t hnan x cb hcb fuel hf
    rw [hqids] at g3 g4
    refine ⟨g1, g2, S.nodup g3, fun p hp => ?_, fun i hu p hp hK hv hhit => ?_⟩
    · have := List.count_pos_iff.1 (Nat.lt_of_lt_of_le (List.count_pos_iff.2 hp) (g3 p))
      exact List.mem_range.1 (hids.mem_iff.1 this)
    · have hb := (hbx boxes env.order rfl).2 p hp
      exact g4 i p (hids.mem_iff.2 (List.mem_range.2 hp)) _ (by rw [hb]; exact hv) (S.box hu (by rw [hl]; exact hp))
        (by rw [hidx]; exact S.aboveQuad hu (by rw [hl]; exact hp) hK) (by rw [hb]; exact hhit)

end lawful

/-! ### A client that meets the hypotheses -/

/-- The boxes of three cubes, as the caller stores them. -/
def clientBoxes (i : Nat) : RTAabb F32 := RTAabb.ofAabb (boxAt ((threeScene F32).boxes (List.range 3)) i)
/-- Their centers, three floats each (stride 12). -/
def clientCenters (k : Nat) : F32 :=
  if k = 0 ∨ k = 1 ∨ k = 2 then zero else if k = 3 then lit 4 0 else if k = 6 then lit 9 0 else zero
/-- The handle in what a call left behind. -/
def CallResult.handle : CallResult F → Option (ResultCode × Option Handle)
  | .returned _ c o => some (c, o)
  | _ => none

/-- `C80_strides_agree` and `C80_null_boxes` on the client's centers: records of 16 bytes with junk in the fourth float, no
boxes, two of the primitives arriving in the wrong order. -/
example : (∀ i < 3, ∀ k < 3, (fun j => if j % 4 = 3 then lit 77 0 else clientCenters (j / 4 * 3 + j % 4)) (4 * i + k) =
      clientCenters (3 * i + k)) ∧ [1, 0, 2].Perm (List.range 3) ∧
    ((Manager.empty : Manager F32).createBvh none 3
      (some fun j => if j % 4 = 3 then lit 77 0 else clientCenters (j / 4 * 3 + j % 4)) 16 4 .binnedSah false
      ⟨[1, 0, 2], List.replicate 10 0, 2, 5⟩ 7).handle = some (.ok, some ⟨0, 5, 3, some 7⟩) := by
  refine ⟨?_, by decide, by decide +kernel⟩
  intro i hi k hk
  simp only
  rw [if_neg (by omega), show (4 * i + k) / 4 * 3 + (4 * i + k) % 4 = 3 * i + k by omega]

/-- The client's `create_bvh` (both kinds of build) returns `Ok` and a handle with five nodes and three indices; then
`create_mbvh` on that handle returns `Ok`. -/
example : ∀ ty : FfiBvhType, ∃ m₁ : Manager F32, ∃ h : Handle,
    (Manager.empty : Manager F32).createBvh (some clientBoxes) 3 (some clientCenters) 12 4 ty false
      ⟨[0, 1, 2], List.replicate 10 0, 2, 5⟩ 7 = .returned m₁ .ok (some h) ∧
    h = ⟨0, 5, 3, some 7⟩ ∧ (Manager.empty : Manager F32).Free 7 ∧ ty.Faithful 3 4 ∧
    (∀ i < 3, (clientBoxes i).toAabb.Numeric ∧ (clientBoxes i).toAabb.Valid) ∧
    (List.range 3).map (fun p => ((clientBoxes p).toAabb.intersect (Ray.new (threeOrigin F32) (threeDir F32))).isSome) =
      [true, true, false] ∧
    ∃ m₃ h', m₁.createMbvh 5 h false 8 = some (m₃, .ok, some h') := by
  intro ty
  have hh : ((Manager.empty : Manager F32).createBvh (some clientBoxes) 3 (some clientCenters) 12 4 ty false
      ⟨[0, 1, 2], List.replicate 10 0, 2, 5⟩ 7).handle = some (.ok, some ⟨0, 5, 3, some 7⟩) ∧
      (match (Manager.empty : Manager F32).createBvh (some clientBoxes) 3 (some clientCenters) 12 4 ty false
        ⟨[0, 1, 2], List.replicate 10 0, 2, 5⟩ 7 with
       | .returned m _ _ => (m.createMbvh 5 ⟨0, 5, 3, some 7⟩ false 8).map (·.2)
       | _ => none) = some (.ok, some ⟨0, 1, 3, some 8⟩) := by
    cases ty <;> decide +kernel
  cases e : (Manager.empty : Manager F32).createBvh (some clientBoxes) 3 (some clientCenters) 12 4 ty false
      ⟨[0, 1, 2], List.replicate 10 0, 2, 5⟩ 7 with
  | returned m₁ c o =>
    rw [e] at hh
    obtain ⟨h1, h2⟩ := hh
    simp only [CallResult.handle, Option.some.injEq, Prod.mk.injEq] at h1
    obtain ⟨rfl, rfl⟩ := h1
    obtain ⟨⟨m₃, r⟩, e3, h3⟩ := Option.map_eq_some_iff.1 h2
    simp only at h3
    subst h3
    refine ⟨m₁, _, rfl, rfl, ⟨by simp [Manager.empty], by simp [Manager.empty]⟩, .inr (by omega), ?_, by decide +kernel,
      m₃, _, e3⟩
    unfold Aabb.Numeric Vec3.Numeric Num
    decide +kernel
  | panicked => rw [e] at hh; cases hh.1
  | undefined => rw [e] at hh; cases hh.1
  | running => rw [e] at hh; cases hh.1

/-- A callback that never stops and leaves `*t` alone meets `LowersT`; so does one that shortens it. -/
example : LowersT (fun _ t x => (t, x, false) : Nat → F32 → Nat → F32 × Nat × Bool) ∧
    LowersT4 (fun _ t x => (t, x, false) : Nat → Vec4 F32 → Nat → Vec4 F32 × Nat × Bool) :=
  ⟨fun _ _ _ => ⟨rfl, .inl rfl⟩, fun _ _ _ => ⟨rfl, fun _ => .inl rfl⟩⟩

end Rtbvh
