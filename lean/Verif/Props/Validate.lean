import Verif.Proofs.Validate
import Verif.Props.Binned
import Verif.Props.Traversal
/- Properties C08, C09 (binned), C19. -/
namespace Rtbvh
variable {F : Type}

/-- C08. On a well-formed BVH (fewer than 2^31 nodes and indices, the range of the `i32` links) `validate(k)` panics
exactly when some reachable id is not below `k`; otherwise it returns `true` exactly when every id below `k` is
reachable.  The recursion depth is that of the tree. -/
theorem C08_validate_exact (b : Bvh F) (T : BTree F) (h : b.Denotes T) (hn : b.nodes.length < 2 ^ 31)
    (hi : b.indices.length < 2 ^ 31) (fuel k : Nat) (hf : T.depth < fuel) :
    ((∀ id ∈ T.ids b.indices, id < k) →
      ∃ r, b.validate fuel k = some r ∧ (r = true ↔ ∀ p < k, p ∈ T.ids b.indices)) ∧
    ((∃ id ∈ T.ids b.indices, k ≤ id) → b.validate fuel k = none) := by
  have e := validate_eq h hn hi hf k
  constructor
  · intro hh
    rw [show b.indices = b.primIndices from rfl] at hh ⊢
    rw [if_pos hh] at e
    exact ⟨_, e, by simp⟩
  · rintro ⟨id, hid, hk⟩
    rw [show b.indices = b.primIndices from rfl] at hid
    rw [e, if_neg]
    intro hh; have := hh id hid; omega

example : (chainBvh 31).validate 40 1 = some true ∧ (chainBvh 31).validate 40 2 = some false ∧
    (chainBvh 31).validate 40 0 = none := by decide +kernel

variable [FloatOps F]

/-- C09 for the binned builder. -/
theorem C09_binned_validates (b : Builder F) (order ks : List Nat) (h : b.Legal order) (bvh : Bvh F)
    (e : b.constructBinnedSah order ks = .ok (some (some bvh))) (fuel : Nat) (hf : 64 < fuel) :
    bvh.validate fuel b.primitives.length = some true := by
  obtain ⟨hp, T, hU, hsz, hR, hids, hcnt⟩ := C03_binned_partition b order ks h bvh e
  have hd := (C05_binned_depth b order ks h).1 bvh T e hU
  have hlen := (C02_binned_completes b order h).2.2 ks bvh e
  have hsmall := h.small
  have hil : bvh.indices.length = b.primitives.length := by simpa using hp.length_eq
  obtain ⟨r, h1, h2⟩ := (C08_validate_exact bvh T ⟨hU, hR⟩ (by omega) (by omega) fuel
    b.primitives.length (by omega)).1 (by
      intro id hid
      rw [hids] at hid
      simpa using hp.mem_iff.1 hid)
  rw [h1]
  congr 1
  rw [h2]
  intro p hlt
  rw [hids]
  exact hp.mem_iff.2 (by simpa using hlt)

/-- Every node a refit writes has both link fields zero. -/
theorem refitLoop_links {indices : List Nat} {newAabbs : List (Aabb F)} (i : Nat) :
    ∀ (nodes nodes' : List (BvhNode F)), refitLoop indices newAabbs i nodes = some nodes' →
      nodes'.length = nodes.length ∧
      ∀ j nd, nodes'[j]? = some nd → (j < i → nd.bounds.extra1 = 0 ∧ nd.bounds.extra2 = 0) ∧
        (i ≤ j → nodes[j]? = some nd) := by
  have leafx : ∀ (k i lf : Nat) (a a' : Aabb F), refitLeaf indices newAabbs lf k i a = some a' →
      a'.extra1 = a.extra1 ∧ a'.extra2 = a.extra2 := by
    intro k
    induction k with
    | zero => intro i lf a a' h; simp [refitLeaf] at h; subst h; exact ⟨rfl, rfl⟩
    | succ k ih =>
      intro i lf a a' h
      rw [refitLeaf] at h
      split at h
      · cases h
      · split at h
        · cases h
        · rename_i bb _
          have := ih _ _ (a.growBB bb) a' h
          exact this
  have boxx : ∀ (nodes : List (BvhNode F)) (nd : BvhNode F) (a : Aabb F),
      refitBox nodes indices newAabbs nd = some a → a.extra1 = 0 ∧ a.extra2 = 0 := by
    intro nodes nd a h
    unfold refitBox at h
    split at h
    · cases h; exact ⟨rfl, rfl⟩
    · rw [Option.map_eq_some_iff] at h
      obtain ⟨a', h', rfl⟩ := h
      split at h'
      · exact leafx _ _ _ _ _ h'
      · split at h'
        · cases h'; exact ⟨rfl, rfl⟩
        · cases h'
  induction i with
  | zero =>
    intro nodes nodes' h
    simp [refitLoop] at h; subst h
    exact ⟨rfl, fun j nd hj => ⟨by omega, fun _ => hj⟩⟩
  | succ i ih =>
    intro nodes nodes' h
    rw [refitLoop] at h
    split at h
    · cases h
    · rename_i nd hnd
      split at h
      · cases h
      · rename_i a ha
        obtain ⟨hl, hh⟩ := ih _ _ h
        have hi := (List.getElem?_eq_some_iff.1 hnd).1
        refine ⟨by simpa using hl, fun j nd' hj => ?_⟩
        obtain ⟨h1, h2⟩ := hh j nd' hj
        constructor
        · intro hlt
          by_cases e : j = i
          · subst e
            have := h2 (Nat.le_refl _)
            rw [List.getElem?_set_self hi] at this
            cases this
            exact boxx _ _ _ ha
          · exact h1 (by omega)
        · intro hle
          have := h2 (by omega)
          rwa [List.getElem?_set_ne (by omega)] at this

/-- C19 is false for *every* BVH: whenever `refit` returns on a non-empty BVH, the tree it leaves is a single leaf
without primitives: `validate(k)` fails for every `k > 0` and no ray ever yields anything. -/
theorem C19_refit_destroys (b b' : Bvh F) (newAabbs : List (Aabb F)) (hne : b.nodes ≠ [])
    (h : b.refit newAabbs = some b') :
    (∃ bd, Unfolds b'.nodes 0 (.leaf bd 0 0)) ∧
    (∀ fuel k, 0 < fuel → 0 < k → b'.validate fuel k = some false) ∧
    (∀ cb ray fuel, 1 < fuel → b'.forIndices cb fuel ray = ⟨[], ray, .finished⟩) := by
  unfold Bvh.refit at h
  rw [Option.map_eq_some_iff] at h
  obtain ⟨nodes', hl, rfl⟩ := h
  obtain ⟨hlen, hx⟩ := refitLoop_links _ _ _ hl
  cases hn : nodes' with
  | nil => rw [hn] at hlen; exact absurd (List.length_eq_zero_iff.1 hlen.symm) hne
  | cons nd rest =>
    have hpos : 0 < b.nodes.length := List.length_pos_iff.2 hne
    obtain ⟨e1, e2⟩ := (hx 0 nd (by rw [hn]; rfl)).1 hpos
    refine ⟨⟨_, .leaf (first := 0) (count := 0) rfl e1 e2⟩, ?_, ?_⟩
    · intro fuel k hf hk
      obtain ⟨n, rfl⟩ : ∃ n, fuel = n + 1 := ⟨fuel - 1, by omega⟩
      obtain ⟨m, rfl⟩ : ∃ m, k = m + 1 := ⟨k - 1, by omega⟩
      simp [Bvh.validate, traverseCheck, BvhNode.getLeftFirst, BvhNode.isLeaf, e1, e2, BvhNode.countU, markLoop,
        List.replicate_succ]
    · intro cb ray fuel hf
      obtain ⟨n, rfl⟩ : ∃ n, fuel = n + 1 + 1 := ⟨fuel - 2, by omega⟩
      unfold Bvh.forIndices travNew
      simp only [List.isEmpty_cons, Bool.false_or]
      cases ray.hasNaN with
      | true => rfl
      | false => simp [drive, bvhIndexStep, atI32, BvhNode.countU, e1]

/-- C19 as stated (refit keeps the structure) fails already on a concrete valid BVH with one primitive. -/
theorem C19_refit_counterexample : ∃ (b b' : Bvh Rat) (newAabbs : List (Aabb Rat)),
    b.validate 64 1 = some true ∧ b.refit newAabbs = some b' ∧ b'.validate 64 1 = some false := by
  have h1 : (chainBvh 2).validate 64 1 = some true := by decide +kernel
  have h2 : ((chainBvh 2).refit [Aabb.full]).isSome = true := by decide +kernel
  obtain ⟨b', hb⟩ := Option.isSome_iff_exists.1 h2
  exact ⟨chainBvh 2, b', [Aabb.full], h1, hb,
    (C19_refit_destroys _ b' _ (by decide +kernel) hb).2.1 64 1 (by omega) (by omega)⟩

end Rtbvh
