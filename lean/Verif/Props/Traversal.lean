import Verif.Proofs.PrimIter
import Verif.Model.Exact
/- Properties C20, C22, C24, C25, C54 (binary BVH traversal). -/
namespace Rtbvh
variable {F : Type} [FloatOps F]

theorem intersect_clean (a : Aabb F) (r : Ray F) : a.clean.intersect r = a.intersect r := rfl
theorem intersect4_clean (a : Aabb F) (r : RayPacket4 F) : a.clean.intersect4 r = a.intersect4 r := rfl

/-- C20 (general caller). For every well-formed BVH of depth at most 31, every NaN-free ray and every caller (who may
change the ray in any way and may break), the `for` loop over `traverse_iter_indices` terminates and does exactly
what the recursive ordered traversal of the tree does: same items, same final ray, no panic. -/
theorem C20_ray_traversal_refines (b : Bvh F) (T : BTree F) (h : b.Denotes T) (hd : T.depth ≤ 31) (ray : Ray F)
    (hn : ray.hasNaN = false) (cb : Ray F → Nat → Ray F × Bool) (fuel : Nat) (hf : T.rounds < fuel) :
    b.forIndices cb fuel ray = T.visit (BTree.rangeIds b.indices) Aabb.intersect closerRay cb ray := by
  have hne : b.nodes.isEmpty = false := by
    obtain ⟨nd, e, _⟩ := h.unfolds.root
    cases hb : b.nodes with
    | nil => rw [hb] at e; simp at e
    | cons => rfl
  unfold Bvh.forIndices travNew
  rw [hne, hn]
  exact drive_fresh bvhIndexStep_spec intersect_clean cb h.unfolds
    (BTree.AllLeaves.of_rangesIn h.ranges fun f c hfc => bvhIndexStep_leaf hfc) ray hd hf

/-- C20. For a caller that changes only `ray.t` and never breaks, the loop terminates and yields, each as often as it
occurs in a leaf, exactly the ids of the leaves all of whose ancestors-or-self below the root pass the ray/box
test. -/
theorem C20_ray_traversal_exact (b : Bvh F) (T : BTree F) (h : b.Denotes T) (hd : T.depth ≤ 31) (ray : Ray F)
    (hn : ray.hasNaN = false) (cb : Ray F → Nat → Ray F × Bool)
    (hcb : ∀ r id, ∃ t, cb r id = ({ r with t := t }, false)) (fuel : Nat) (hf : T.rounds < fuel) :
    (b.forIndices cb fuel ray).ending = .finished ∧
    (∃ t, (b.forIndices cb fuel ray).ray = { ray with t := t }) ∧
    (b.forIndices cb fuel ray).items.Perm (T.reach b.indices (fun a => (a.intersect ray).isSome)) := by
  rw [C20_ray_traversal_refines b T h hd ray hn cb fuel hf]
  have hinv : ∀ (r : Ray F) (x : Nat), (∃ t, r = { ray with t := t }) → ∃ t, (cb r x).1 = { ray with t := t } := by
    rintro r x ⟨t, rfl⟩
    obtain ⟨t', e⟩ := hcb { ray with t := t } x
    exact ⟨t', by rw [e]⟩
  have hfin := visit_finished (items := BTree.rangeIds b.indices) (hit := Aabb.intersect) (closer := closerRay)
    (cb := cb) (fun r x => by obtain ⟨t, e⟩ := hcb r x; rw [e]) T ray
  refine ⟨hfin, visit_inv hinv T ray ⟨ray.t, rfl⟩, ?_⟩
  rw [List.perm_iff_count]
  intro p
  refine Nat.le_antisymm ?_ ?_
  · refine visit_count_le hinv ?_ p T ray ⟨ray.t, rfl⟩
    rintro a r ⟨t, rfl⟩ hs; exact hs
  · refine visit_count_ge hinv ?_ p T ray ⟨ray.t, rfl⟩ hfin
    rintro a r ⟨t, rfl⟩ hs; exact hs

/-- C20, packets (general caller). The same refinement for packet traversal. -/
theorem C23_packet_traversal_refines (b : Bvh F) (T : BTree F) (h : b.Denotes T) (hd : T.depth ≤ 31)
    (p : RayPacket4 F) (hn : p.hasNaN = false) (cb : RayPacket4 F → Nat → RayPacket4 F × Bool) (fuel : Nat)
    (hf : T.rounds < fuel) :
    b.forIndicesPacket cb fuel p = T.visit (BTree.rangeIds b.indices) Aabb.intersect4 closerPacket cb p := by
  have hne : b.nodes.isEmpty = false := by
    obtain ⟨nd, e, _⟩ := h.unfolds.root
    cases hb : b.nodes with
    | nil => rw [hb] at e; simp at e
    | cons => rfl
  unfold Bvh.forIndicesPacket travNew
  rw [hne, hn]
  exact drive_fresh bvhIndexStep_spec intersect4_clean cb h.unfolds
    (BTree.AllLeaves.of_rangesIn h.ranges fun f c hfc => bvhIndexStep_leaf hfc) p hd hf

/-- C22 (safe part). On a well-formed BVH of depth at most 31 neither kind of traversal overflows its stack, panics or
runs forever, whatever the rays and callers. -/
theorem C22_stack_safe (b : Bvh F) (T : BTree F) (h : b.Denotes T) (hd : T.depth ≤ 31) (fuel : Nat)
    (hf : T.rounds < fuel) :
    (∀ ray cb, (b.forIndices cb fuel ray).ending = .finished ∨ (b.forIndices cb fuel ray).ending = .stopped) ∧
    (∀ p cb, (b.forIndicesPacket cb fuel p).ending = .finished ∨ (b.forIndicesPacket cb fuel p).ending = .stopped) := by
  have dead : ∀ {σ : Type} (step : Trav σ → Step σ Nat) (hs : ∀ r, step ⟨r, 0, []⟩ = .done) cb (r : σ),
      (drive step cb fuel ⟨r, 0, []⟩).ending = .finished := by
    intro σ step hs cb r
    cases fuel with
    | zero => omega
    | succ n => simp [drive, hs]
  constructor
  · intro ray cb
    by_cases hn : ray.hasNaN = false
    · rw [C20_ray_traversal_refines b T h hd ray hn cb fuel hf]; exact visit_ending T ray
    · left
      unfold Bvh.forIndices travNew
      rw [Bool.not_eq_false] at hn
      rw [hn, Bool.or_true]
      exact dead _ (fun _ => rfl) _ _
  · intro p cb
    by_cases hn : p.hasNaN = false
    · rw [C23_packet_traversal_refines b T h hd p hn cb fuel hf]; exact visit_ending T p
    · left
      unfold Bvh.forIndicesPacket travNew
      rw [Bool.not_eq_false] at hn
      rw [hn, Bool.or_true]
      exact dead _ (fun _ => rfl) _ _

/-! The bound is tight: a chain of depth 32. -/
/-- Node `i` of the chain with `k` interior nodes: interior nodes at 0, 1, 3, 5, ..., each with a leaf sibling. -/
def chainNode (k : Nat) (i : Nat) : BvhNode Rat :=
  let box : Aabb Rat := { min := ⟨-1, -1, -1⟩, extra1 := -1, max := ⟨1, 1, 1⟩, extra2 := -1 }
  if i < 2 * k - 1 ∧ (i = 0 ∨ i % 2 = 1) then { bounds := { box with extra2 := if i = 0 then 1 else i + 2 } }
  else { bounds := { box with extra1 := 1, extra2 := 0 } }
/-- A BVH of depth `k` with one primitive. -/
def chainBvh (k : Nat) : Bvh Rat :=
  { nodes := (List.range (2 * k + 1)).map (chainNode k), primIndices := [0], buildType := .binnedSAH }
/-- A ray through all boxes of the chain. -/
def chainRay : Ray Rat := Ray.new ⟨-5, 1/2, 1/4⟩ ⟨1, 1/8, 1/16⟩

/-- C22 (tightness). There is a BVH of depth 32 on which ray traversal panics (the write to entry 32 of the stack),
and the same shape one level shallower is traversed completely. -/
theorem C22_stack_tight :
    ((chainBvh 32).forIndices (fun r _ => (r, false)) 1000 chainRay).ending = .panicked ∧
    ((chainBvh 31).forIndices (fun r _ => (r, false)) 1000 chainRay).ending = .finished := by
  decide +kernel

/-- The tree of the chain. -/
def chainTree : Nat → BTree Rat
  | 0 => .leaf { min := ⟨-1, -1, -1⟩, extra1 := 0, max := ⟨1, 1, 1⟩, extra2 := 0 } 0 1
  | k + 1 => .node { min := ⟨-1, -1, -1⟩, extra1 := 0, max := ⟨1, 1, 1⟩, extra2 := 0 } (chainTree k)
    (.leaf { min := ⟨-1, -1, -1⟩, extra1 := 0, max := ⟨1, 1, 1⟩, extra2 := 0 } 0 1)
theorem chainTree_depth (k : Nat) : (chainTree k).depth = k := by
  induction k with
  | zero => rfl
  | succ k ih => simp [chainTree, BTree.depth, ih]

/-- Read off the tree of a node array (test helper). -/
def unfold? (nodes : List (BvhNode F)) : (fuel i : Nat) → Option (BTree F)
  | 0, _ => none
  | fuel + 1, i =>
    match nodes[i]? with
    | none => none
    | some nd =>
      if nd.bounds.extra1 ≥ 0 then
        if nd.bounds.extra2 ≥ 0 then some (.leaf nd.bounds.clean nd.bounds.extra2.toNat nd.bounds.extra1.toNat) else none
      else if nd.bounds.extra2 ≥ 0 then
        match unfold? nodes fuel nd.bounds.extra2.toNat, unfold? nodes fuel (nd.bounds.extra2.toNat + 1) with
        | some l, some r => some (.node nd.bounds.clean l r)
        | _, _ => none
      else none

omit [FloatOps F] in
theorem unfold?_sound {nodes : List (BvhNode F)} {fuel i : Nat} {T : BTree F} (h : unfold? nodes fuel i = some T) :
    Unfolds nodes i T := by
  induction fuel generalizing i T with
  | zero => simp [unfold?] at h
  | succ fuel ih =>
    unfold unfold? at h
    split at h
    · cases h
    · rename_i nd hnd
      split at h
      · split at h
        · cases h; exact .leaf hnd (by omega) (by omega)
        · cases h
      · split at h
        · split at h
          · rename_i l r hl hr
            cases h
            exact .node hnd (by omega) (by omega) (ih hl) (ih hr)
          · cases h
        · cases h

/-- Non-vacuity and the depth claim of `C22_stack_tight`: the chains are well-formed BVHs of depth 32 and 31, within
the builders' depth limit of 64. -/
theorem chain_denotes : (chainBvh 32).Denotes (chainTree 32) ∧ (chainBvh 31).Denotes (chainTree 31) := by
  have r : ∀ k, (chainTree k).RangesIn [0] := by
    intro k
    induction k with
    | zero => simp [chainTree, BTree.RangesIn]
    | succ k ih => exact ⟨ih, by simp [BTree.RangesIn]⟩
  refine ⟨⟨unfold?_sound (fuel := 40) ?_, r _⟩, ⟨unfold?_sound (fuel := 40) ?_, r _⟩⟩ <;> decide +kernel

/-- C22, summary of tightness in one statement. -/
theorem C22_not_all_traversable : ∃ (b : Bvh Rat) (T : BTree Rat) (ray : Ray Rat), b.Denotes T ∧ T.depth = 32 ∧
    ray.hasNaN = false ∧ ∀ fuel ≥ 1000, (b.forIndices (fun r _ => (r, false)) fuel ray).ending = .panicked := by
  refine ⟨chainBvh 32, chainTree 32, chainRay, chain_denotes.1, chainTree_depth 32, rfl, ?_⟩
  intro fuel hf
  have mono : ∀ {σ ι : Type} (step : Trav σ → Step σ ι) cb (n m : Nat) (t : Trav σ),
      (drive step cb n t).ending = .panicked → (drive step cb (n + m) t).ending = .panicked := by
    intro σ ι step cb n
    induction n with
    | zero => intro m t h; simp [drive] at h
    | succ n ih =>
      intro m t h
      rw [show n + 1 + m = (n + m) + 1 by omega]
      simp only [drive] at h ⊢
      split at h
      · simp at h
      · rfl
      · exact ih _ _ h
      · rename_i x t' _
        cases hc : cb t'.ray x with
        | mk r s =>
          rw [hc] at h
          cases s with
          | true => exact h
          | false => exact ih m { t' with ray := r } h
  obtain ⟨m, rfl⟩ := Nat.le.dest hf
  exact mono _ _ _ _ _ C22_stack_tight.1

/-- C24. If the primitive slice covers every stored id, the primitive iterators yield exactly `primitives[id]` for the
ids the index iterators yield to the corresponding caller, leave the same ray and end the same way; for rays and
packets, whatever the caller does, also on ill-formed BVHs. -/
theorem C24_prims_agree {P : Type} (b : Bvh F) (prims : List P) (hne : prims ≠ [])
    (hcov : ∀ id ∈ b.indices, id < prims.length) (fuel : Nat) :
    (∀ (cb : Ray F → P → Ray F × Bool) (cb' : Ray F → Nat → Ray F × Bool) (ray : Ray F),
      (∀ r id p, prims[id]? = some p → cb' r id = cb r p) →
      (b.forPrims prims cb fuel ray).items.map some = (b.forIndices cb' fuel ray).items.map (fun id => prims[id]?) ∧
      (b.forPrims prims cb fuel ray).ray = (b.forIndices cb' fuel ray).ray ∧
      (b.forPrims prims cb fuel ray).ending = (b.forIndices cb' fuel ray).ending) ∧
    (∀ (cb : RayPacket4 F → P → RayPacket4 F × Bool) (cb' : RayPacket4 F → Nat → RayPacket4 F × Bool)
      (pk : RayPacket4 F), (∀ r id p, prims[id]? = some p → cb' r id = cb r p) →
      (b.forPrimsPacket prims cb fuel pk).items.map some =
        (b.forIndicesPacket cb' fuel pk).items.map (fun id => prims[id]?) ∧
      (b.forPrimsPacket prims cb fuel pk).ray = (b.forIndicesPacket cb' fuel pk).ray ∧
      (b.forPrimsPacket prims cb fuel pk).ending = (b.forIndicesPacket cb' fuel pk).ending) := by
  have e : prims.isEmpty = false := by cases prims with
    | nil => exact absurd rfl hne
    | cons => rfl
  constructor
  · intro cb cb' ray hcb
    unfold Bvh.forPrims Bvh.forIndices
    rw [e, Bool.or_false]
    exact drive_sim (bvhPrimStep_sim hcov) cb cb' hcb fuel _
  · intro cb cb' pk hcb
    unfold Bvh.forPrimsPacket Bvh.forIndicesPacket
    rw [e, Bool.or_false]
    exact drive_sim (bvhPrimStep_sim hcov) cb cb' hcb fuel _

example : ∃ (b : Bvh Rat) (prims : List String), prims ≠ [] ∧ (∀ id ∈ b.indices, id < prims.length) ∧
    (b.forPrims prims (fun r _ => (r, false)) 1000 chainRay).items = ["a", "a", "a"] :=
  ⟨chainBvh 2, ["a", "b"], by simp, by simp [chainBvh, Bvh.indices], by decide +kernel⟩

/-- C25 is false: a BVH whose only leaf stores an id beyond the primitive slice makes the iteration over primitives
run forever (no panic, no result, however many rounds it is given), for every NaN-free ray and every caller. -/
theorem C25_prims_diverge (ray : Ray F) (hn : ray.hasNaN = false) (cb : Ray F → Unit → Ray F × Bool) :
    let b : Bvh F := { nodes := [{ bounds := { Aabb.new with extra1 := 1, extra2 := 0 } }], primIndices := [5]
                       buildType := .binnedSAH }
    (∃ T, b.Denotes T) ∧ ∀ fuel, (b.forPrims [()] cb fuel ray).ending = .outOfFuel := by
  refine ⟨⟨.leaf _ 0 1, .leaf (first := 0) (count := 1) rfl rfl rfl, by simp [BTree.RangesIn]⟩, ?_⟩
  intro fuel
  unfold Bvh.forPrims travNew
  rw [hn]
  induction fuel with
  | zero => rfl
  | succ n ih => exact ih

/-- C25, what holds: the index iterators terminate on every well-formed BVH of depth at most 31, and the primitive
iterators do when the slice covers the stored ids.  Missing: termination of the binary primitive iterators on short
slices, which is false (`C25_prims_diverge`). -/
theorem C25_prims_terminate_partial {P : Type} (b : Bvh F) (T : BTree F) (h : b.Denotes T) (hd : T.depth ≤ 31)
    (prims : List P) (hcov : prims = [] ∨ ∀ id ∈ b.indices, id < prims.length) (fuel : Nat) (hf : T.rounds < fuel)
    (cb : Ray F → P → Ray F × Bool) (ray : Ray F) :
    (b.forPrims prims cb fuel ray).ending = .finished ∨ (b.forPrims prims cb fuel ray).ending = .stopped := by
  by_cases hne : prims = []
  · left
    subst hne
    unfold Bvh.forPrims travNew
    obtain ⟨n, rfl⟩ : ∃ n, fuel = n + 1 := ⟨fuel - 1, by omega⟩
    simp [drive, bvhPrimStep]
  · have hcov := hcov.resolve_left hne
    have := (C24_prims_agree b prims hne hcov fuel).1 cb
      (fun r id => match prims[id]? with | some p => cb r p | none => (r, false)) ray
      (by intro r id p hp; simp [hp])
    rw [this.2.2]
    exact (C22_stack_safe b T h hd fuel hf).1 _ _

/-- C54 (binary BVH). The default BVH has the empty box as bounds and yields nothing to anyone; and on any BVH an
exhausted iterator stays exhausted. -/
theorem C54_empty_bvh {P : Type} (prims : List P) (fuel : Nat) (hf : 0 < fuel) :
    (Bvh.default : Bvh F).bounds = Aabb.empty ∧
    (∀ cb ray, (Bvh.default : Bvh F).forIndices cb fuel ray = ⟨[], ray, .finished⟩) ∧
    (∀ cb p, (Bvh.default : Bvh F).forIndicesPacket cb fuel p = ⟨[], p, .finished⟩) ∧
    (∀ cb ray, (Bvh.default : Bvh F).forPrims prims cb fuel ray = ⟨[], ray, .finished⟩) ∧
    (∀ cb p, (Bvh.default : Bvh F).forPrimsPacket prims cb fuel p = ⟨[], p, .finished⟩) := by
  obtain ⟨n, rfl⟩ : ∃ n, fuel = n + 1 := ⟨fuel - 1, by omega⟩
  exact ⟨rfl, fun _ _ => rfl, fun _ _ => rfl, fun _ _ => rfl, fun _ _ => rfl⟩

omit [FloatOps F] in
/-- C54. Once a step answers "done", it answers "done" for that iterator state again. -/
theorem C54_fused {σ τ P : Type} (nodes : List (BvhNode F)) (indices : List Nat) (prims : List P)
    (hit : Aabb F → σ → Option τ) (closer : τ → τ → Bool) (t : Trav σ) (ray' : σ) :
    (bvhIndexStep nodes indices hit closer t = .done →
      bvhIndexStep nodes indices hit closer { t with ray := ray' } = .done) ∧
    (bvhPrimStep nodes indices prims hit closer t = .done →
      bvhPrimStep nodes indices prims hit closer { t with ray := ray' } = .done) := by
  constructor
  · intro h
    cases hst : t.stack with
    | nil => simp [bvhIndexStep]
    | cons a r =>
      exfalso
      unfold bvhIndexStep at h
      rw [hst] at h
      simp only at h
      (repeat' split at h) <;> cases h
  · intro h
    cases hst : t.stack with
    | nil => simp [bvhPrimStep]
    | cons a r =>
      exfalso
      unfold bvhPrimStep at h
      rw [hst] at h
      simp only at h
      (repeat' split at h) <;> cases h

end Rtbvh
