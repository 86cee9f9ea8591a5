import Verif.Proofs.BuilderMain
import Verif.Model.Exact
/- Properties C02-C05 of the binned SAH builder. -/
namespace Rtbvh
variable {F : Type} [FloatOps F]

/-- C02. Binned SAH build completes under every thread schedule.  No schedule makes the build panic.  There is one
number `N ≤ 3n-2` of atomic steps such that every schedule of pending tasks has at most `N` steps, has built the
whole BVH exactly when it has `N` steps, and can be continued otherwise.  The BVH has an odd number of nodes, at
least 1 and at most `2n-1`. -/
theorem C02_binned_completes (b : Builder F) (order : List Nat) (h : b.Legal order) :
    (∀ ks, ∃ r, b.constructBinnedSah order ks = .ok (some r)) ∧
    (∃ N, N ≤ 3 * b.primitives.length - 2 ∧ ∀ ks, b.Schedule order ks →
      ks.length ≤ N ∧
      (ks.length < N → b.constructBinnedSah order ks = .ok (some none) ∧
        ∃ s, binnedExec (b.ctx order) ks (binnedInit (b.ctx order)) = some s ∧ 0 < s.pending.length) ∧
      (ks.length = N → ∃ bvh, b.constructBinnedSah order ks = .ok (some (some bvh)))) ∧
    (∀ ks bvh, b.constructBinnedSah order ks = .ok (some (some bvh)) →
      bvh.nodes.length % 2 = 1 ∧ 1 ≤ bvh.nodes.length ∧ bvh.nodes.length ≤ 2 * b.primitives.length - 1) := by
  obtain ⟨T, P, _, hT, H⟩ := builder_main h
  have hl : T.leaves ≤ b.primitives.length := by simpa using hT.leaves
  have hst := T.steps_eq
  refine ⟨fun ks => ?_, ⟨T.steps, by omega, fun ks hks => ?_⟩, fun ks bvh e => ?_⟩
  · obtain ⟨s, _, _, h3, h4⟩ := H ks
    by_cases hp : s.pending = []
    · exact ⟨_, (h3 hp).1⟩
    · exact ⟨_, h4 hp⟩
  · obtain ⟨s, h1, h2, h3, h4⟩ := H ks
    obtain ⟨hle, hiff⟩ := h2 hks
    refine ⟨hle, fun hlt => ?_, fun heq => ⟨_, (h3 (hiff.2 heq)).1⟩⟩
    have hp : s.pending ≠ [] := fun hp => by have := hiff.1 hp; omega
    exact ⟨h4 hp, s, h1, List.length_pos_iff.2 hp⟩
  · obtain ⟨s, _, _, h3, h4⟩ := H ks
    have hp : s.pending = [] := by
      by_cases hp : s.pending = []
      · exact hp
      · rw [h4 hp] at e; cases e
    obtain ⟨e', _, _, hn⟩ := h3 hp
    rw [e'] at e; cases e
    have := hT.size
    omega

/-- C03. Every primitive is in exactly one leaf of the returned tree, exactly once: the index array is a permutation
of all ids, and the leaf ranges of the tree, read from left to right, are the whole index array. -/
theorem C03_binned_partition (b : Builder F) (order ks : List Nat) (h : b.Legal order) (bvh : Bvh F)
    (e : b.constructBinnedSah order ks = .ok (some (some bvh))) :
    bvh.indices.Perm (List.range b.primitives.length) ∧
    ∃ T, Unfolds bvh.nodes 0 T ∧ T.size = bvh.nodes.length ∧ T.RangesIn bvh.indices ∧
      T.ids bvh.indices = bvh.indices ∧
      ∀ p < b.primitives.length, (T.ids bvh.indices).count p = 1 := by
  obtain ⟨T, P, _, hT, H⟩ := builder_main h
  obtain ⟨s, _, _, h3, h4⟩ := H ks
  have hp : s.pending = [] := by
    by_cases hp : s.pending = []
    · exact hp
    · rw [h4 hp] at e; cases e
  obtain ⟨e', hP, hU, hn⟩ := h3 hp
  rw [e'] at e; cases e
  have hids := hT.ids [] [] rfl
  simp only [List.nil_append, List.append_nil] at hids
  refine ⟨by simpa [Bvh.indices, hP] using hT.perm, T, hU, hn.symm, ?_, ?_, ?_⟩
  · apply hT.rangesIn
    have := hT.perm.length_eq
    simp [Bvh.indices, hP] at *
    omega
  · simpa [Bvh.indices, hP] using hids
  · intro p hp
    simp only [Bvh.indices, hP, hids]
    rw [hT.perm.count_eq]
    rw [List.nodup_range.count, if_pos (by simpa using hp)]

/-- C03: no leaf is empty, and there are at most as many leaves as primitives. -/
theorem C03_no_empty_leaf (b : Builder F) (order ks : List Nat) (h : b.Legal order) (bvh : Bvh F)
    (e : b.constructBinnedSah order ks = .ok (some (some bvh))) (T : BTree F) (hU : Unfolds bvh.nodes 0 T) :
    (∀ f c, (f, c) ∈ T.ranges → 0 < c ∧ f + c ≤ b.primitives.length) ∧ T.leaves ≤ b.primitives.length := by
  obtain ⟨T', P, _, hT, H⟩ := builder_main h
  obtain ⟨s, _, _, h3, h4⟩ := H ks
  have hp : s.pending = [] := by
    by_cases hp : s.pending = []
    · exact hp
    · rw [h4 hp] at e; cases e
  obtain ⟨e', hP, hU', hn⟩ := h3 hp
  rw [e'] at e; cases e
  have := hU.det hU'; subst this
  refine ⟨fun f c hm => ⟨hT.nonempty _ hm, ?_⟩, by simpa using hT.leaves⟩
  have hR := hT.rangesIn (List.range b.primitives.length) (by simp)
  have hin : ∀ T : BTree F, T.RangesIn (List.range b.primitives.length) → ∀ f c, (f, c) ∈ T.ranges →
      f + c ≤ b.primitives.length := by
    intro T
    induction T with
    | leaf b f c =>
      intro hr f' c' hm
      simp only [BTree.ranges, List.mem_singleton, Prod.mk.injEq] at hm
      obtain ⟨rfl, rfl⟩ := hm
      simpa [BTree.RangesIn] using hr
    | node b l r hl hr =>
      intro hh f c hm
      simp only [BTree.ranges, List.mem_append] at hm
      exact hm.elim (hl hh.1 f c) (hr hh.2 f c)
  exact hin T hR f c hm

/-- C04. Two complete builds of one scene under any two schedules (same boxes) return the same index array and the
same tree. -/
theorem C04_binned_schedule_independent (b : Builder F) (order ks₁ ks₂ : List Nat) (h : b.Legal order)
    (bvh₁ bvh₂ : Bvh F) (e₁ : b.constructBinnedSah order ks₁ = .ok (some (some bvh₁)))
    (e₂ : b.constructBinnedSah order ks₂ = .ok (some (some bvh₂))) :
    bvh₁.indices = bvh₂.indices ∧ bvh₁.nodes.length = bvh₂.nodes.length ∧
      ∃ T, Unfolds bvh₁.nodes 0 T ∧ Unfolds bvh₂.nodes 0 T := by
  obtain ⟨T, P, _, hT, H⟩ := builder_main h
  have key : ∀ ks bvh, b.constructBinnedSah order ks = .ok (some (some bvh)) →
      bvh.primIndices = P ∧ Unfolds bvh.nodes 0 T ∧ bvh.nodes.length = T.size := by
    intro ks bvh e
    obtain ⟨s, _, _, h3, h4⟩ := H ks
    have hp : s.pending = [] := by
      by_cases hp : s.pending = []
      · exact hp
      · rw [h4 hp] at e; cases e
    obtain ⟨e', hP, hU, hn⟩ := h3 hp
    rw [e'] at e; cases e
    exact ⟨hP, hU, hn⟩
  obtain ⟨a1, a2, a3⟩ := key _ _ e₁
  obtain ⟨b1, b2, b3⟩ := key _ _ e₂
  exact ⟨by simp [Bvh.indices, a1, b1], by omega, T, a2, b2⟩

/-- C05. Depth at most 64: for the tree of the finished BVH and for every task that ever gets created. -/
theorem C05_binned_depth (b : Builder F) (order ks : List Nat) (h : b.Legal order) :
    (∀ bvh T, b.constructBinnedSah order ks = .ok (some (some bvh)) → Unfolds bvh.nodes 0 T → T.depth ≤ 64) ∧
    (∃ s, binnedExec (b.ctx order) ks (binnedInit (b.ctx order)) = some s ∧ ∀ t ∈ s.pending, t.1.depth ≤ 64) := by
  refine ⟨fun bvh T e hU => ?_, builder_tasks_depth h ks⟩
  obtain ⟨T', P, _, hT, H⟩ := builder_main h
  obtain ⟨s, _, _, h3, h4⟩ := H ks
  have hp : s.pending = [] := by
    by_cases hp : s.pending = []
    · exact hp
    · rw [h4 hp] at e; cases e
  obtain ⟨e', hP, hU', hn⟩ := h3 hp
  rw [e'] at e; cases e
  rw [hU.det hU']
  exact hT.depth

/-! Non-vacuity: a concrete scene of four separated primitives, in exact arithmetic, and a complete schedule. -/
/-- A small cube around `(x, 0, 0)`. -/
def demoPrim (x : Rat) : Prim Rat :=
  { center := ⟨x, 0, 0⟩, aabb := { min := ⟨x - 1, -1, -1⟩, extra1 := 0, max := ⟨x + 1, 1, 1⟩, extra2 := 0 } }
/-- Four cubes on a line. -/
def demoBuilder : Builder Rat :=
  { aabbs := none, primitives := [demoPrim 20, demoPrim 0, demoPrim 30, demoPrim 10], primitivesPerLeaf := none }

theorem demo_legal : demoBuilder.Legal [0, 1, 2, 3] :=
  ⟨by simp [demoBuilder], by simp [demoBuilder], by simp [demoBuilder]; decide, by simp [demoBuilder]⟩

/-- The build of the demo scene really completes, with 7 nodes. -/
theorem demo_builds : (built (demoBuilder.constructBinnedSah [0, 1, 2, 3] (List.replicate 10 0))).map
    (fun bvh => (bvh.nodes.length, bvh.indices)) = some (7, [1, 3, 0, 2]) := by decide +kernel

example : ∃ bvh, demoBuilder.constructBinnedSah [0, 1, 2, 3] (List.replicate 10 0) = .ok (some (some bvh)) ∧
    bvh.nodes.length = 7 ∧ bvh.indices = [1, 3, 0, 2] := by
  have h := demo_builds
  cases e : built (demoBuilder.constructBinnedSah [0, 1, 2, 3] (List.replicate 10 0)) with
  | none => rw [e] at h; simp at h
  | some bvh => rw [e] at h; simp at h; exact ⟨bvh, built_some e, h⟩

end Rtbvh
