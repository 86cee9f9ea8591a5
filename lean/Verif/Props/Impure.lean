import Verif.Proofs.Impure
import Verif.Props.Validate
import Verif.Props.BinnedBounds
/- Property C101: the binned build is safe and structurally right whatever `center()` answers, call by call. -/
namespace Rtbvh
open Aabb FloatOps
variable {F : Type} [FloatOps F]

omit [FloatOps F] in
theorem partitionLoop_congr {f g : Nat → Bool} (k : Nat) : ∀ (i c : Nat) (l : List Nat), (∀ a ∈ l, f a = g a) →
    partitionLoop f k i c l = partitionLoop g k i c l := by
  induction k with
  | zero => intros; rfl
  | succ k ih =>
    intro i c l h
    unfold partitionLoop
    cases e : l[i]? with
    | none => rfl
    | some a =>
      have ha := h a (List.mem_of_getElem? e)
      simp only [ha]
      split
      · cases e' : swapAt l i c with
        | none => rfl
        | some l' =>
          refine ih _ _ _ fun x hx => h x ?_
          unfold swapAt at e'
          split at e'
          · rename_i x' y' hx' hy'
            cases e'
            have := List.mem_or_eq_of_mem_set hx
            rcases this with h1 | rfl
            · rcases List.mem_or_eq_of_mem_set h1 with h2 | rfl
              · exact h2
              · first | exact List.mem_of_getElem? hy' | exact List.mem_of_getElem? hx'
            · first | exact List.mem_of_getElem? hx' | exact List.mem_of_getElem? hy'
          · cases e'
      · exact ih _ _ _ h

omit [FloatOps F] in
theorem partition_congr {f g : Nat → Bool} {l : List Nat} (h : ∀ a ∈ l, f a = g a) :
    partition l 0 l.length f = partition l 0 l.length g := partitionLoop_congr _ _ _ _ h

/-- `es` is a possible history of the binned build: every step is made by a task that is pending then (what `center()`
answers is free). -/
def Builder.WithHistory (b : Builder F) (order : List Nat) (es : List (Nat × Answers F)) : Prop :=
  LegalHistory (b.ctx order) es (withInit (b.ctx order))

theorem Builder.constructWith_eq {b : Builder F} {order : List Nat} (h : b.Legal order) (es : List (Nat × Answers F)) :
    b.constructBinnedWith order es = .ok (match withExec (b.ctx order) es (withInit (b.ctx order)) with
      | none => none
      | some s => if s.pending.isEmpty then some (some (withFinish s)) else some none) := by
  have hs := Builder.setting h
  unfold Builder.constructBinnedWith
  rw [Builder.check_legal h]
  dsimp only
  congr 1
  refine if_neg ?_
  have h1 := hs.aabbs
  have h2 := hs.centers
  have h3 := hs.pos
  show ¬((b.ctx order).centers.length ≠ (b.ctx order).aabbs.length ∨ (b.ctx order).centers = [] ∨
    (b.ctx order).aabbs = [])
  rintro (hh | hh | hh)
  · omega
  · rw [hh] at h2; simp at h2; omega
  · rw [hh] at h1; simp at h1; omega

/-- Everything about one history at once. -/
theorem builder_with_main {b : Builder F} {order : List Nat} (h : b.Legal order) (es : List (Nat × Answers F)) :
    ∃ s, withExec (b.ctx order) es (withInit (b.ctx order)) = some s ∧
      (b.WithHistory order es → es.length ≤ 3 * b.primitives.length - 2) ∧
      (s.pending ≠ [] → b.constructBinnedWith order es = .ok (some none)) ∧
      (s.pending = [] → ∃ bvh T, b.constructBinnedWith order es = .ok (some (some bvh)) ∧
        bvh.indices.Perm (List.range b.primitives.length) ∧ Unfolds bvh.nodes 0 T ∧ bvh.nodes.length = T.size ∧
        TreeOf T bvh.indices bvh.indices 0 64 ∧
        (T.bounds = (pad (Aabb.unionOfList (b.boxes order))).clean ∨
          T.bounds = (pad (pad (Aabb.unionOfList (b.boxes order)))).clean)) := by
  obtain ⟨s, e, hL, hF⟩ := with_main (Builder.setting h) h.small es
  refine ⟨s, e, hL, fun hp => ?_, fun hp => ?_⟩
  · rw [Builder.constructWith_eq h, e]
    simp [hp]
  · obtain ⟨h1, T, h2, h3, h4, h5⟩ := hF hp
    refine ⟨withFinish s, T, ?_, h1, h2, h3, h4, h5⟩
    rw [Builder.constructWith_eq h, e]
    simp [hp]

theorem with_built {b : Builder F} {order : List Nat} (h : b.Legal order) {es : List (Nat × Answers F)} {bvh : Bvh F}
    (e : b.constructBinnedWith order es = .ok (some (some bvh))) :
    ∃ T, bvh.indices.Perm (List.range b.primitives.length) ∧ Unfolds bvh.nodes 0 T ∧ bvh.nodes.length = T.size ∧
      TreeOf T bvh.indices bvh.indices 0 64 ∧
      (T.bounds = (pad (Aabb.unionOfList (b.boxes order))).clean ∨
        T.bounds = (pad (pad (Aabb.unionOfList (b.boxes order)))).clean) := by
  obtain ⟨s, _, _, h3, h4⟩ := builder_with_main h es
  by_cases hp : s.pending = []
  · obtain ⟨bvh', T, e', r⟩ := h4 hp
    rw [e'] at e; cases e
    exact ⟨T, r⟩
  · rw [h3 hp] at e; cases e

/-- C101. Primitives whose `center()` is not a function: whatever each single call answers (any vectors, NaN and
infinities included, different for the same primitive from axis to axis, from task to task and from thread to thread)
and whatever the schedule, no build panics or leaves a buffer; a history has at most `3n-2` steps and an unfinished
one can always be continued; and the BVH returned at the end is a proper one: its index array is a permutation of all
ids, its node array is exactly a tree of an odd number of at most `2n-1` nodes and of depth at most 64, whose leaf
ranges are inside the index array and list every primitive exactly once, and `validate` accepts it. -/
theorem C101_any_center (b : Builder F) (order : List Nat) (h : b.Legal order) :
    (∀ es, ∃ r, b.constructBinnedWith order es = .ok (some r)) ∧
    (∀ es, b.WithHistory order es → es.length ≤ 3 * b.primitives.length - 2 ∧
      (b.constructBinnedWith order es = .ok (some none) →
        ∃ k, ∀ ans : Answers F, b.WithHistory order (es ++ [(k, ans)]))) ∧
    (∀ es bvh, b.constructBinnedWith order es = .ok (some (some bvh)) →
      bvh.indices.Perm (List.range b.primitives.length) ∧
      (∃ T, Unfolds bvh.nodes 0 T ∧ T.size = bvh.nodes.length ∧ T.RangesIn bvh.indices ∧
        T.ids bvh.indices = bvh.indices ∧ (∀ p < b.primitives.length, (T.ids bvh.indices).count p = 1) ∧
        T.depth ≤ 64) ∧
      bvh.nodes.length % 2 = 1 ∧ bvh.nodes.length ≤ 2 * b.primitives.length - 1 ∧
      ∀ fuel, 64 < fuel → bvh.validate fuel b.primitives.length = some true) := by
  refine ⟨fun es => ?_, fun es hes => ⟨?_, fun hno => ?_⟩, fun es bvh e => ?_⟩
  · obtain ⟨s, _, _, h3, h4⟩ := builder_with_main h es
    by_cases hp : s.pending = []
    · obtain ⟨bvh, _, e, _⟩ := h4 hp
      exact ⟨_, e⟩
    · exact ⟨_, h3 hp⟩
  · obtain ⟨s, _, h2, _⟩ := builder_with_main h es
    exact h2 hes
  · obtain ⟨s, e, _, h3, h4⟩ := builder_with_main h es
    have hp : s.pending ≠ [] := by
      intro hp
      obtain ⟨_, _, e', _⟩ := h4 hp
      rw [e'] at hno; cases hno
    refine ⟨0, fun ans => ?_⟩
    have key : ∀ (es : List (Nat × Answers F)) (s₀ : WithState F), LegalHistory (b.ctx order) es s₀ →
        withExec (b.ctx order) es s₀ = some s → LegalHistory (b.ctx order) (es ++ [(0, ans)]) s₀ := by
      intro es
      induction es with
      | nil =>
        intro s₀ _ he
        cases he
        exact ⟨List.length_pos_iff.2 hp, fun _ _ => trivial⟩
      | cons x es ih =>
        intro s₀ hl he
        refine ⟨hl.1, fun s' hs' => ih s' (hl.2 s' hs') ?_⟩
        have : (withStep (b.ctx order) s₀ x.1 x.2).bind (withExec (b.ctx order) es) = some s := he
        rw [hs'] at this
        exact this
    exact key es _ hes e
  · obtain ⟨T, hperm, hU, hsz, hT, _⟩ := with_built h e
    have hids := hT.ids [] [] rfl
    simp only [List.nil_append, List.append_nil] at hids
    have hl : bvh.indices.length = b.primitives.length := by simpa using hperm.length_eq
    have hR : T.RangesIn bvh.indices := hT.rangesIn _ (by omega)
    have hlv : T.leaves ≤ b.primitives.length := hl ▸ hT.leaves
    have hsize := hT.size
    have hsmall := h.small
    refine ⟨hperm, ⟨T, hU, hsz.symm, hR, hids, fun p hp => ?_, hT.depth⟩, by omega, by omega, fun fuel hf => ?_⟩
    · rw [hids, hperm.count_eq, List.nodup_range.count, if_pos (by simpa using hp)]
    · have hd : T.depth ≤ 64 := hT.depth
      obtain ⟨r, h1, h2⟩ := (C08_validate_exact bvh T ⟨hU, hR⟩ (by omega) (by omega) fuel
        b.primitives.length (by omega)).1 (by
          intro id hid
          rw [hids] at hid
          simpa using hperm.mem_iff.1 hid)
      rw [h1]
      congr 1
      rw [h2]
      intro p hlt
      rw [hids]
      exact hperm.mem_iff.2 (by simpa using hlt)

/-- C101: answers that are what the builder was told agree with the model of the build for pure primitives, decision by
decision (`InScene`: ids of the scene, as in every slice of a build). -/
theorem C101_pure_decides (ctx : BinnedCtx F) (ans : Answers F)
    (hb : ∀ p c axis, ctx.centers[p]? = some c → ans.bin p axis = c)
    (hp : ∀ p c, ctx.centers[p]? = some c → ans.part p = c)
    (bounds : Aabb F) (slice : List Nat) (hin : InScene ctx slice) (depth : Nat) :
    binnedDecideWith ctx ans bounds slice depth = binnedDecide ctx bounds slice depth := by
  have hfill : ∀ (l : List Nat), InScene ctx l → ∀ bo cb acc,
      l.foldlM (fillBinWith ctx ans bo cb) acc = l.foldlM (fillBin ctx bo cb) acc := by
    intro l
    induction l with
    | nil => intros; rfl
    | cons p l ih =>
      intro hl bo cb acc
      have h1 : fillBinWith ctx ans bo cb acc p = fillBin ctx bo cb acc p := by
        have := hl p (by simp)
        unfold fillBinWith fillBin
        rw [if_pos (by exact this.1)]
        have e1 : ctx.centers[p]? = some ctx.centers[p] := List.getElem?_eq_getElem this.1
        have e2 : ctx.aabbs[p]? = some ctx.aabbs[p] := List.getElem?_eq_getElem this.2
        simp only [e1, e2, hb p _ _ e1]
      simp only [List.foldlM_cons, h1]
      congr 1
      funext acc'
      exact ih (fun q hq => hl q (by simp [hq])) bo cb acc'
  have hpart : ∀ bo axis si, partition slice 0 slice.length (goesLeftWith ctx ans bo axis si) =
      partition slice 0 slice.length (goesLeft ctx bo axis si) := by
    intro bo axis si
    apply partition_congr
    intro p hpm
    have hlt := (hin p hpm).1
    have e1 : ctx.centers[p]? = some ctx.centers[p] := List.getElem?_eq_getElem hlt
    unfold goesLeftWith goesLeft
    simp only [e1, hp p _ e1]
  unfold binnedDecideWith binnedDecide fillBinsWith fillBins
  simp only [hfill slice hin, hpart]
  rfl

/-- Four cubes on the x axis. -/
def moodyScene : Builder F32 := cubeScene [(0, 1), (10, 1), (20, 1), (30, 1)] (some 1)
/-- `center()` answers the truth while the bins are filled, and NaN, or the mirror image, when asked again. -/
def moodyAnswers (m : Nat) : Answers F32 :=
  { bin := fun p _ => ⟨lit (10 * p) 0, zero, zero⟩
    part := fun p => if m = 0 then ⟨lit (10 * p) 0, zero, zero⟩ else if m = 1 then ⟨lit (30 - 10 * p) 0, zero, zero⟩
      else ⟨div zero zero, div zero zero, div zero zero⟩ }
/-- Every step by the first pending task, the `m`-th kind of answers throughout. -/
def moodyRun (m : Nat) : Option (List (Nat × Nat) × List Nat) :=
  (builtTree (moodyScene.constructBinnedWith (List.range 4) (List.replicate 10 (0, moodyAnswers m)))).map
    fun x => (x.2.ranges, x.1.indices)

/-- Truthful answers give the BVH of the pure model; the mirror image and NaN give others, which are just as valid. -/
example : moodyRun 0 = (builtTree (moodyScene.constructBinnedSah (List.range 4) (List.replicate 10 0))).map
      (fun x => (x.2.ranges, x.1.indices)) ∧
    moodyRun 0 = some ([(0, 1), (1, 1), (2, 1), (3, 1)], [0, 1, 2, 3]) ∧
    moodyRun 1 = some ([(0, 2), (2, 2)], [2, 3, 0, 1]) ∧ moodyRun 2 = some ([(0, 4)], [0, 1, 2, 3]) := by
  decide +kernel
example : moodyScene.Legal (List.range 4) := cubeScene_legal _ _ (by decide) (by decide)
/-- One step is a possible history that is not finished. -/
example : moodyScene.WithHistory (List.range 4) [(0, moodyAnswers 1)] ∧
    moodyScene.constructBinnedWith (List.range 4) [(0, moodyAnswers 1)] = .ok (some none) := by
  refine ⟨⟨by decide, fun _ _ => trivial⟩, ?_⟩
  have : (match moodyScene.constructBinnedWith (List.range 4) [(0, moodyAnswers 1)] with
    | .ok (some none) => true | _ => false) = true := by decide +kernel
  revert this
  generalize moodyScene.constructBinnedWith (List.range 4) [(0, moodyAnswers 1)] = r
  intro this
  split at this
  · rfl
  · cases this

section lawful
variable [LawfulFloat F]

/-- C101, root box: with numeric boxes the box the BVH reports for the scene contains the box of every primitive, padded
by 1e-4, whatever `center()` answers. -/
theorem C101_root_bounds (b : Builder F) (order : List Nat) (h : b.Legal order) (es : List (Nat × Answers F))
    (bvh : Bvh F) (e : b.constructBinnedWith order es = .ok (some (some bvh)))
    (hn : ∀ a ∈ b.boxes order, a.Numeric) :
    ∀ p < b.primitives.length, (padAt (b.boxes order) p).Within bvh.bounds := by
  intro p hp
  obtain ⟨T, _, hU, _, _, hb⟩ := with_built h e
  have h1 : (boxAt (b.boxes order) p).Within (unionOfList (b.boxes order)) :=
    unionOfList_contains hn _ (boxAt_mem (by rw [Builder.boxes_length h]; exact hp))
  have h2 : (padAt (b.boxes order) p).Within T.bounds := by
    rcases hb with hb | hb
    · rw [hb]; exact pad_within h1
    · rw [hb]; exact within_pad (pad_within h1)
  have h3 : ∀ {i : Nat} {T : BTree F}, Unfolds bvh.nodes i T → ∃ nd, bvh.nodes[i]? = some nd ∧ T.bounds = nd.bounds.clean := by
    intro i T hU
    cases hU with
    | leaf h _ _ => exact ⟨_, h, rfl⟩
    | node h _ _ _ _ => exact ⟨_, h, rfl⟩
  obtain ⟨nd, h4, h5⟩ := h3 hU
  rw [h5] at h2
  have h6 : bvh.bounds = nd.bounds := by
    unfold Bvh.bounds
    cases hnodes : bvh.nodes with
    | nil => rw [hnodes] at h4; simp at h4
    | cons a l => rw [hnodes] at h4; simp at h4; simp [h4]
  rw [h6]
  exact h2
example : ∃ bvh, moodyScene.constructBinnedWith (List.range 4) (List.replicate 10 (0, moodyAnswers 1)) =
      .ok (some (some bvh)) ∧ ∀ a ∈ moodyScene.boxes (List.range 4), a.Numeric := by
  have h : (moodyRun 1).isSome = true := by decide +kernel
  unfold moodyRun at h
  rw [Option.isSome_map] at h
  obtain ⟨⟨bvh, T⟩, hx⟩ := Option.isSome_iff_exists.1 h
  refine ⟨bvh, (builtTree_some hx).1, ?_⟩
  unfold Aabb.Numeric Vec3.Numeric Num
  decide +kernel
end lawful

end Rtbvh
