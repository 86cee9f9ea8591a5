import Verif.Props.EndToEnd
import Verif.Props.SpatialQuery
import Verif.Model.Ffi
import Verif.Proofs.UnfoldsDet
/- C110: the work of a query. -/
namespace Rtbvh
open FloatOps
variable {F : Type}

/-- A loop that came to its end by itself or because the caller broke out of it. -/
def Ended {σ ι : Type} (run : Run σ ι) : Prop := run.ending = .finished ∨ run.ending = .stopped

theorem QTree.rounds_eq (idx : List Nat) (Q : QTree F) (h : Q.RangesIn idx) :
    Q.rounds = (Q.ids idx).length + 5 * Q.quads := by
  induction Q with
  | none => rfl
  | leaf f c =>
    simp only [QTree.RangesIn] at h
    simp only [QTree.rounds, QTree.ids, QTree.quads, BTree.rangeIds, List.length_take, List.length_drop]
    omega
  | quad b c0 c1 c2 c3 h0 h1 h2 h3 =>
    simp only [QTree.rounds, QTree.ids, QTree.quads, List.length_append, h0 h.1, h1 h.2.1, h2 h.2.2.1, h3 h.2.2.2]
    omega

/-- The stack holds indices of nodes that unfold to trees; `w` is how many rounds they are good for together. -/
inductive StackWork {F : Type} (nodes : List (BvhNode F)) : List Int → Nat → Prop
  | nil : StackWork nodes [] 0
  | cons {i w : Nat} {T : BTree F} {st : List Int} (h : Unfolds nodes i T) (hs : StackWork nodes st w) :
      StackWork nodes ((i : Int) :: st) (T.rounds + w)

theorem push_work {nodes : List (BvhNode F)} {i w : Nat} {T : BTree F} {st st' : List Int} (h : Unfolds nodes i T)
    (hs : StackWork nodes st w) (e : push32 st (i : Int) = some st') : StackWork nodes st' (T.rounds + w) := by
  unfold push32 at e
  split at e
  · cases e; exact .cons h hs
  · cases e

theorem sort_work {τ : Type} {nodes : List (BvhNode F)} {i w : Nat} {A B : BTree F} {st st' : List Int}
    {closer : τ → τ → Bool} {x y : Option τ} (ha : Unfolds nodes i A) (hb : Unfolds nodes (i + 1) B)
    (hs : StackWork nodes st w) (e : sortNodes closer x y st (i : Int) = some st') :
    ∃ w', w' ≤ A.rounds + B.rounds + w ∧ StackWork nodes st' w' := by
  have hc : ((i : Int) + 1) = ((i + 1 : Nat) : Int) := by omega
  unfold sortNodes at e
  rw [hc] at e
  split at e
  · split at e
    · obtain ⟨s1, e1, e2⟩ := Option.bind_eq_some_iff.1 e
      exact ⟨_, by omega, push_work hb (push_work ha hs e1) e2⟩
    · obtain ⟨s1, e1, e2⟩ := Option.bind_eq_some_iff.1 e
      exact ⟨_, by omega, push_work ha (push_work hb hs e1) e2⟩
  · exact ⟨_, by omega, push_work ha hs e⟩
  · exact ⟨_, by omega, push_work hb hs e⟩
  · cases e; exact ⟨w, by omega, hs⟩

theorem drive_ends {σ τ : Type} {nodes : List (BvhNode F)} {idx : List Nat} {hit : Aabb F → σ → Option τ}
    {closer : τ → τ → Bool} (cb : σ → Nat → σ × Bool) : ∀ (fuel k w : Nat) (ray : σ) (st : List Int),
    StackWork nodes st w → w < fuel + k →
    (k = 0 ∨ ∃ (i f c : Nat) (rest : List Int) (bb : Aabb F), st = (i : Int) :: rest ∧ Unfolds nodes i (.leaf bb f c) ∧ k ≤ c) →
    (drive (bvhIndexStep nodes idx hit closer) cb fuel ⟨ray, k, st⟩).ending ≠ .outOfFuel := by
  intro fuel
  induction fuel with
  | zero =>
    intro k w ray st hs hf hk
    exfalso
    rcases hk with rfl | ⟨i, f, c, rest, bb, rfl, hU, hkc⟩
    · omega
    · obtain ⟨i', w', T, _, hi, hT, _, hw⟩ : ∃ (i' w' : Nat) (T : BTree F) (_ : StackWork nodes rest w'),
          i' = i ∧ Unfolds nodes i' T ∧ True ∧ w = T.rounds + w' := by
        generalize hst : (i : Int) :: rest = st' at hs
        cases hs with
        | nil => cases hst
        | @cons j w' T st h hs =>
          injection hst with h1 h2
          subst h2
          exact ⟨j, w', T, hs, by omega, h, trivial, rfl⟩
      subst hi
      cases hT.det hU
      simp only [BTree.rounds] at hw
      omega
  | succ fuel ih =>
    intro k w ray st hs hf hk
    rw [drive]
    cases hs with
    | nil => simp [bvhIndexStep]
    | @cons i w T rest hU hs =>
      cases hU with
      | @leaf i f c nd hnd hc hff =>
        simp only [BTree.rounds] at hf
        simp only [bvhIndexStep, atI32_nat, hnd, BvhNode.countU, BvhNode.leftFirstU, hc]
        rw [if_pos (by omega)]
        by_cases hkc : k < c
        · rw [if_pos (by omega)]
          cases hid : atI32 idx (nd.bounds.extra2 + (k : Int)) with
          | none => simp
          | some id =>
            simp only []
            have key : ∀ r, (drive (bvhIndexStep nodes idx hit closer) cb fuel
                ⟨r, (k : Int) + 1, (i : Int) :: rest⟩).ending ≠ .outOfFuel := fun r =>
              ih (k + 1) _ r _ (.cons (.leaf hnd hc hff) hs) (by simp only [BTree.rounds]; omega)
                (.inr ⟨i, f, c, rest, _, rfl, .leaf hnd hc hff, hkc⟩)
            rcases hcb : cb ray id with ⟨r, _ | _⟩
            · simpa [Run.cons] using key r
            · simp
        · rw [if_neg (by omega)]
          refine ih 0 w ray rest hs ?_ (.inl rfl)
          rcases hk with rfl | ⟨i', f', c', rest', bb', hst, hU', hkc'⟩
          · omega
          · injection hst with h1 h2
            have : i' = i := by omega
            subst this
            cases (Unfolds.leaf hnd hc hff).det hU'
            omega
      | @node i lf nd l r hnd hc hl ul ur =>
        have hk0 : k = 0 := by
          rcases hk with rfl | ⟨i', f', c', rest', bb', hst, hU', hkc'⟩
          · rfl
          · injection hst with h1 h2
            have : i' = i := by omega
            subst this
            cases (Unfolds.node hnd hc hl ul ur).det hU'
        subst hk0
        obtain ⟨ln, eln, _⟩ := ul.root
        obtain ⟨rn, ern, _⟩ := ur.root
        simp only [BTree.rounds] at hf
        have hc1 : ((lf : Int) + 1) = ((lf + 1 : Nat) : Int) := by omega
        simp only [bvhIndexStep, atI32_nat, hnd, BvhNode.countU, BvhNode.leftFirstU, hl]
        rw [if_neg (by omega), if_pos (by omega), hc1]
        simp only [atI32_nat, eln, ern]
        cases hsort : sortNodes closer (hit ln.bounds ray) (hit rn.bounds ray) rest (lf : Int) with
        | none => simp
        | some st =>
          simp only []
          obtain ⟨w', hw', hs'⟩ := sort_work ul ur hs hsort
          exact ih 0 w' ray st hs' (by omega) (.inl rfl)

variable [FloatOps F]

/-- C110, any well-formed structure: a query over a BVH whose tree is at most 31 deep takes at most one round per node, one
per stored id and one more; a query over a four-wide structure whose traversal fits the stack, five per quad node and one
per stored id.  For every ray or packet and every caller. -/
theorem C110_rounds :
    (∀ (b : Bvh F) (T : BTree F), b.Compact T → T.depth ≤ 31 →
      ∀ fuel > b.nodes.length + (T.ids b.indices).length,
        (∀ ray cb, Ended (b.forIndices cb fuel ray)) ∧ ∀ pk cb, Ended (b.forIndicesPacket cb fuel pk)) ∧
    (∀ (q : Mbvh F) (Q : QTree F), q.Denotes Q → q.mNodes.length = Q.quads → Q.stackNeed ≤ 32 →
      ∀ fuel ≥ 5 * q.mNodes.length + (Q.ids q.primIndices).length,
        (∀ ray cb, Ended (q.forIndices cb fuel ray)) ∧ ∀ pk cb, Ended (q.forIndicesPacket cb fuel pk)) := by
  refine ⟨fun b T hc hd fuel hf => ?_, fun q Q hq hlen hs fuel hf => ?_⟩
  · have h1 := T.rounds_eq _ hc.ranges
    have h2 := hc.size
    change T.rounds = (T.ids b.indices).length + T.size at h1
    exact C22_stack_safe b T hc.toDenotes hd fuel (by omega)
  · have h1 := Q.rounds_eq _ hq.ranges
    obtain ⟨ha, hb⟩ := C29_stack_safe q Q hq hs fuel (by omega)
    exact ⟨fun ray cb => ha cb ray, fun pk cb => hb cb pk⟩

/-- C110, what the builders return: a query over the BVH that `construct_binned_sah` or `construct_locally_ordered_clustered`
makes of `n` primitives, if its tree is at most 31 deep, ends within `3n` rounds, whatever the ray or packet and whatever
the caller does to it.  `Mbvh::construct` makes at most `2n-1` quad nodes of it, and if their traversal fits the stack, a
query over them ends within `11n` rounds. -/
theorem C110_linear (b : Builder F) (order : List Nat) (h : b.Legal order) (hs : b.primitives.length ≤ 2 ^ 29)
    (bvh : Bvh F) (e : b.Returns order bvh) :
    (∀ T, Unfolds bvh.nodes 0 T → T.depth ≤ 31 → ∀ fuel ≥ 3 * b.primitives.length,
      (∀ ray cb, Ended (bvh.forIndices cb fuel ray)) ∧ ∀ pk cb, Ended (bvh.forIndicesPacket cb fuel pk)) ∧
    ∃ (q : Mbvh F) (Q : QTree F), Mbvh.construct b.primitives.length bvh = some q ∧ q.Denotes Q ∧
      q.mNodes.length ≤ 2 * b.primitives.length - 1 ∧
      (Q.stackNeed ≤ 32 → ∀ fuel ≥ 11 * b.primitives.length,
        (∀ ray cb, Ended (q.forIndices cb fuel ray)) ∧ ∀ pk cb, Ended (q.forIndicesPacket cb fuel pk)) := by
  obtain ⟨T, hc, hp, hdepth, hr, hl⟩ := returns_tree h hs e
  have hids : (T.ids bvh.indices).length = b.primitives.length := by simpa using hp.length_eq
  have hsz := T.size_eq_leaves
  have hnodes := hc.size
  refine ⟨fun T' hT' hd fuel hf => ?_, ?_⟩
  · have : T' = T := hT'.det hc.unfolds
    subst this
    exact C110_rounds.1 bvh T' hc hd fuel (by omega)
  · obtain ⟨q, Q, e1, hq, _, hids', hlen, hle, _, _⟩ := C26_construct bvh T hc b.primitives.length hdepth
    refine ⟨q, Q, e1, hq, by omega, fun hstack fuel hf => ?_⟩
    refine C110_rounds.2 q Q hq hlen hstack fuel ?_
    rw [hids', hids]
    omega

/-- C110, whatever the depth: no query over a well-formed BVH goes on for ever, or longer than one round per node, one per
stored id and one more: by then it has ended or panicked (the latter only above depth 31, `C22_stack_safe`). -/
theorem C110_always_ends (b : Bvh F) (T : BTree F) (hc : b.Compact T) (fuel : Nat)
    (hf : fuel > b.nodes.length + (T.ids b.indices).length) :
    (∀ ray cb, (b.forIndices cb fuel ray).ending ≠ .outOfFuel) ∧
    ∀ pk cb, (b.forIndicesPacket cb fuel pk).ending ≠ .outOfFuel := by
  have h1 := T.rounds_eq _ hc.ranges
  have h2 := hc.size
  change T.rounds = (T.ids b.indices).length + T.size at h1
  have go : ∀ {σ τ : Type} (hit : Aabb F → σ → Option τ) (closer : τ → τ → Bool) (e : Bool) (ray : σ) cb,
      (drive (bvhIndexStep b.nodes b.primIndices hit closer) cb fuel (travNew e ray)).ending ≠ .outOfFuel := by
    intro σ τ hit closer e ray cb
    cases e with
    | true => exact drive_ends cb fuel 0 0 ray [] .nil (by omega) (.inl rfl)
    | false => exact drive_ends cb fuel 0 _ ray [0] (.cons hc.unfolds .nil) (by omega) (.inl rfl)
  exact ⟨fun ray cb => go _ _ _ _ _, fun pk cb => go _ _ _ _ _⟩

/-- C110, the C interface, whatever the depth: no `intersect` or `intersect_packet` over the buffers of a well-formed BVH goes
on for ever or longer than that, whatever the ray or packet (NaN included) and whatever the callback does. -/
theorem C110_ffi {D : Type} (b : Bvh F) (T : BTree F) (hc : b.Compact T) (fuel : Nat)
    (hf : fuel > b.nodes.length + (T.ids b.indices).length) :
    (∀ o d t (x : D) cb, (ffiIntersect b.nodes b.primIndices o d t x cb fuel).ending ≠ .outOfFuel) ∧
    ∀ ox oy oz dx dy dz t (x : D) cb,
      (ffiIntersectPacket b.nodes b.primIndices ox oy oz dx dy dz t x cb fuel).ending ≠ .outOfFuel := by
  have h1 := T.rounds_eq _ hc.ranges
  have h2 := hc.size
  change T.rounds = (T.ids b.indices).length + T.size at h1
  have go : ∀ {σ τ : Type} (hit : Aabb F → σ → Option τ) (closer : τ → τ → Bool) (e : Bool) (ray : σ) cb,
      (drive (bvhIndexStep b.nodes b.primIndices hit closer) cb fuel (travNew e ray)).ending ≠ .outOfFuel := by
    intro σ τ hit closer e ray cb
    cases e with
    | true => exact drive_ends cb fuel 0 0 ray [] .nil (by omega) (.inl rfl)
    | false => exact drive_ends cb fuel 0 _ ray [0] (.cons hc.unfolds .nil) (by omega) (.inl rfl)
  refine ⟨fun o d t x cb => ?_, fun ox oy oz dx dy dz t x cb => ?_⟩
  · unfold ffiIntersect
    split
    · exact fun h => Ending.noConfusion h
    · exact go _ _ _ _ _
  · unfold ffiIntersectPacket
    split
    · exact fun h => Ending.noConfusion h
    · exact go _ _ _ _ _

/-- C110, whatever the depth, for the builders: no query over the BVH they make of `n` primitives is still going after `3n`
rounds. -/
theorem C110_always_ends_built (b : Builder F) (order : List Nat) (h : b.Legal order) (hs : b.primitives.length ≤ 2 ^ 29)
    (bvh : Bvh F) (e : b.Returns order bvh) (fuel : Nat) (hf : fuel ≥ 3 * b.primitives.length) :
    (∀ ray cb, (bvh.forIndices cb fuel ray).ending ≠ .outOfFuel) ∧
    ∀ pk cb, (bvh.forIndicesPacket cb fuel pk).ending ≠ .outOfFuel := by
  obtain ⟨T, hc, _, _, hr, _⟩ := returns_tree h hs e
  refine C110_always_ends bvh T hc fuel ?_
  have h1 := T.rounds_eq _ hc.ranges
  have h2 := hc.size
  change T.rounds = (T.ids bvh.indices).length + T.size at h1
  omega

/-- C110, spatial splits: the same with the `⌊1.75 n⌋` references the builder may make of `n` primitives instead of `n`. -/
theorem C110_linear_spatial (b : Builder F) (split : Nat → Fin 3 → F → Aabb F × Aabb F)
    (sort : Fin 3 → List (Ref F) → Option (List (Ref F))) (order ks : List Nat) (h : b.LegalSpatial order sort)
    (bvh : Bvh F) (e : b.constructSpatialSah split sort order ks = .ok (.ok (some bvh))) (T : BTree F)
    (hU : Unfolds bvh.nodes 0 T) (hd : T.depth ≤ 31) (fuel : Nat)
    (hf : fuel > 3 * referenceLimit F b.primitives.length + 1) :
    (∀ ray cb, Ended (bvh.forIndices cb fuel ray)) ∧ ∀ pk cb, Ended (bvh.forIndicesPacket cb fuel pk) := by
  obtain ⟨T', hc, hr⟩ := C26_spatial_compact h e
  cases hU.det hc.unfolds
  exact C22_stack_safe bvh T hc.toDenotes hd fuel (by omega)

/-- C110, spatial splits, whatever the depth. -/
theorem C110_always_ends_spatial (b : Builder F) (split : Nat → Fin 3 → F → Aabb F × Aabb F)
    (sort : Fin 3 → List (Ref F) → Option (List (Ref F))) (order ks : List Nat) (h : b.LegalSpatial order sort)
    (bvh : Bvh F) (e : b.constructSpatialSah split sort order ks = .ok (.ok (some bvh))) (fuel : Nat)
    (hf : fuel > 3 * referenceLimit F b.primitives.length + 1) :
    (∀ ray cb, (bvh.forIndices cb fuel ray).ending ≠ .outOfFuel) ∧
    ∀ pk cb, (bvh.forIndicesPacket cb fuel pk).ending ≠ .outOfFuel := by
  obtain ⟨T, hc, hr⟩ := C26_spatial_compact h e
  refine C110_always_ends bvh T hc fuel ?_
  have h1 := T.rounds_eq _ hc.ranges
  have h2 := hc.size
  change T.rounds = (T.ids bvh.indices).length + T.size at h1
  omega

/-- C110: `3n` is exact.  Four cubes in a row, binary32, binned SAH, default options; a ray along the row and a caller that
does nothing: the loop needs all twelve rounds. -/
theorem C110_tight : ∃ (b : Builder F32) (order : List Nat) (bvh : Bvh F32) (ray : Ray F32), b.Legal order ∧
    b.primitives.length = 4 ∧ b.Returns order bvh ∧ (∃ T, Unfolds bvh.nodes 0 T ∧ T.depth ≤ 31) ∧
    (bvh.forIndices (fun r _ => (r, false)) 12 ray).ending = .finished ∧
    (bvh.forIndices (fun r _ => (r, false)) 11 ray).ending = .outOfFuel := by
  have key : ((builtTree ((cubeScene [(20, 1), (0, 1), (30, 1), (10, 1)] none : Builder F32).constructBinnedSah
      (List.range 4) (List.replicate 10 0))).map fun x => [11, 12].map fun fuel =>
        (x.1.forIndices (fun r _ => (r, false)) fuel
          (Ray.new ⟨lit (-5) 0, zero, zero⟩ ⟨one, lit 1 (-3), lit 1 (-3)⟩)).ending) =
    some [.outOfFuel, .finished] := by decide +kernel
  obtain ⟨x, hx, hr⟩ := Option.map_eq_some_iff.1 key
  have hL : (cubeScene [(20, 1), (0, 1), (30, 1), (10, 1)] none : Builder F32).Legal (List.range 4) :=
    cubeScene_legal _ _ (by decide) (by decide)
  obtain ⟨e, hU⟩ := builtTree_some (bvh := x.1) (T := x.2) hx
  have hr' := List.cons.inj hr
  refine ⟨_, List.range 4, x.1, _, hL, rfl, .inl ⟨_, e⟩, ?_, (List.cons.inj hr'.2).1, hr'.1⟩
  obtain ⟨T, hc, _, hd, _⟩ := returns_tree hL (by decide) (.inl ⟨_, e⟩ : Builder.Returns _ _ x.1)
  exact ⟨T, hc.unfolds, Nat.le_trans (Nat.le_of_lt hd) (by decide)⟩

end Rtbvh
