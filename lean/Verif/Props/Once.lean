import Verif.Props.Work
import Verif.Props.ShortSlice
/- C20, the part about repetition, for trees of any depth. -/
namespace Rtbvh
open FloatOps
variable {F : Type}

/-- The stack holds indices of nodes that unfold to trees; `l` lists the ids below them, top of the stack first. -/
inductive StackIds {F : Type} (nodes : List (BvhNode F)) (idx : List Nat) : List Int → List Nat → Prop
  | nil : StackIds nodes idx [] []
  | cons {i : Nat} {T : BTree F} {st : List Int} {l : List Nat} (h : Unfolds nodes i T) (hr : T.RangesIn idx)
      (hs : StackIds nodes idx st l) : StackIds nodes idx ((i : Int) :: st) (T.ids idx ++ l)

theorem push_ids {nodes : List (BvhNode F)} {idx : List Nat} {i : Nat} {T : BTree F} {st st' : List Int} {l : List Nat}
    (h : Unfolds nodes i T) (hr : T.RangesIn idx) (hs : StackIds nodes idx st l) (e : push32 st (i : Int) = some st') :
    StackIds nodes idx st' (T.ids idx ++ l) := by
  unfold push32 at e
  split at e
  · cases e; exact .cons h hr hs
  · cases e

theorem sort_ids {τ : Type} {nodes : List (BvhNode F)} {idx : List Nat} {i : Nat} {A B : BTree F} {st st' : List Int}
    {l : List Nat} {closer : τ → τ → Bool} {x y : Option τ} (ha : Unfolds nodes i A) (hb : Unfolds nodes (i + 1) B)
    (ra : A.RangesIn idx) (rb : B.RangesIn idx) (hs : StackIds nodes idx st l)
    (e : sortNodes closer x y st (i : Int) = some st') :
    ∃ l', (∀ p, l'.count p ≤ (A.ids idx).count p + (B.ids idx).count p + l.count p) ∧ StackIds nodes idx st' l' := by
  have hc : ((i : Int) + 1) = ((i + 1 : Nat) : Int) := by omega
  unfold sortNodes at e
  rw [hc] at e
  split at e
  · split at e
    · obtain ⟨s1, e1, e2⟩ := Option.bind_eq_some_iff.1 e
      exact ⟨_, fun p => by rw [List.count_append, List.count_append]; omega, push_ids hb rb (push_ids ha ra hs e1) e2⟩
    · obtain ⟨s1, e1, e2⟩ := Option.bind_eq_some_iff.1 e
      exact ⟨_, fun p => by rw [List.count_append, List.count_append]; omega, push_ids ha ra (push_ids hb rb hs e1) e2⟩
  · exact ⟨_, fun p => by rw [List.count_append]; omega, push_ids ha ra hs e⟩
  · exact ⟨_, fun p => by rw [List.count_append]; omega, push_ids hb rb hs e⟩
  · cases e; exact ⟨l, fun p => by omega, hs⟩

theorem drive_once {σ τ : Type} {nodes : List (BvhNode F)} {idx : List Nat} {hit : Aabb F → σ → Option τ}
    {closer : τ → τ → Bool} (cb : σ → Nat → σ × Bool) (p : Nat) :
    ∀ (fuel k : Nat) (l : List Nat) (ray : σ) (st : List Int), StackIds nodes idx st l →
    (k = 0 ∨ ∃ (i f c : Nat) (rest : List Int) (bb : Aabb F), st = (i : Int) :: rest ∧ Unfolds nodes i (.leaf bb f c) ∧ k ≤ c) →
    (drive (bvhIndexStep nodes idx hit closer) cb fuel ⟨ray, k, st⟩).items.count p ≤ (l.drop k).count p := by
  intro fuel
  induction fuel with
  | zero => intro k l ray st _ _; exact Nat.zero_le _
  | succ fuel ih =>
    intro k l ray st hs hk
    rw [drive]
    cases hs with
    | nil => simp [bvhIndexStep]
    | @cons i T rest l hU hr hs =>
      cases hU with
      | @leaf i f c nd hnd hc hff =>
        have hr' : f + c ≤ idx.length := hr
        have hlen : (BTree.rangeIds idx f c).length = c := by
          simp only [BTree.rangeIds, List.length_take, List.length_drop]; omega
        simp only [bvhIndexStep, atI32_nat, hnd, BvhNode.countU, BvhNode.leftFirstU, hc, BTree.ids]
        rw [if_pos (by omega)]
        by_cases hkc : k < c
        · rw [if_pos (by omega), hff, show ((f : Int) + (k : Int)) = ((f + k : Nat) : Int) by omega, atI32_nat,
            List.getElem?_eq_getElem (by omega)]
          simp only []
          have hd : (BTree.rangeIds idx f c ++ l).drop k =
              idx[f + k] :: (BTree.rangeIds idx f c ++ l).drop (k + 1) := by
            rw [List.drop_eq_getElem_cons (by rw [List.length_append]; omega), List.getElem_append_left (by omega)]
            simp [BTree.rangeIds]
          have key : ∀ r, (drive (bvhIndexStep nodes idx hit closer) cb fuel
              ⟨r, (k : Int) + 1, (i : Int) :: rest⟩).items.count p ≤
                ((BTree.rangeIds idx f c ++ l).drop (k + 1)).count p := fun r =>
            ih (k + 1) _ r _ (.cons (.leaf hnd hc hff) hr hs) (.inr ⟨i, f, c, rest, _, rfl, .leaf hnd hc hff, hkc⟩)
          rw [hd, List.count_cons]
          rcases hcb : cb ray idx[f + k] with ⟨r, _ | _⟩
          · have := key r
            simp only [Run.cons, List.count_cons]
            omega
          · simp only [List.count_cons, List.count_nil]
            omega
        · rw [if_neg (by omega)]
          have hkc' : k = c := by
            rcases hk with rfl | ⟨i', f', c', rest', bb', hst, hU', hkc'⟩
            · omega
            · injection hst with h1 h2
              have : i' = i := by omega
              subst this
              cases (Unfolds.leaf hnd hc hff).det hU'
              omega
          have := ih 0 l ray rest hs (.inl rfl)
          rw [hkc', List.drop_append, hlen, List.drop_of_length_le (by omega), Nat.sub_self, List.nil_append]
          exact this
      | @node i lf nd lt rt hnd hc hl ul ur =>
        have hk0 : k = 0 := by
          rcases hk with rfl | ⟨i', f', c', rest', bb', hst, hU', hkc'⟩
          · rfl
          · injection hst with h1 h2
            have : i' = i := by omega
            subst this
            cases (Unfolds.node hnd hc hl ul ur).det hU'
        subst hk0
        obtain ⟨ln, eln, _⟩ := ul.root
        obtain ⟨rn, ern, _⟩ := ur.root
        have hc1 : ((lf : Int) + 1) = ((lf + 1 : Nat) : Int) := by omega
        simp only [bvhIndexStep, atI32_nat, hnd, BvhNode.countU, BvhNode.leftFirstU, hl]
        rw [if_neg (by omega), if_pos (by omega), hc1]
        simp only [atI32_nat, eln, ern]
        cases hsort : sortNodes closer (hit ln.bounds ray) (hit rn.bounds ray) rest (lf : Int) with
        | none => simp
        | some st =>
          simp only []
          obtain ⟨l', hl', hs'⟩ := sort_ids ul ur hr.1 hr.2 hs hsort
          have h1 := ih 0 l' ray st hs' (.inl rfl)
          have h2 := hl' p
          simp only [BTree.ids, List.drop_zero, List.count_append] at h1 ⊢
          omega

variable [FloatOps F]

/-- C110, and C20 at any depth: a query over a well-formed BVH hands out no id more often than it is stored, whatever the depth of
the tree, the ray or packet and the caller, and also when it panics on the way.  The same for the C interface. -/
theorem C110_no_repeats (b : Bvh F) (T : BTree F) (h : b.Denotes T) (fuel p : Nat) :
    (∀ ray cb, (b.forIndices cb fuel ray).items.count p ≤ (T.ids b.indices).count p) ∧
    (∀ pk cb, (b.forIndicesPacket cb fuel pk).items.count p ≤ (T.ids b.indices).count p) ∧
    ∀ (D : Type) o d t (x : D) cb,
      (ffiIntersect b.nodes b.primIndices o d t x cb fuel).calls.count p ≤ (T.ids b.indices).count p := by
  have go : ∀ {σ τ : Type} (hit : Aabb F → σ → Option τ) (closer : τ → τ → Bool) (e : Bool) (ray : σ) cb,
      (drive (bvhIndexStep b.nodes b.primIndices hit closer) cb fuel (travNew e ray)).items.count p ≤
        (T.ids b.indices).count p := by
    intro σ τ hit closer e ray cb
    cases e with
    | true =>
      refine Nat.le_trans (drive_once cb p fuel 0 [] ray [] .nil (.inl rfl)) (Nat.zero_le _)
    | false =>
      have := drive_once cb p fuel 0 _ ray [0] (.cons h.unfolds h.ranges .nil) (.inl rfl) (hit := hit) (closer := closer)
      rw [List.append_nil, List.drop_zero] at this
      exact this
  refine ⟨fun ray cb => go _ _ _ _ _, fun pk cb => go _ _ _ _ _, fun D o d t x cb => ?_⟩
  unfold ffiIntersect
  split
  · exact Nat.zero_le _
  · exact go _ _ _ _ _

/-- C110, the iterators over primitives, whatever the depth: given a slice that has every stored id, they end or panic within
the same number of rounds.  (Given a shorter one they may go on for ever, C25.) -/
theorem C110_prims {P : Type} (b : Bvh F) (T : BTree F) (hc : b.Compact T) (prims : List P) (hne : prims ≠ [])
    (hids : ∀ id ∈ T.ids b.indices, id < prims.length) (fuel : Nat)
    (hf : fuel > b.nodes.length + (T.ids b.indices).length) :
    (∀ ray cb, (b.forPrims prims cb fuel ray).ending ≠ .outOfFuel) ∧
    ∀ pk cb, (b.forPrimsPacket prims cb fuel pk).ending ≠ .outOfFuel := by
  have hmem : ∀ {l : List Nat}, (∀ p, l.count p ≤ (T.ids b.indices).count p) → ∀ id ∈ l, id < prims.length := fun h id hid =>
    hids id (List.count_pos_iff.1 (Nat.lt_of_lt_of_le (List.count_pos_iff.2 hid) (h id)))
  refine ⟨fun ray cb => ?_, fun pk cb => ?_⟩
  · rw [((C25_prims_exact b prims hne cb ray fuel).1
      (hmem fun p => (C110_no_repeats b T hc.toDenotes fuel p).1 ray _)).2.2]
    exact (C110_always_ends b T hc fuel hf).1 ray _
  · rw [((C25_packet_prims_exact b prims hne cb pk fuel).1
      (hmem fun p => (C110_no_repeats b T hc.toDenotes fuel p).2.1 pk _)).2.2]
    exact (C110_always_ends b T hc fuel hf).2 pk _

/-- Not vacuous above the limit: the chain of depth 32, on which traversal panics. -/
example : ∃ T, (chainBvh 32).Denotes T ∧ T.depth = 32 ∧
    ((chainBvh 32).forIndices (fun r _ => (r, false)) 1000 chainRay).ending = .panicked :=
  ⟨chainTree 32, chain_denotes.1, chainTree_depth 32, C22_stack_tight.1⟩

end Rtbvh
