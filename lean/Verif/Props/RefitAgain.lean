import Verif.Props.Refitted
import Verif.Spec.Links
import Verif.Props.Refit
import Mathlib.Tactic.IntervalCases
/- C109: `refit` once per frame. -/
namespace Rtbvh
open FloatOps

/-- Two structures with the same tree: the same index array, and node for node the same two link fields.  Their boxes may
differ. -/
def Bvh.SameLinks {F : Type} (b c : Bvh F) : Prop :=
  b.primIndices = c.primIndices ∧
  b.nodes.map (fun nd => (nd.bounds.extra1, nd.bounds.extra2)) = c.nodes.map fun nd => (nd.bounds.extra1, nd.bounds.extra2)

/-- The box `refit` gives to a node below which there is nothing: an inverted one. -/
def hollow (F : Type) [FloatOps F] : Aabb F := (Aabb.new : Aabb F).offsetBy (lit 1 (-4))

variable {F : Type} [FloatOps F]

theorem refitBox_sameLinks {n₁ n₂ : List (BvhNode F)} {idx : List Nat} {bbs : List (Aabb F)} {x y : BvhNode F} {i : Nat}
    (h1 : x.bounds.extra1 = y.bounds.extra1) (h2 : x.bounds.extra2 = y.bounds.extra2)
    (hx : y.bounds.extra1 < 0 → (i : Int) < y.bounds.extra2 ∧ y.bounds.extra2 < 2 ^ 31)
    (hs : ∀ j, i < j → n₁[j]? = n₂[j]?) :
    refitBox n₁ idx bbs x = refitBox n₂ idx bbs y := by
  unfold refitBox BvhNode.getLeftFirst BvhNode.isLeaf BvhNode.countU
  rw [h1, h2]
  by_cases hl : y.bounds.extra1 ≥ 0
  · simp only [decide_eq_true hl, if_true]
  · obtain ⟨ha, hb⟩ := hx (by omega)
    have h0 : y.bounds.extra2 ≥ 0 := by omega
    have hu : i < asU32 y.bounds.extra2 := by unfold asU32; omega
    simp only [decide_eq_false hl, if_pos h0, hs _ hu, hs _ (Nat.lt_succ_of_lt hu)]

theorem refitLoop_sameLinks {idx : List Nat} {bbs : List (Aabb F)} : ∀ (i : Nat) (n₁ n₂ : List (BvhNode F)),
    n₁.length = n₂.length →
    (∀ (j : Nat) (x y : BvhNode F), j < i → n₁[j]? = some x → n₂[j]? = some y →
      x.bounds.extra1 = y.bounds.extra1 ∧ x.bounds.extra2 = y.bounds.extra2 ∧
      (y.bounds.extra1 < 0 → (j : Int) < y.bounds.extra2 ∧ y.bounds.extra2 < 2 ^ 31)) →
    (∀ j, i ≤ j → n₁[j]? = n₂[j]?) → refitLoop idx bbs i n₁ = refitLoop idx bbs i n₂ := by
  intro i
  induction i with
  | zero =>
    intro n₁ n₂ _ _ hs
    rw [refitLoop, refitLoop, List.ext_getElem? fun j => hs j (Nat.zero_le j)]
  | succ i ih =>
    intro n₁ n₂ hlen hw hs
    rw [refitLoop, refitLoop]
    by_cases hi : i < n₁.length
    · have hi2 : i < n₂.length := hlen ▸ hi
      obtain ⟨e1, e2, hx⟩ := hw i n₁[i] n₂[i] (Nat.lt_succ_self i) (List.getElem?_eq_getElem hi) (List.getElem?_eq_getElem hi2)
      rw [List.getElem?_eq_getElem hi, List.getElem?_eq_getElem hi2]
      dsimp only
      rw [refitBox_sameLinks (idx := idx) (bbs := bbs) e1 e2 hx fun j hj => hs j hj]
      cases refitBox n₂ idx bbs n₂[i] with
      | none => rfl
      | some a =>
        refine ih _ _ (by rw [List.length_set, List.length_set, hlen]) (fun j x y hj hxx hyy => ?_) fun j hj => ?_
        · rw [List.getElem?_set_ne (by omega)] at hxx hyy
          exact hw j x y (by omega) hxx hyy
        · by_cases e : j = i
          · subst e
            rw [List.getElem?_set_self hi, List.getElem?_set_self hi2]
          · rw [List.getElem?_set_ne (Ne.symm e), List.getElem?_set_ne (Ne.symm e)]
            exact hs j (by omega)
    · rw [List.getElem?_eq_none (by omega), List.getElem?_eq_none (by omega)]

/-- C109, the part that holds: what `refit` computes depends on the tree and on the new boxes, not on the boxes stored
before.  Two structures with the same links (in range, children behind their parents) and whatever boxes, stale ones
included, get the same nodes, or both calls panic. -/
theorem C109_stale_boxes_partial (b c : Bvh F) (bbs : List (Aabb F)) (hs : b.SameLinks c) (hl : c.LinksOk)
    (hn : c.nodes.length < 2 ^ 31) :
    (b.refit bbs).map Bvh.nodes = (c.refit bbs).map Bvh.nodes ∧
    (b.refit bbs).map Bvh.primIndices = (c.refit bbs).map Bvh.primIndices := by
  obtain ⟨hi, hw⟩ := hs
  have hlen : b.nodes.length = c.nodes.length := by simpa using congrArg List.length hw
  have key : refitLoop b.primIndices bbs b.nodes.length b.nodes = refitLoop c.primIndices bbs c.nodes.length c.nodes := by
    rw [hi, hlen]
    refine refitLoop_sameLinks _ _ _ hlen (fun j x y _ hx hy => ?_) fun j hj => ?_
    · have := congrArg (·[j]?) hw
      simp only [List.getElem?_map, hx, hy, Option.map_some, Option.some.injEq, Prod.mk.injEq] at this
      refine ⟨this.1, this.2, fun hneg => ?_⟩
      have := (hl j y hy).2 hneg
      omega
    · rw [List.getElem?_eq_none (by omega), List.getElem?_eq_none (by omega)]
  unfold Bvh.refit
  rw [key]
  cases refitLoop c.primIndices bbs c.nodes.length c.nodes with
  | none => exact ⟨rfl, rfl⟩
  | some ns => exact ⟨rfl, congrArg some hi⟩

theorem refitLoop_hollow {idx : List Nat} {bbs : List (Aabb F)} : ∀ (i : Nat) (nodes nodes' : List (BvhNode F)),
    (∀ j nd, j < i → nodes[j]? = some nd → nd.bounds.extra1 = 0 ∧ nd.bounds.extra2 = 0) →
    (∀ j nd, i ≤ j → nodes[j]? = some nd → nd.bounds = hollow F) →
    refitLoop idx bbs i nodes = some nodes' → ∀ nd ∈ nodes', nd.bounds = hollow F := by
  intro i
  induction i with
  | zero =>
    intro nodes nodes' _ hd e nd hnd
    rw [refitLoop] at e
    cases e
    obtain ⟨j, hj⟩ := List.mem_iff_getElem?.1 hnd
    exact hd j nd (Nat.zero_le j) hj
  | succ i ih =>
    intro nodes nodes' hw hd e
    rw [refitLoop] at e
    cases hnd : nodes[i]? with
    | none => rw [hnd] at e; cases e
    | some nd =>
      rw [hnd] at e
      obtain ⟨e1, e2⟩ := hw i nd (Nat.lt_succ_self i) hnd
      have hb : refitBox nodes idx bbs nd = some (hollow F) := by
        unfold refitBox
        simp [BvhNode.getLeftFirst, BvhNode.isLeaf, BvhNode.countU, e1, e2, refitLeaf, hollow]
      have e' : refitLoop idx bbs i (nodes.set i { bounds := hollow F }) = some nodes' := by
        simpa only [hb] using e
      refine ih _ _ (fun j x hj hx => ?_) (fun j x hj hx => ?_) e'
      · rw [List.getElem?_set_ne (by omega)] at hx
        exact hw j x (by omega) hx
      · by_cases e : j = i
        · subst e
          rw [List.getElem?_set_self (List.getElem?_eq_some_iff.1 hnd).1] at hx
          cases hx
          rfl
        · rw [List.getElem?_set_ne (Ne.symm e)] at hx
          exact hd j x (by omega) hx

/-- C109, refuted for every structure: the second `refit`, with any boxes, the same or other ones, more or fewer of them,
returns and gives every node the inverted box `hollow`; the new boxes are not looked at. -/
theorem C109_second_refit (b b' : Bvh F) (bbs bbs' : List (Aabb F)) (h : b.refit bbs = some b') :
    ∃ b'', b'.refit bbs' = some b'' ∧ b''.nodes.length = b.nodes.length ∧ b''.primIndices = b.primIndices ∧
      ∀ nd ∈ b''.nodes, nd.bounds = hollow F := by
  obtain ⟨hw, hl, hi⟩ := refit_wiped h
  obtain ⟨ns, e⟩ := wiped_refits (idx := b'.primIndices) (bbs := bbs') b'.nodes.length b'.nodes (Nat.le_refl _)
    (fun j nd _ hj => hw nd (List.mem_of_getElem? hj))
  have e' : b'.refit bbs' = some { b' with nodes := ns } := by rw [Bvh.refit, e]; rfl
  obtain ⟨_, hl', hi'⟩ := refit_wiped e'
  refine ⟨_, e', hl'.trans hl, hi'.trans hi, ?_⟩
  exact refitLoop_hollow b'.nodes.length b'.nodes ns (fun j nd _ hj => hw nd (List.mem_of_getElem? hj))
    (fun j nd hj hnd => absurd (List.getElem?_eq_some_iff.1 hnd).1 (by omega)) e

/-- C109, refuted for every animation: once a structure has been refitted, any further frames (at least one) all return, and
leave every node with the inverted box. -/
theorem C109_frames (frames : List (List (Aabb F))) (hne : frames ≠ []) : ∀ (b b' : Bvh F) (bbs : List (Aabb F)),
    b.refit bbs = some b' →
    ∃ c, frames.foldlM (fun (s : Bvh F) (boxes : List (Aabb F)) => s.refit boxes) b' = some c ∧
      c.nodes.length = b.nodes.length ∧ c.primIndices = b.primIndices ∧ ∀ nd ∈ c.nodes, nd.bounds = hollow F := by
  induction frames with
  | nil => exact absurd rfl hne
  | cons x xs ih =>
    intro b b' bbs h
    obtain ⟨b'', e, hl, hi, hb⟩ := C109_second_refit b b' bbs x h
    rw [List.foldlM_cons, e]
    cases hxs : xs with
    | nil => exact ⟨b'', rfl, hl, hi, hb⟩
    | cons y ys =>
      obtain ⟨_, hl', hi'⟩ := refit_wiped h
      obtain ⟨c, ec, hcl, hci, hcb⟩ := ih (by rw [hxs]; exact List.cons_ne_nil _ _) b' b'' x e
      rw [hxs] at ec
      exact ⟨c, ec, hcl.trans hl', hci.trans hi', hcb⟩

theorem hollow_contains (v : Vec3 F32) : (hollow F32).contains v = false := by
  have hlt : ((hollow F32).max.x <. (hollow F32).min.x) = true := by decide +kernel
  rw [Bool.eq_false_iff]
  intro hc
  unfold Aabb.contains Vec3.allGt Vec3.allLt at hc
  simp only [Bool.and_eq_true] at hc
  have h1 : ((hollow F32).min.x <. v.x) = true := hc.1.1.1
  have h2 : (v.x <. (hollow F32).max.x) = true := hc.2.1.1
  obtain ⟨n1, n2, h1⟩ := LawfulFloat.lt_iff.1 h1
  obtain ⟨_, n3, h2⟩ := LawfulFloat.lt_iff.1 h2
  obtain ⟨_, _, h3⟩ := LawfulFloat.lt_iff.1 hlt
  have a1 := (LawfulFloat.le_total n1 n2).resolve_right (by rw [h1]; exact Bool.false_ne_true)
  have a2 := (LawfulFloat.le_total n2 n3).resolve_right (by rw [h2]; exact Bool.false_ne_true)
  rw [LawfulFloat.le_trans a1 a2] at h3
  cases h3

/-- C109, refuted, what a program sees in single precision: after the second `refit`, whatever boxes it is given, no box of
the structure contains any point, and neither does what `bounds()` returns. -/
theorem C109_second_refit_nowhere (b b' b'' : Bvh F32) (bbs bbs' : List (Aabb F32)) (h : b.refit bbs = some b')
    (h' : b'.refit bbs' = some b'') (hne : b.nodes ≠ []) :
    (∀ nd ∈ b''.nodes, ∀ v : Vec3 F32, nd.bounds.contains v = false) ∧
    ∀ v : Vec3 F32, b''.bounds.contains v = false := by
  obtain ⟨c, e, hl, _, hb⟩ := C109_second_refit b b' bbs bbs' h
  cases h'.symm.trans e
  have h1 : ∀ nd ∈ b''.nodes, ∀ v : Vec3 F32, nd.bounds.contains v = false := fun nd hnd v => by
    rw [hb nd hnd]
    exact hollow_contains v
  refine ⟨h1, fun v => ?_⟩
  cases hc : b''.nodes with
  | nil => rw [hc] at hl; exact absurd (List.length_eq_zero_iff.1 hl.symm) hne
  | cons nd _ =>
    unfold Bvh.bounds
    rw [hc]
    exact h1 nd (by rw [hc]; exact List.mem_cons_self) v

/-- C109, refuted, the same boxes twice: the BVH of four cubes, refitted to its own boxes, has a root that contains the
middle of the first cube; refitted to them once more, it has not. -/
theorem C109_same_boxes_twice : ∃ (b b' b'' : Bvh F32) (bbs : List (Aabb F32)) (v : Vec3 F32),
    b.refit bbs = some b' ∧ b'.refit bbs = some b'' ∧ b'.bounds.contains v = true ∧ b''.bounds.contains v = false := by
  have key : ((builtTree ((cubeScene [(20, 1), (0, 1), (30, 1), (10, 1)] none : Builder F32).constructBinnedSah
      (List.range 4) (List.replicate 10 0))).bind fun x =>
        x.1.refit ((cubeScene [(20, 1), (0, 1), (30, 1), (10, 1)] none : Builder F32).boxes [])).map
        (fun b => b.bounds.contains ⟨lit 20 0, zero, zero⟩ && !b.nodes.isEmpty) = some true := by decide +kernel
  obtain ⟨b', hb', hc⟩ := Option.map_eq_some_iff.1 key
  obtain ⟨x, _, hx⟩ := Option.bind_eq_some_iff.1 hb'
  rw [Bool.and_eq_true] at hc
  obtain ⟨b'', e, hl, _⟩ := C109_second_refit x.1 b' _ ((cubeScene [(20, 1), (0, 1), (30, 1), (10, 1)] none : Builder F32).boxes []) hx
  refine ⟨x.1, b', b'', _, _, hx, e, hc.1, (C109_second_refit_nowhere x.1 b' b'' _ _ hx e fun hn => ?_).2 _⟩
  have := (refit_wiped hx).2.1
  rw [hn] at this
  rw [List.length_eq_zero_iff.1 this] at hc
  cases hc.2

/-- A chain of two inner nodes whose boxes are all stale (inverted). -/
def staleChain : Bvh Rat :=
  { chainBvh 2 with nodes := (chainBvh 2).nodes.map fun nd =>
      { bounds := { (hollow Rat) with extra1 := nd.bounds.extra1, extra2 := nd.bounds.extra2 } } }

/-- `C109_stale_boxes_partial` is not vacuous: the chain, and the chain with stale boxes, which `refit` repairs. -/
example : staleChain.SameLinks (chainBvh 2) ∧ staleChain.nodes ≠ (chainBvh 2).nodes ∧ (chainBvh 2).LinksOk ∧
    ∃ b', staleChain.refit [Aabb.full] = some b' ∧ b'.bounds.contains ⟨1, 2, 3⟩ = true := by
  have hr : (staleChain.refit [Aabb.full]).map (fun b => b.bounds.contains ⟨1, 2, 3⟩) = some true := by decide +kernel
  refine ⟨⟨rfl, by decide +kernel⟩, by decide +kernel, ?_, Option.map_eq_some_iff.1 hr⟩
  intro i nd hnd
  have hlt := (List.getElem?_eq_some_iff.1 hnd).1
  have h5 : (chainBvh 2 : Bvh Rat).nodes.length = 5 := by decide +kernel
  rw [h5] at hlt
  have : ∀ i < 5, ∀ nd, (chainBvh 2 : Bvh Rat).nodes[i]? = some nd → nd.LinksOk 5 (chainBvh 2 : Bvh Rat).primIndices.length i := by
    intro i hi nd hnd
    unfold BvhNode.LinksOk
    interval_cases i <;> (cases hnd; decide +kernel)
  rw [h5]
  exact this i hlt nd hnd

end Rtbvh
