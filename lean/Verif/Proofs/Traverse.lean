import Verif.Spec.Visit
/- The stack machine of the binary iterators implements the recursive specification. -/
namespace Rtbvh
variable {F σ τ ι : Type}

theorem Run.andThen_finished {a : Run σ ι} (h : a.ending = .finished) (k : σ → Run σ ι) :
    a.andThen k = { k a.ray with items := a.items ++ (k a.ray).items } := by simp [Run.andThen, h]
theorem Run.andThen_not {a : Run σ ι} (h : a.ending ≠ .finished) (k : σ → Run σ ι) : a.andThen k = a := by
  simp [Run.andThen, h]

theorem Run.andThen_assoc (a : Run σ ι) (f g : σ → Run σ ι) :
    (a.andThen f).andThen g = a.andThen (fun s => (f s).andThen g) := by
  by_cases h : a.ending = .finished
  · rw [Run.andThen_finished h, Run.andThen_finished h]
    by_cases h2 : (f a.ray).ending = .finished
    · rw [Run.andThen_finished (a := { f a.ray with items := a.items ++ (f a.ray).items }) h2,
        Run.andThen_finished h2]
      simp
    · rw [Run.andThen_not (a := { f a.ray with items := a.items ++ (f a.ray).items }) h2, Run.andThen_not h2]
  · rw [Run.andThen_not h, Run.andThen_not h, Run.andThen_not h]

theorem Run.andThen_finish (a : Run σ ι) : a.andThen (fun r => ⟨[], r, .finished⟩) = a := by
  by_cases h : a.ending = .finished
  · rw [Run.andThen_finished h]; cases a; simp_all
  · rw [Run.andThen_not h]

theorem Run.cons_andThen (x : ι) (a : Run σ ι) (k : σ → Run σ ι) : (a.cons x).andThen k = (a.andThen k).cons x := by
  by_cases h : a.ending = .finished
  · rw [Run.andThen_finished h, Run.andThen_finished (a := a.cons x) h]; rfl
  · rw [Run.andThen_not h, Run.andThen_not (a := a.cons x) h]

theorem drive_step_cont {step : Trav σ → Step σ ι} {cb : σ → ι → σ × Bool} {fuel : Nat} {t t' : Trav σ}
    (h : step t = .cont t') : drive step cb (fuel + 1) t = drive step cb fuel t' := by
  simp [drive, h]

theorem atI32_nat {α : Type} (l : List α) (x : Nat) : atI32 l (x : Int) = l[x]? := by simp [atI32]

/-- One leaf, with a step function that yields `item k` at position `k`. -/
theorem drive_leaf {step : Trav σ → Step σ ι} {cb : σ → ι → σ × Bool} {c : Nat} {items : List ι} (hlen : items.length = c)
    {top : Int} {rest : List Int}
    (hy : ∀ (ray : σ) (k : Nat) (x : ι), items[k]? = some x →
      step ⟨ray, k, top :: rest⟩ = .yield x ⟨ray, (k : Int) + 1, top :: rest⟩)
    (he : ∀ ray : σ, step ⟨ray, c, top :: rest⟩ = .cont ⟨ray, 0, rest⟩) :
    ∀ (m k : Nat) (ray : σ), k + m = c → ∃ n, n ≤ m + 1 ∧ ∀ fuel,
      drive step cb (n + fuel) ⟨ray, k, top :: rest⟩ =
        (visitItems cb (items.drop k) ray).andThen (fun r => drive step cb fuel ⟨r, 0, rest⟩) := by
  intro m
  induction m with
  | zero =>
    intro k ray hk
    obtain rfl : k = c := by omega
    refine ⟨1, by omega, fun fuel => ?_⟩
    rw [Nat.add_comm, drive_step_cont (he ray), List.drop_eq_nil_of_le (by omega)]
    simp [visitItems, Run.andThen]
  | succ m ih =>
    intro k ray hk
    have hki : k < items.length := by omega
    rw [List.drop_eq_getElem_cons hki]
    have hs := hy ray k items[k] (List.getElem?_eq_getElem hki)
    cases hcb : cb ray items[k] with
    | mk ray' stop =>
      cases stop with
      | true =>
        refine ⟨1, by omega, fun fuel => ?_⟩
        rw [Nat.add_comm, drive, hs]
        simp only [hcb, visitItems]
        rw [Run.andThen_not (by simp)]
      | false =>
        obtain ⟨n, hn, hd⟩ := ih (k + 1) ray' (by omega)
        refine ⟨n + 1, by omega, fun fuel => ?_⟩
        rw [show n + 1 + fuel = (n + fuel) + 1 by omega, drive, hs]
        simp only [hcb, visitItems]
        rw [Run.cons_andThen, ← hd fuel]
        rfl

variable {nodes : List (BvhNode F)} {indices : List Nat} {hit : Aabb F → σ → Option τ} {closer : τ → τ → Bool}

/-- What the two step functions have in common, as seen from a tree. -/
structure StepSpec (nodes : List (BvhNode F)) (hit : Aabb F → σ → Option τ) (closer : τ → τ → Bool)
    (step : Trav σ → Step σ ι) : Prop where
  interior : ∀ {i lf : Nat} {nd l r : BvhNode F} (ray : σ) (rest : List Int), nodes[i]? = some nd →
    nd.bounds.extra1 < 0 → nd.bounds.extra2 = (lf : Int) → nodes[lf]? = some l → nodes[lf + 1]? = some r →
    step ⟨ray, 0, (i : Int) :: rest⟩ =
      match sortNodes closer (hit l.bounds ray) (hit r.bounds ray) rest lf with
      | none => .panic
      | some st => .cont ⟨ray, 0, st⟩
  leafEnd : ∀ {i c : Nat} {nd : BvhNode F} (ray : σ) (rest : List Int), nodes[i]? = some nd →
    nd.bounds.extra1 = (c : Int) → step ⟨ray, c, (i : Int) :: rest⟩ = .cont ⟨ray, 0, rest⟩
  empty : ∀ (ray : σ) (k : Int), step ⟨ray, k, []⟩ = .done

/-- A leaf of the tree hands out `items f c`. -/
def LeafSpec (nodes : List (BvhNode F)) (step : Trav σ → Step σ ι) (items : Nat → Nat → List ι) (f c : Nat) : Prop :=
  (items f c).length = c ∧ ∀ {i : Nat} {nd : BvhNode F} (ray : σ) (rest : List Int) (k : Nat) (x : ι),
    nodes[i]? = some nd → nd.bounds.extra1 = (c : Int) → nd.bounds.extra2 = (f : Int) → (items f c)[k]? = some x →
    step ⟨ray, k, (i : Int) :: rest⟩ = .yield x ⟨ray, (k : Int) + 1, (i : Int) :: rest⟩

/-- Every leaf of a tree satisfies `P first count`. -/
def BTree.AllLeaves (P : Nat → Nat → Prop) : BTree F → Prop
  | .leaf _ f c => P f c
  | .node _ l r => l.AllLeaves P ∧ r.AllLeaves P

theorem Unfolds.root {nodes : List (BvhNode F)} {i : Nat} {T : BTree F} (h : Unfolds nodes i T) :
    ∃ nd, nodes[i]? = some nd ∧ T.bounds = nd.bounds.clean := by
  cases h with
  | leaf h => exact ⟨_, h, rfl⟩
  | node h => exact ⟨_, h, rfl⟩

theorem drive_visit {step : Trav σ → Step σ ι} (hs : StepSpec nodes hit closer step)
    (hclean : ∀ a r, hit a.clean r = hit a r) {items : Nat → Nat → List ι} (cb : σ → ι → σ × Bool)
    {idx : Nat} {T : BTree F} (hU : Unfolds nodes idx T) : T.AllLeaves (LeafSpec nodes step items) →
    ∀ (rest : List Int) (ray : σ), T.depth + rest.length + 1 ≤ 32 →
    ∃ n, n ≤ T.rounds ∧ ∀ fuel, drive step cb (n + fuel) ⟨ray, 0, (idx : Int) :: rest⟩ =
      (T.visit items hit closer cb ray).andThen (fun r => drive step cb fuel ⟨r, 0, rest⟩) := by
  induction hU with
  | @leaf i f c nd h hc hf =>
    intro hL rest ray hd
    obtain ⟨n, hn, hdr⟩ := drive_leaf (cb := cb) hL.1 (fun ray k x hx => hL.2 ray rest k x h hc hf hx)
      (fun ray => hs.leafEnd ray rest h hc) c 0 ray (by omega)
    exact ⟨n, hn, fun fuel => by simpa [BTree.visit] using hdr fuel⟩
  | @node i lf nd l r h hc hl ul ur ihl ihr =>
    intro hL rest ray hd
    obtain ⟨hLl, hLr⟩ := hL
    obtain ⟨ln, eln, bln⟩ := ul.root
    obtain ⟨rn, ern, brn⟩ := ur.root
    have hstep := hs.interior ray rest h hc hl eln ern
    simp only [BTree.depth] at hd
    have hl1 : hit l.bounds ray = hit ln.bounds ray := by rw [bln, hclean]
    have hr1 : hit r.bounds ray = hit rn.bounds ray := by rw [brn, hclean]
    have two : ∀ (A B : BTree F) (a b : Nat),
        (∀ (rest : List Int) (ray : σ), A.depth + rest.length + 1 ≤ 32 → ∃ n, n ≤ A.rounds ∧ ∀ fuel,
          drive step cb (n + fuel) ⟨ray, 0, (a : Int) :: rest⟩ =
          (A.visit items hit closer cb ray).andThen (fun r => drive step cb fuel ⟨r, 0, rest⟩)) →
        (∀ (rest : List Int) (ray : σ), B.depth + rest.length + 1 ≤ 32 → ∃ n, n ≤ B.rounds ∧ ∀ fuel,
          drive step cb (n + fuel) ⟨ray, 0, (b : Int) :: rest⟩ =
          (B.visit items hit closer cb ray).andThen (fun r => drive step cb fuel ⟨r, 0, rest⟩)) →
        A.depth + rest.length + 2 ≤ 32 → B.depth + rest.length + 2 ≤ 32 →
        ∃ n, n ≤ A.rounds + B.rounds ∧ ∀ fuel,
          drive step cb (n + fuel) ⟨ray, 0, (a : Int) :: (b : Int) :: rest⟩ =
          ((A.visit items hit closer cb ray).andThen (B.visit items hit closer cb)).andThen
            (fun r => drive step cb fuel ⟨r, 0, rest⟩) := by
      intro A B a b hA hB dA dB
      obtain ⟨na, ha, eA⟩ := hA ((b : Int) :: rest) ray (by simp; omega)
      obtain ⟨nb, hb, eB⟩ := hB rest (A.visit items hit closer cb ray).ray (by omega)
      refine ⟨na + nb, by omega, fun fuel => ?_⟩
      rw [show na + nb + fuel = na + (nb + fuel) by omega, eA, Run.andThen_assoc]
      by_cases hf : (A.visit items hit closer cb ray).ending = .finished
      · rw [Run.andThen_finished hf, Run.andThen_finished hf, eB]
      · rw [Run.andThen_not hf, Run.andThen_not hf]
    have e1 : ((lf : Nat) : Int) + 1 = ((lf + 1 : Nat) : Int) := by omega
    simp only [BTree.visit, hl1, hr1]
    have p1 : push32 rest (lf : Int) = some ((lf : Int) :: rest) := by rw [push32, if_pos (by omega)]
    have p2 : push32 rest ((lf : Int) + 1) = some (((lf : Int) + 1) :: rest) := by rw [push32, if_pos (by omega)]
    have q1 : push32 (((lf : Int) + 1) :: rest) (lf : Int) = some ((lf : Int) :: ((lf : Int) + 1) :: rest) := by
      rw [push32, if_pos (by simp; omega)]
    have q2 : push32 ((lf : Int) :: rest) ((lf : Int) + 1) = some (((lf : Int) + 1) :: (lf : Int) :: rest) := by
      rw [push32, if_pos (by simp; omega)]
    cases hL' : hit ln.bounds ray with
    | none =>
      cases hR' : hit rn.bounds ray with
      | none =>
        rw [hL', hR'] at hstep
        refine ⟨1, by simp [BTree.rounds], fun fuel => ?_⟩
        rw [Nat.add_comm, drive_step_cont (by rw [hstep]; rfl)]
        rw [Run.andThen_finished rfl]
        rfl
      | some tr =>
        rw [hL', hR'] at hstep
        simp only [sortNodes, p2] at hstep
        obtain ⟨n, hn, e⟩ := ihr hLr rest ray (by omega)
        refine ⟨n + 1, by simp [BTree.rounds]; omega, fun fuel => ?_⟩
        rw [show n + 1 + fuel = (n + fuel) + 1 by omega, drive_step_cont hstep, e1, e]
    | some tl =>
      cases hR' : hit rn.bounds ray with
      | none =>
        rw [hL', hR'] at hstep
        simp only [sortNodes, p1] at hstep
        obtain ⟨n, hn, e⟩ := ihl hLl rest ray (by omega)
        refine ⟨n + 1, by simp [BTree.rounds]; omega, fun fuel => ?_⟩
        rw [show n + 1 + fuel = (n + fuel) + 1 by omega, drive_step_cont hstep, e]
      | some tr =>
        rw [hL', hR'] at hstep
        simp only [sortNodes, p1, p2, Option.bind_some, q1, q2] at hstep
        by_cases hcl : closer tl tr = true
        · rw [if_pos hcl] at hstep
          obtain ⟨n, hn, e⟩ := two r l (lf + 1) lf (ihr hLr) (ihl hLl) (by omega) (by omega)
          refine ⟨n + 1, by simp [BTree.rounds]; omega, fun fuel => ?_⟩
          rw [show n + 1 + fuel = (n + fuel) + 1 by omega, drive_step_cont hstep, e1, e]
          simp [hcl]
        · rw [if_neg hcl] at hstep
          obtain ⟨n, hn, e⟩ := two l r lf (lf + 1) (ihl hLl) (ihr hLr) (by omega) (by omega)
          refine ⟨n + 1, by simp [BTree.rounds]; omega, fun fuel => ?_⟩
          rw [show n + 1 + fuel = (n + fuel) + 1 by omega, drive_step_cont hstep, e1, e]
          simp [hcl]

/-- The whole traversal from a fresh iterator. -/
theorem drive_fresh {step : Trav σ → Step σ ι} (hs : StepSpec nodes hit closer step)
    (hclean : ∀ a r, hit a.clean r = hit a r) {items : Nat → Nat → List ι} (cb : σ → ι → σ × Bool)
    {T : BTree F} (hU : Unfolds nodes 0 T) (hL : T.AllLeaves (LeafSpec nodes step items)) (ray : σ)
    (hd : T.depth ≤ 31) {fuel : Nat} (hf : T.rounds < fuel) :
    drive step cb fuel ⟨ray, 0, [0]⟩ = T.visit items hit closer cb ray := by
  obtain ⟨n, hn, e⟩ := drive_visit hs hclean cb hU hL [] ray (by simp; omega)
  obtain ⟨m, rfl⟩ : ∃ m, fuel = n + (m + 1) := ⟨fuel - n - 1, by omega⟩
  have := e (m + 1)
  simp only [Int.ofNat_zero] at this
  rw [this]
  have : (fun r => drive step cb (m + 1) ⟨r, 0, []⟩) = fun r => (⟨[], r, .finished⟩ : Run σ ι) := by
    funext r; simp [drive, hs.empty]
  rw [this, Run.andThen_finish]

theorem bvhIndexStep_spec : StepSpec nodes hit closer (bvhIndexStep nodes indices hit closer) := by
  refine ⟨?_, ?_, ?_⟩
  · intro i lf nd l r ray rest h hc hl hln hrn
    have e1 : ((lf : Nat) : Int) + 1 = ((lf + 1 : Nat) : Int) := by omega
    simp only [bvhIndexStep, atI32_nat, h, BvhNode.countU, BvhNode.leftFirstU, hl]
    rw [if_neg (by omega), if_pos (by omega), e1, atI32_nat, hrn, hln]
    rfl
  · intro i c nd ray rest h hc
    simp only [bvhIndexStep, atI32_nat, h, BvhNode.countU, BvhNode.leftFirstU, hc]
    rw [if_pos (by omega), if_neg (by omega)]
  · intro ray k; rfl

theorem bvhIndexStep_leaf {f c : Nat} (hin : f + c ≤ indices.length) :
    LeafSpec nodes (bvhIndexStep nodes indices hit closer) (BTree.rangeIds indices) f c := by
  have hl : (BTree.rangeIds indices f c).length = c := by simp [BTree.rangeIds]; omega
  refine ⟨hl, ?_⟩
  intro i nd ray rest k x h hc hf hx
  have hk : k < c := by rw [← hl]; exact (List.getElem?_eq_some_iff.1 hx).1
  have e1 : ((f : Nat) : Int) + (k : Nat) = ((f + k : Nat) : Int) := by omega
  simp only [bvhIndexStep, atI32_nat, h, BvhNode.countU, BvhNode.leftFirstU, hc, hf]
  rw [if_pos (by omega), if_pos (by omega), e1, atI32_nat]
  have : indices[f + k]? = some x := by
    rw [← hx]; simp [BTree.rangeIds, hk]
  rw [this]

theorem BTree.AllLeaves.of_rangesIn {P : Nat → Nat → Prop} {T : BTree F} (h : T.RangesIn indices)
    (hp : ∀ f c, f + c ≤ indices.length → P f c) : T.AllLeaves P := by
  induction T with
  | leaf b f c => exact hp f c h
  | node b l r ihl ihr => exact ⟨ihl h.1, ihr h.2⟩

end Rtbvh
