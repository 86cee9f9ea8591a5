import Verif.Proofs.Traverse
/- Facts about the recursive traversal. -/
namespace Rtbvh
variable {F σ τ ι : Type} {items : Nat → Nat → List ι} {hit : Aabb F → σ → Option τ} {closer : τ → τ → Bool}
  {cb : σ → ι → σ × Bool}

/-- A property of runs that is closed under sequencing and holds of all leaf visits holds of all visits. -/
theorem BTree.visit_induct {Q : σ → Run σ ι → Prop} (hleaf : ∀ (xs : List ι) ray, Q ray (visitItems cb xs ray))
    (hseq : ∀ ray (a : Run σ ι) k, Q ray a → (a.ending = .finished → Q a.ray (k a.ray)) → Q ray (a.andThen k))
    (T : BTree F) : ∀ ray, Q ray (T.visit items hit closer cb ray) := by
  induction T with
  | leaf b f c => intro ray; exact hleaf _ _
  | node b l r ihl ihr =>
    intro ray
    rw [BTree.visit]
    split
    · split
      · exact hseq _ _ _ (ihr ray) (fun _ => ihl _)
      · exact hseq _ _ _ (ihl ray) (fun _ => ihr _)
    · exact ihl ray
    · exact ihr ray
    · exact hleaf [] ray

/-- Invariants of the caller are invariants of the traversal. -/
theorem visit_inv {Inv : σ → Prop} (hcb : ∀ r x, Inv r → Inv (cb r x).1) (T : BTree F) (ray : σ) (h : Inv ray) :
    Inv (T.visit items hit closer cb ray).ray := by
  refine T.visit_induct (Q := fun ray run => Inv ray → Inv run.ray) ?_ ?_ ray h
  · intro xs
    induction xs with
    | nil => intro ray h; exact h
    | cons x xs ih =>
      intro ray h
      have h1 := hcb ray x h
      rw [visitItems]
      split
      · rename_i r' e; rw [e] at h1; exact h1
      · rename_i r' e; rw [e] at h1; exact ih r' h1
  · intro ray a k ha hk h
    by_cases hf : a.ending = .finished
    · rw [Run.andThen_finished hf]; exact hk hf (ha h)
    · rw [Run.andThen_not hf]; exact ha h

/-- A caller that never breaks sees the whole traversal. -/
theorem visit_finished (hcb : ∀ r x, (cb r x).2 = false) (T : BTree F) (ray : σ) :
    (T.visit items hit closer cb ray).ending = .finished := by
  refine T.visit_induct (Q := fun _ run => run.ending = .finished) ?_ ?_ ray
  · intro xs
    induction xs with
    | nil => intro ray; rfl
    | cons x xs ih =>
      intro ray
      have h1 := hcb ray x
      rw [visitItems]
      split
      · rename_i r' e; rw [e] at h1; simp at h1
      · rename_i r' e; exact ih r'
  · intro ray a k ha hk
    rw [Run.andThen_finished ha]; exact hk ha

/-- A traversal on a well-formed tree neither panics nor runs out. -/
theorem visit_ending (T : BTree F) (ray : σ) :
    (T.visit items hit closer cb ray).ending = .finished ∨ (T.visit items hit closer cb ray).ending = .stopped := by
  refine T.visit_induct (Q := fun _ run => run.ending = .finished ∨ run.ending = .stopped) ?_ ?_ ray
  · intro xs
    induction xs with
    | nil => intro ray; exact .inl rfl
    | cons x xs ih =>
      intro ray
      rw [visitItems]
      split
      · exact .inr rfl
      · exact ih _
  · intro ray a k ha hk
    by_cases hf : a.ending = .finished
    · rw [Run.andThen_finished hf]; exact hk hf
    · rw [Run.andThen_not hf]; exact ha

theorem visitItems_finished {xs : List ι} {ray : σ} (h : (visitItems cb xs ray).ending = .finished) :
    (visitItems cb xs ray).items = xs := by
  induction xs generalizing ray with
  | nil => rfl
  | cons x xs ih =>
    rw [visitItems] at h ⊢
    split
    · rename_i r' e; rw [e] at h; simp at h
    · rename_i r' e
      rw [e] at h
      show x :: _ = x :: _
      rw [ih (ray := r') h]

theorem visitItems_prefix (xs : List ι) (ray : σ) : (visitItems cb xs ray).items <+: xs := by
  induction xs generalizing ray with
  | nil => exact List.prefix_refl _
  | cons x xs ih =>
    rw [visitItems]
    split
    · exact ⟨xs, rfl⟩
    · exact (List.prefix_cons_inj x).2 (ih _)

theorem andThen_items_le [BEq ι] (a : Run σ ι) (k : σ → Run σ ι) (p : ι) {m n : Nat}
    (h1 : a.items.count p ≤ m) (h2 : a.ending = .finished → (k a.ray).items.count p ≤ n) :
    (a.andThen k).items.count p ≤ m + n := by
  by_cases hf : a.ending = .finished
  · rw [Run.andThen_finished hf]; simp only [List.count_append]; have := h2 hf; omega
  · rw [Run.andThen_not hf]; omega

/-- Upper bound: what is visited lies in leaves whose ancestors pass a test implied by `hit`. -/
theorem visit_count_le {idx : List Nat} {cb : σ → Nat → σ × Bool} {Inv : σ → Prop}
    (hcb : ∀ r x, Inv r → Inv (cb r x).1) {pass : Aabb F → Bool}
    (hp : ∀ a r, Inv r → (hit a r).isSome = true → pass a = true) (p : Nat) (T : BTree F) :
    ∀ ray, Inv ray → (T.visit (BTree.rangeIds idx) hit closer cb ray).items.count p ≤ (T.reach idx pass).count p := by
  induction T with
  | leaf b f c => intro ray _; exact (visitItems_prefix _ _).sublist.count_le p
  | node b l r ihl ihr =>
    intro ray hI
    rw [BTree.visit, BTree.reach, List.count_append]
    have pl := hp l.bounds ray hI
    have pr := hp r.bounds ray hI
    split
    · rename_i tl tr e1 e2
      rw [e1] at pl; rw [e2] at pr
      rw [pl rfl, pr rfl, if_pos rfl, if_pos rfl]
      split
      · rw [Nat.add_comm]
        exact andThen_items_le _ _ _ (ihr ray hI) (fun _ => ihl _ (visit_inv hcb r ray hI))
      · exact andThen_items_le _ _ _ (ihl ray hI) (fun _ => ihr _ (visit_inv hcb l ray hI))
    · rename_i tl e1 e2
      rw [e1] at pl
      rw [pl rfl, if_pos rfl]
      exact Nat.le_trans (ihl ray hI) (Nat.le_add_right _ _)
    · rename_i tr e1 e2
      rw [e2] at pr
      rw [pr rfl, if_pos rfl]
      exact Nat.le_trans (ihr ray hI) (Nat.le_add_left _ _)
    · simp

theorem andThen_items_ge [BEq ι] (a : Run σ ι) (k : σ → Run σ ι) (p : ι) {m n : Nat}
    (hf : (a.andThen k).ending = .finished)
    (h1 : a.ending = .finished → m ≤ a.items.count p)
    (h2 : (k a.ray).ending = .finished → n ≤ (k a.ray).items.count p) :
    m + n ≤ (a.andThen k).items.count p := by
  by_cases h : a.ending = .finished
  · rw [Run.andThen_finished h] at hf ⊢
    simp only [List.count_append]
    have := h1 h; have := h2 hf; omega
  · rw [Run.andThen_not h] at hf; exact absurd hf h

/-- Lower bound: leaves whose ancestors pass a test that implies `hit` are visited. -/
theorem visit_count_ge {idx : List Nat} {cb : σ → Nat → σ × Bool} {Inv : σ → Prop}
    (hcb : ∀ r x, Inv r → Inv (cb r x).1) {pass : Aabb F → Bool}
    (hp : ∀ a r, Inv r → pass a = true → (hit a r).isSome = true) (p : Nat) (T : BTree F) :
    ∀ ray, Inv ray → (T.visit (BTree.rangeIds idx) hit closer cb ray).ending = .finished →
      (T.reach idx pass).count p ≤ (T.visit (BTree.rangeIds idx) hit closer cb ray).items.count p := by
  induction T with
  | leaf b f c => intro ray _ hf; rw [BTree.visit] at hf ⊢; rw [visitItems_finished hf]; exact Nat.le_refl _
  | node b l r ihl ihr =>
    intro ray hI hf
    rw [BTree.visit] at hf ⊢
    rw [BTree.reach, List.count_append]
    have pl := hp l.bounds ray hI
    have pr := hp r.bounds ray hI
    have ifl : ∀ (b : Bool) (xs : List Nat), (if b then xs else []).count p ≤ xs.count p := by
      intro b xs; cases b <;> simp
    have nl : hit l.bounds ray = none → pass l.bounds = false := by
      intro e
      cases h : pass l.bounds with
      | false => rfl
      | true => have := pl h; rw [e] at this; simp at this
    have nr : hit r.bounds ray = none → pass r.bounds = false := by
      intro e
      cases h : pass r.bounds with
      | false => rfl
      | true => have := pr h; rw [e] at this; simp at this
    cases e1 : hit l.bounds ray with
    | none =>
      cases e2 : hit r.bounds ray with
      | none => rw [nl e1, nr e2]; simp
      | some tr =>
        rw [e1, e2] at hf
        rw [nl e1]
        simp only [Bool.false_eq_true, if_false, List.count_nil, Nat.zero_add]
        exact Nat.le_trans (ifl _ _) (ihr ray hI hf)
    | some tl =>
      cases e2 : hit r.bounds ray with
      | none =>
        rw [e1, e2] at hf
        rw [nr e2]
        simp only [Bool.false_eq_true, if_false, List.count_nil, Nat.add_zero]
        exact Nat.le_trans (ifl _ _) (ihl ray hI hf)
      | some tr =>
        rw [e1, e2] at hf
        refine Nat.le_trans (Nat.add_le_add (ifl _ _) (ifl _ _)) ?_
        simp only at hf ⊢
        by_cases hc : closer tl tr = true
        · rw [if_pos hc] at hf ⊢
          rw [Nat.add_comm]
          exact andThen_items_ge _ _ _ hf (fun h => ihr ray hI h) (fun h => ihl _ (visit_inv hcb r ray hI) h)
        · rw [if_neg hc] at hf ⊢
          exact andThen_items_ge _ _ _ hf (fun h => ihl ray hI h) (fun h => ihr _ (visit_inv hcb l ray hI) h)

/-- The caller's relation between earlier and later rays holds between start and end of a traversal. -/
theorem visit_rel {R : σ → σ → Prop} (hrefl : ∀ r, R r r) (htrans : ∀ {a b c}, R a b → R b c → R a c)
    (hcb : ∀ r x, R r (cb r x).1) (T : BTree F) (ray : σ) : R ray (T.visit items hit closer cb ray).ray :=
  visit_inv (Inv := fun r => R ray r) (fun r x h => htrans h (hcb r x)) T ray (hrefl ray)

/-- Lower bound relative to the final ray: leaves whose ancestors pass a test that implies `hit` for every ray from
which the final ray can be reached are visited. -/
theorem visit_count_ge_final {idx : List Nat} {cb : σ → Nat → σ × Bool} {R : σ → σ → Prop} (hrefl : ∀ r, R r r)
    (htrans : ∀ {a b c}, R a b → R b c → R a c) (hcb : ∀ r x, R r (cb r x).1) {pass : Aabb F → Bool} {fin : σ}
    (hp : ∀ a r, R r fin → pass a = true → (hit a r).isSome = true) (p : Nat) (T : BTree F) :
    ∀ ray, (T.visit (BTree.rangeIds idx) hit closer cb ray).ending = .finished →
      R (T.visit (BTree.rangeIds idx) hit closer cb ray).ray fin →
      (T.reach idx pass).count p ≤ (T.visit (BTree.rangeIds idx) hit closer cb ray).items.count p := by
  induction T with
  | leaf b f c => intro ray hf _; rw [BTree.visit] at hf ⊢; rw [visitItems_finished hf]; exact Nat.le_refl _
  | node b l r ihl ihr =>
    intro ray hf hR
    have hray : R ray fin := htrans (visit_rel hrefl htrans hcb (.node b l r) ray) hR
    rw [BTree.visit] at hf hR ⊢
    rw [BTree.reach, List.count_append]
    have pl := hp l.bounds ray hray
    have pr := hp r.bounds ray hray
    have ifl : ∀ (b : Bool) (xs : List Nat), (if b then xs else []).count p ≤ xs.count p := by
      intro b xs; cases b <;> simp
    have nl : hit l.bounds ray = none → pass l.bounds = false := by
      intro e
      cases h : pass l.bounds with
      | false => rfl
      | true => have := pl h; rw [e] at this; simp at this
    have nr : hit r.bounds ray = none → pass r.bounds = false := by
      intro e
      cases h : pass r.bounds with
      | false => rfl
      | true => have := pr h; rw [e] at this; simp at this
    have seq : ∀ (A B : BTree F), (∀ ray, (A.visit (BTree.rangeIds idx) hit closer cb ray).ending = .finished →
        R (A.visit (BTree.rangeIds idx) hit closer cb ray).ray fin →
        (A.reach idx pass).count p ≤ (A.visit (BTree.rangeIds idx) hit closer cb ray).items.count p) →
        (∀ ray, (B.visit (BTree.rangeIds idx) hit closer cb ray).ending = .finished →
        R (B.visit (BTree.rangeIds idx) hit closer cb ray).ray fin →
        (B.reach idx pass).count p ≤ (B.visit (BTree.rangeIds idx) hit closer cb ray).items.count p) →
        ((A.visit (BTree.rangeIds idx) hit closer cb ray).andThen (B.visit (BTree.rangeIds idx) hit closer cb)).ending
          = .finished →
        R ((A.visit (BTree.rangeIds idx) hit closer cb ray).andThen (B.visit (BTree.rangeIds idx) hit closer cb)).ray
          fin →
        (A.reach idx pass).count p + (B.reach idx pass).count p ≤
        ((A.visit (BTree.rangeIds idx) hit closer cb ray).andThen
          (B.visit (BTree.rangeIds idx) hit closer cb)).items.count p := by
      intro A B hA hB hf hR
      by_cases h : (A.visit (BTree.rangeIds idx) hit closer cb ray).ending = .finished
      · rw [Run.andThen_finished h] at hf hR ⊢
        simp only [List.count_append]
        exact Nat.add_le_add (hA ray h (htrans (visit_rel hrefl htrans hcb B _) hR)) (hB _ hf hR)
      · rw [Run.andThen_not h] at hf; exact absurd hf h
    cases e1 : hit l.bounds ray with
    | none =>
      cases e2 : hit r.bounds ray with
      | none => rw [nl e1, nr e2]; simp
      | some tr =>
        rw [e1, e2] at hf hR
        rw [nl e1]
        simp only [Bool.false_eq_true, if_false, List.count_nil, Nat.zero_add]
        exact Nat.le_trans (ifl _ _) (ihr ray hf hR)
    | some tl =>
      cases e2 : hit r.bounds ray with
      | none =>
        rw [e1, e2] at hf hR
        rw [nr e2]
        simp only [Bool.false_eq_true, if_false, List.count_nil, Nat.add_zero]
        exact Nat.le_trans (ifl _ _) (ihl ray hf hR)
      | some tr =>
        rw [e1, e2] at hf hR
        refine Nat.le_trans (Nat.add_le_add (ifl _ _) (ifl _ _)) ?_
        simp only at hf hR ⊢
        by_cases hc : closer tl tr = true
        · rw [if_pos hc] at hf hR ⊢
          rw [Nat.add_comm]
          exact seq r l ihr ihl hf hR
        · rw [if_neg hc] at hf hR ⊢
          exact seq l r ihl ihr hf hR

/-- The final ray is the caller's fold over the items. -/
theorem visit_ray (T : BTree F) (ray : σ) :
    (T.visit items hit closer cb ray).ray =
      (T.visit items hit closer cb ray).items.foldl (fun r x => (cb r x).1) ray := by
  refine T.visit_induct (Q := fun ray run => run.ray = run.items.foldl (fun r x => (cb r x).1) ray) ?_ ?_ ray
  · intro xs
    induction xs with
    | nil => intro ray; rfl
    | cons x xs ih =>
      intro ray
      rw [visitItems]
      split
      · rename_i r' e; simp [e]
      · rename_i r' e; simp only [Run.cons, List.foldl_cons, e]; exact ih r'
  · intro ray a k ha hk
    by_cases hf : a.ending = .finished
    · rw [Run.andThen_finished hf]
      simp only [List.foldl_append]
      rw [← ha]; exact hk hf
    · rw [Run.andThen_not hf]; exact ha

theorem reach_count_le_ids (idx : List Nat) (pass : Aabb F → Bool) (p : Nat) (T : BTree F) :
    (T.reach idx pass).count p ≤ (T.ids idx).count p := by
  induction T with
  | leaf => exact Nat.le_refl _
  | node b l r ihl ihr =>
    rw [BTree.reach, BTree.ids, List.count_append, List.count_append]
    have ifl : ∀ (b : Bool) (xs : List Nat), (if b then xs else []).count p ≤ xs.count p := by
      intro b xs; cases b <;> simp
    exact Nat.add_le_add (Nat.le_trans (ifl _ _) ihl) (Nat.le_trans (ifl _ _) ihr)

/-- An id is reached if every box above it passes. -/
theorem mem_reach_one {idx : List Nat} {pass : Aabb F → Bool} {p : Nat} (T : BTree F)
    (hT : T.Forall idx (fun a ids => p ∈ ids → pass a = true)) (hp : p ∈ T.ids idx) : p ∈ T.reach idx pass := by
  have key : ∀ T : BTree F, T.Forall idx (fun a ids => p ∈ ids → pass a = true) → p ∈ T.ids idx →
      pass T.bounds = true := by
    intro T hT hp
    cases T with
    | leaf b f c => exact hT hp
    | node b l r => exact hT.1 hp
  induction T with
  | leaf => exact hp
  | node b l r ihl ihr =>
    rw [BTree.reach, List.mem_append]
    rcases List.mem_append.1 hp with h | h
    · left
      rw [if_pos (key l hT.2.1 h)]
      exact ihl hT.2.1 h
    · right
      rw [if_pos (key r hT.2.2 h)]
      exact ihr hT.2.2 h

/-- If boxes contain what is below them and the test is monotone along that, then every id whose own box passes is
reached. -/
theorem mem_reach_of_pass {idx : List Nat} {pass : Aabb F → Bool} {p : Nat} {Contains : Aabb F → Nat → Prop}
    (hmono : ∀ a, Contains a p → pass a = true) (T : BTree F)
    (hT : T.Forall idx (fun a ids => ∀ q ∈ ids, Contains a q)) (hp : p ∈ T.ids idx) : p ∈ T.reach idx pass := by
  have key : ∀ T : BTree F, T.Forall idx (fun a ids => ∀ q ∈ ids, Contains a q) → p ∈ T.ids idx →
      Contains T.bounds p := by
    intro T hT hp
    cases T with
    | leaf b f c => exact hT p hp
    | node b l r => exact hT.1 p hp
  induction T with
  | leaf => exact hp
  | node b l r ihl ihr =>
    rw [BTree.reach, List.mem_append]
    rcases List.mem_append.1 hp with h | h
    · left
      rw [if_pos (hmono _ (key l hT.2.1 h))]
      exact ihl hT.2.1 h
    · right
      rw [if_pos (hmono _ (key r hT.2.2 h))]
      exact ihr hT.2.2 h

end Rtbvh
