import Verif.Proofs.QVisit
/- A loop that makes the box tests fail more often leaves ids out but keeps their order: the sequence of a loop is a
sublist of the sequence of a loop that leaves the ray alone. -/
namespace Rtbvh
variable {F σ τ ι : Type} {R : σ → σ → Prop}

/-- From every ray after `ray`, the run yields a sublist of `xs`. -/
def Thin (R : σ → σ → Prop) (ray : σ) (k : σ → Run σ ι) (xs : List ι) : Prop :=
  ∀ r, R ray r → (k r).items.Sublist xs ∧ R ray (k r).ray

/-- The run never breaks off; if it ends before `fin`, it yields `xs` at least. -/
def Thick (R : σ → σ → Prop) (fin : σ) (k : σ → Run σ ι) (xs : List ι) : Prop :=
  ∀ r, (k r).ending = .finished ∧ R r (k r).ray ∧ (R (k r).ray fin → xs.Sublist (k r).items)

/-- From `ray` the run yields `xs` and leaves the ray alone. -/
def Still (ray : σ) (k : σ → Run σ ι) (xs : List ι) : Prop := k ray = ⟨xs, ray, .finished⟩

theorem Still.andThen {ray : σ} {k₁ k₂ : σ → Run σ ι} {xs ys : List ι} (h₁ : Still ray k₁ xs) (h₂ : Still ray k₂ ys) :
    Still ray (fun r => (k₁ r).andThen k₂) (xs ++ ys) := by
  unfold Still at *
  show (k₁ ray).andThen k₂ = _
  rw [h₁, Run.andThen_finished rfl]
  simp only [h₂]

theorem Still.inOrder {ray : σ} {k : Fin 4 → σ → Run σ ι} {xs : Fin 4 → List ι} (h : ∀ i, Still ray (k i) (xs i)) :
    ∀ ss, Still ray (QTree.inOrder k ss) (ss.flatMap xs)
  | [] => rfl
  | s :: ss => by
    have := (h s).andThen (Still.inOrder h ss)
    rw [List.flatMap_cons]
    exact this

theorem Thin.andThen {ray : σ} {k₁ k₂ : σ → Run σ ι} {xs ys : List ι} (h₁ : Thin R ray k₁ xs) (h₂ : Thin R ray k₂ ys) :
    Thin R ray (fun r => (k₁ r).andThen k₂) (xs ++ ys) := by
  intro r hr
  obtain ⟨a1, a2⟩ := h₁ r hr
  by_cases hf : (k₁ r).ending = .finished
  · obtain ⟨b1, b2⟩ := h₂ _ a2
    simp only [Run.andThen_finished hf]
    exact ⟨a1.append b1, b2⟩
  · simp only [Run.andThen_not hf]
    exact ⟨a1.trans (List.sublist_append_left _ _), a2⟩

theorem Thin.nil {ray : σ} (xs : List ι) : Thin R ray (fun r => (⟨[], r, .finished⟩ : Run σ ι)) xs :=
  fun _ hr => ⟨List.nil_sublist _, hr⟩

theorem Thin.inOrder {ray : σ} {k : Fin 4 → σ → Run σ ι} {xs : Fin 4 → List ι} (h : ∀ i, Thin R ray (k i) (xs i)) :
    ∀ ss, Thin R ray (QTree.inOrder k ss) (ss.flatMap xs)
  | [] => Thin.nil _
  | s :: ss => by
    have := (h s).andThen (Thin.inOrder h ss)
    rw [List.flatMap_cons]
    exact this

theorem Thick.andThen (htrans : ∀ a b c, R a b → R b c → R a c) {fin : σ} {k₁ k₂ : σ → Run σ ι} {xs ys : List ι}
    (h₁ : Thick R fin k₁ xs) (h₂ : Thick R fin k₂ ys) : Thick R fin (fun r => (k₁ r).andThen k₂) (xs ++ ys) := by
  intro r
  obtain ⟨a1, a2, a3⟩ := h₁ r
  obtain ⟨b1, b2, b3⟩ := h₂ (k₁ r).ray
  simp only [Run.andThen_finished a1]
  exact ⟨b1, htrans _ _ _ a2 b2, fun h => (a3 (htrans _ _ _ b2 h)).append (b3 h)⟩

theorem Thick.nil (hrefl : ∀ r, R r r) {fin : σ} : Thick R fin (fun r => (⟨[], r, .finished⟩ : Run σ ι)) [] :=
  fun _ => ⟨rfl, hrefl _, fun _ => List.nil_sublist _⟩

theorem Thick.inOrder (hrefl : ∀ r, R r r) (htrans : ∀ a b c, R a b → R b c → R a c) {fin : σ}
    {k : Fin 4 → σ → Run σ ι} {xs : Fin 4 → List ι} (h : ∀ i, Thick R fin (k i) (xs i)) :
    ∀ ss, Thick R fin (QTree.inOrder k ss) (ss.flatMap xs)
  | [] => Thick.nil hrefl
  | s :: ss => by
    have := (h s).andThen htrans (Thick.inOrder hrefl htrans h ss)
    rw [List.flatMap_cons]
    exact this

theorem Still.items (ray : σ) : ∀ xs : List ι, Still ray (visitItems (fun r _ => (r, false)) xs) xs
  | [] => rfl
  | x :: xs => by
    have := Still.items ray xs
    unfold Still at *
    rw [visitItems]
    simp only [this]
    rfl

theorem Thin.items (htrans : ∀ a b c, R a b → R b c → R a c) {cb : σ → ι → σ × Bool} (hcb : ∀ r x, R r (cb r x).1)
    (ray : σ) : ∀ xs : List ι, Thin R ray (visitItems cb xs) xs
  | [] => Thin.nil _
  | x :: xs => by
    intro r hr
    have h1 := htrans _ _ _ hr (hcb r x)
    rw [visitItems]
    split
    · rename_i r' e; rw [e] at h1
      exact ⟨List.Sublist.cons_cons x (List.nil_sublist _), h1⟩
    · rename_i r' e; rw [e] at h1
      obtain ⟨a, b⟩ := Thin.items htrans hcb ray xs r' h1
      exact ⟨List.Sublist.cons_cons x a, b⟩

theorem Thick.items (hrefl : ∀ r, R r r) (htrans : ∀ a b c, R a b → R b c → R a c) {cb : σ → ι → σ × Bool}
    (hcb : ∀ r x, R r (cb r x).1) (hstop : ∀ r x, (cb r x).2 = false) (fin : σ) :
    ∀ xs : List ι, Thick R fin (visitItems cb xs) xs
  | [] => Thick.nil hrefl
  | x :: xs => by
    intro r
    have h1 := hcb r x
    have h2 := hstop r x
    rw [visitItems]
    split
    · rename_i r' e; rw [e] at h2; cases h2
    · rename_i r' e; rw [e] at h1
      obtain ⟨a, b, c⟩ := Thick.items hrefl htrans hcb hstop fin xs r'
      exact ⟨a, htrans _ _ _ h1 b, fun h => List.Sublist.cons_cons x (c h)⟩

/-- The sequence of a loop over a binary tree that leaves the ray alone. -/
def BTree.sequence (items : Nat → Nat → List ι) (hit : Aabb F → σ → Option τ) (closer : τ → τ → Bool) (ray : σ) :
    BTree F → List ι
  | .leaf _ f c => items f c
  | .node _ l r =>
    match hit l.bounds ray, hit r.bounds ray with
    | some tl, some tr =>
      if closer tl tr then r.sequence items hit closer ray ++ l.sequence items hit closer ray
      else l.sequence items hit closer ray ++ r.sequence items hit closer ray
    | some _, none => l.sequence items hit closer ray
    | none, some _ => r.sequence items hit closer ray
    | none, none => []

section binary
variable {items : Nat → Nat → List ι} {hit : Aabb F → σ → Option τ} {closer : τ → τ → Bool} {cb : σ → ι → σ × Bool}

theorem Still.visit (ray : σ) (T : BTree F) :
    Still ray (T.visit items hit closer fun r _ => (r, false)) (T.sequence items hit closer ray) := by
  induction T with
  | leaf b f c => exact Still.items ray _
  | node b l r ihl ihr =>
    unfold Still
    rw [BTree.visit, BTree.sequence]
    cases hit l.bounds ray <;> cases hit r.bounds ray <;> simp only
    · exact ihr
    · exact ihl
    · split
      · exact ihr.andThen ihl
      · exact ihl.andThen ihr

theorem Thin.visit (htrans : ∀ a b c, R a b → R b c → R a c) (hcb : ∀ r x, R r (cb r x).1)
    (hmono : ∀ a r r' t, R r r' → hit a r' = some t → hit a r = some t) (ray : σ) (T : BTree F) :
    Thin R ray (T.visit items hit closer cb) (T.sequence items hit closer ray) := by
  induction T with
  | leaf b f c => exact Thin.items htrans hcb ray _
  | node b l r ihl ihr =>
    intro r' hr
    rw [BTree.visit, BTree.sequence]
    have lift : ∀ (k : σ → Run σ ι) (xs ys : List ι), Thin R ray k xs → xs.Sublist ys →
        (k r').items.Sublist ys ∧ R ray (k r').ray := fun k xs ys h h' => ⟨(h r' hr).1.trans h', (h r' hr).2⟩
    cases el : hit l.bounds r' with
    | none =>
      cases er : hit r.bounds r' with
      | none => exact ⟨List.nil_sublist _, hr⟩
      | some tr =>
        rw [hmono _ _ _ _ hr er]
        refine lift _ _ _ ihr ?_
        cases hit l.bounds ray with
        | none => exact List.Sublist.refl _
        | some tl =>
          simp only
          split
          · exact List.sublist_append_left _ _
          · exact List.sublist_append_right _ _
    | some tl =>
      rw [hmono _ _ _ _ hr el]
      cases er : hit r.bounds r' with
      | none =>
        refine lift _ _ _ ihl ?_
        cases hit r.bounds ray with
        | none => exact List.Sublist.refl _
        | some tr =>
          simp only
          split
          · exact List.sublist_append_right _ _
          · exact List.sublist_append_left _ _
      | some tr =>
        rw [hmono _ _ _ _ hr er]
        simp only
        split
        · exact (ihr.andThen ihl) r' hr
        · exact (ihl.andThen ihr) r' hr

theorem Thick.visit (hrefl : ∀ r, R r r) (htrans : ∀ a b c, R a b → R b c → R a c) (hcb : ∀ r x, R r (cb r x).1)
    (hstop : ∀ r x, (cb r x).2 = false)
    (hmono : ∀ a r r' t, R r r' → hit a r' = some t → hit a r = some t) (fin : σ) (T : BTree F) :
    Thick R fin (T.visit items hit closer cb) (T.sequence items hit closer fin) := by
  induction T with
  | leaf b f c => exact Thick.items hrefl htrans hcb hstop fin _
  | node b l r ihl ihr =>
    intro r'
    rw [BTree.visit, BTree.sequence]
    have small : ∀ k : σ → Run σ ι, ∀ xs ys : List ι, Thick R fin k xs →
        (R (k r').ray fin → ys.Sublist xs) →
        (k r').ending = .finished ∧ R r' (k r').ray ∧ (R (k r').ray fin → ys.Sublist (k r').items) :=
      fun k xs ys h h' => ⟨(h r').1, (h r').2.1, fun h2 => (h' h2).trans ((h r').2.2 h2)⟩
    have back : ∀ k : σ → Run σ ι, ∀ xs, Thick R fin k xs → R (k r').ray fin → R r' fin :=
      fun k xs h h2 => htrans _ _ _ (h r').2.1 h2
    cases el : hit l.bounds r' with
    | none =>
      have nl : R r' fin → hit l.bounds fin = none := fun h => by
        cases e : hit l.bounds fin with
        | none => rfl
        | some t => rw [hmono _ _ _ _ h e] at el; cases el
      cases er : hit r.bounds r' with
      | none =>
        refine ⟨rfl, hrefl _, fun h => ?_⟩
        have h : R r' fin := h
        have nr : hit r.bounds fin = none := by
          cases e : hit r.bounds fin with
          | none => rfl
          | some t => rw [hmono _ _ _ _ h e] at er; cases er
        rw [nl h, nr]
        exact List.nil_sublist _
      | some tr =>
        refine small _ _ _ ihr fun h => ?_
        rw [nl (back _ _ ihr h)]
        cases hit r.bounds fin with
        | none => exact List.nil_sublist _
        | some t => exact List.Sublist.refl _
    | some tl =>
      cases er : hit r.bounds r' with
      | none =>
        have nr : R r' fin → hit r.bounds fin = none := fun h => by
          cases e : hit r.bounds fin with
          | none => rfl
          | some t => rw [hmono _ _ _ _ h e] at er; cases er
        refine small _ _ _ ihl fun h => ?_
        rw [nr (back _ _ ihl h)]
        cases hit l.bounds fin with
        | none => exact List.nil_sublist _
        | some t => exact List.Sublist.refl _
      | some tr =>
        have eql : ∀ t, R r' fin → hit l.bounds fin = some t → t = tl := fun t h e => by
          rw [hmono _ _ _ _ h e] at el; exact Option.some.inj el
        have eqr : ∀ t, R r' fin → hit r.bounds fin = some t → t = tr := fun t h e => by
          rw [hmono _ _ _ _ h e] at er; exact Option.some.inj er
        simp only
        split
        · rename_i hc
          refine small _ _ _ (ihr.andThen htrans ihl) fun h => ?_
          have hr := back _ _ (ihr.andThen htrans ihl) h
          cases e1 : hit l.bounds fin <;> cases e2 : hit r.bounds fin <;> simp only
          · exact List.nil_sublist _
          · exact List.sublist_append_left _ _
          · exact List.sublist_append_right _ _
          · rw [eql _ hr e1, eqr _ hr e2, if_pos hc]
            exact List.Sublist.refl _
        · rename_i hc
          refine small _ _ _ (ihl.andThen htrans ihr) fun h => ?_
          have hr := back _ _ (ihl.andThen htrans ihr) h
          cases e1 : hit l.bounds fin <;> cases e2 : hit r.bounds fin <;> simp only
          · exact List.nil_sublist _
          · exact List.sublist_append_right _ _
          · exact List.sublist_append_left _ _
          · rw [eql _ hr e1, eqr _ hr e2, if_neg hc]
            exact List.Sublist.refl _

end binary

section quad
variable {items : Nat → Nat → List ι} {hit : Vec4 (Aabb F) → σ → MbvhHit} {cb : σ → ι → σ × Bool}

theorem Thin.gate {ray : σ} {h h' : MbvhHit} {k : Fin 4 → σ → Run σ ι} {xs : Fin 4 → List ι}
    (hh : ∀ i, h'.result.get i = true → h.result.get i = true) (hk : ∀ i, Thin R ray (k i) (xs i)) (i : Fin 4) :
    Thin R ray (gateBy h' k i) (if h.result.get i then xs i else []) := by
  intro r hr
  unfold gateBy
  split
  · rename_i e
    rw [if_pos (hh i e)]
    exact hk i r hr
  · exact Thin.nil _ r hr

theorem Thick.gate (hrefl : ∀ r, R r r) {fin : σ} {h h' : MbvhHit} {k : Fin 4 → σ → Run σ ι} {xs : Fin 4 → List ι}
    (hh : ∀ i, h'.result.get i = true → h.result.get i = true) (hk : ∀ i, Thick R fin (k i) (xs i)) (i : Fin 4) :
    Thick R fin (gateBy h k i) (if h'.result.get i then xs i else []) := by
  intro r
  unfold gateBy
  split
  · refine ⟨(hk i r).1, (hk i r).2.1, fun h2 => ?_⟩
    split
    · exact (hk i r).2.2 h2
    · exact List.nil_sublist _
  · rename_i e
    refine ⟨rfl, hrefl _, fun _ => ?_⟩
    rw [if_neg (fun e' => e (hh i e'))]
    exact List.nil_sublist _

theorem Still.gate {ray : σ} {h : MbvhHit} {k : Fin 4 → σ → Run σ ι} {xs : Fin 4 → List ι}
    (hk : ∀ i, Still ray (k i) (xs i)) (i : Fin 4) : Still ray (gateBy h k i) (if h.result.get i then xs i else []) := by
  unfold Still gateBy
  split
  · exact hk i
  · rfl

/-- The ids of a leaf in a slot. -/
def QTree.leafItems (items : Nat → Nat → List ι) : QTree F → List ι
  | .leaf f n => items f n
  | _ => []

/-- The sequence of a loop over a four-wide tree that leaves the ray alone. -/
def QTree.sequence (items : Nat → Nat → List ι) (hit : Vec4 (Aabb F) → σ → MbvhHit) (ray : σ) : QTree F → List ι
  | .quad b c0 c1 c2 c3 =>
    ((hit b ray).order.flatMap fun i =>
      if (hit b ray).result.get i then (QTree.kid c0 c1 c2 c3 i).leafItems items else []) ++
    ((hit b ray).order.reverse.flatMap fun i => if (hit b ray).result.get i then
      (match i with
      | 0 => c0.sequence items hit ray | 1 => c1.sequence items hit ray
      | 2 => c2.sequence items hit ray | 3 => c3.sequence items hit ray) else [])
  | _ => []

theorem Still.qvisit (ray : σ) (T : QTree F) :
    Still ray (T.visit items hit fun r _ => (r, false)) (T.sequence items hit ray) := by
  induction T with
  | none => rfl
  | leaf => rfl
  | quad b c0 c1 c2 c3 ih0 ih1 ih2 ih3 =>
    unfold Still
    rw [QTree.visit_quad]
    refine Still.andThen (Still.inOrder (Still.gate fun i => ?_) _) (Still.inOrder (Still.gate fun i => ?_) _)
    · cases QTree.kid c0 c1 c2 c3 i with
      | leaf f c => exact Still.items ray _
      | none => rfl
      | quad => rfl
    · match i with
      | 0 => exact ih0
      | 1 => exact ih1
      | 2 => exact ih2
      | 3 => exact ih3

theorem Thin.qvisit (htrans : ∀ a b c, R a b → R b c → R a c) (hcb : ∀ r x, R r (cb r x).1)
    (hids : ∀ b r r', R r r' → (hit b r').ids = (hit b r).ids)
    (hmono : ∀ b r r' i, R r r' → (hit b r').result.get i = true → (hit b r).result.get i = true) (ray : σ) (T : QTree F) :
    Thin R ray (T.visit items hit cb) (T.sequence items hit ray) := by
  induction T with
  | none => exact Thin.nil _
  | leaf => exact Thin.nil _
  | quad b c0 c1 c2 c3 ih0 ih1 ih2 ih3 =>
    intro r hr
    rw [QTree.visit_quad, show (hit b r).order = (hit b ray).order by unfold MbvhHit.order; rw [hids b _ _ hr]]
    refine Thin.andThen (Thin.inOrder (Thin.gate (fun i => hmono b _ _ i hr) fun i => ?_) _)
      (Thin.inOrder (Thin.gate (fun i => hmono b _ _ i hr) fun i => ?_) _) r hr
    · cases QTree.kid c0 c1 c2 c3 i with
      | leaf f c => exact Thin.items htrans hcb ray _
      | none => exact Thin.nil _
      | quad => exact Thin.nil _
    · match i with
      | 0 => exact ih0
      | 1 => exact ih1
      | 2 => exact ih2
      | 3 => exact ih3

theorem Thick.qvisit (hrefl : ∀ r, R r r) (htrans : ∀ a b c, R a b → R b c → R a c) (hcb : ∀ r x, R r (cb r x).1)
    (hstop : ∀ r x, (cb r x).2 = false)
    (hids : ∀ b r r', R r r' → (hit b r').ids = (hit b r).ids)
    (hmono : ∀ b r r' i, R r r' → (hit b r').result.get i = true → (hit b r).result.get i = true) (fin : σ) (T : QTree F) :
    Thick R fin (T.visit items hit cb) (T.sequence items hit fin) := by
  induction T with
  | none => exact Thick.nil hrefl
  | leaf => exact Thick.nil hrefl
  | quad b c0 c1 c2 c3 ih0 ih1 ih2 ih3 =>
    intro r
    have leaves : ∀ i, Thick R fin (QTree.giveLeaf items cb (QTree.kid c0 c1 c2 c3 i))
        ((QTree.kid c0 c1 c2 c3 i).leafItems items) := fun i => by
      cases QTree.kid c0 c1 c2 c3 i with
      | leaf f c => exact Thick.items hrefl htrans hcb hstop fin _
      | none => exact Thick.nil hrefl
      | quad => exact Thick.nil hrefl
    refine ⟨QTree.visit_finished hstop _ r, QTree.visit_rel hrefl (fun h h' => htrans _ _ _ h h') hcb _ r, fun h => ?_⟩
    have hr : R r fin := htrans _ _ _ (QTree.visit_rel hrefl (fun h h' => htrans _ _ _ h h') hcb _ r) h
    revert h
    rw [QTree.visit_quad, show (hit b r).order = (hit b fin).order by unfold MbvhHit.order; rw [hids b _ _ hr]]
    refine (Thick.andThen htrans (Thick.inOrder hrefl htrans (Thick.gate hrefl (fun i => hmono b _ _ i hr) leaves) _)
      (Thick.inOrder hrefl htrans (Thick.gate hrefl (fun i => hmono b _ _ i hr) fun i => ?_) _) r).2.2
    match i with
    | 0 => exact ih0
    | 1 => exact ih1
    | 2 => exact ih2
    | 3 => exact ih3

end quad
end Rtbvh
