import Verif.Proofs.QTraverse
import Verif.Proofs.Visit
/- Facts about the recursive traversal of 4-wide trees. -/
namespace Rtbvh
variable {F σ ι : Type} {items : Nat → Nat → List ι} {hit : Vec4 (Aabb F) → σ → MbvhHit} {cb : σ → ι → σ × Bool}

/-- Properties of runs closed under sequencing are inherited by `inOrder`. -/
theorem inOrder_induct {Q : σ → Run σ ι → Prop} (hnil : ∀ ray, Q ray ⟨[], ray, .finished⟩)
    (hseq : ∀ ray (a : Run σ ι) k, Q ray a → (a.ending = .finished → Q a.ray (k a.ray)) → Q ray (a.andThen k))
    {k : Fin 4 → σ → Run σ ι} (hk : ∀ i r, Q r (k i r)) : ∀ ss ray, Q ray (QTree.inOrder k ss ray) := by
  intro ss
  induction ss with
  | nil => intro ray; exact hnil ray
  | cons s ss ih => intro ray; exact hseq _ _ _ (hk s ray) (fun _ => ih _)

theorem QTree.visit_induct {Q : σ → Run σ ι → Prop} (hleaf : ∀ (xs : List ι) ray, Q ray (visitItems cb xs ray))
    (hseq : ∀ ray (a : Run σ ι) k, Q ray a → (a.ending = .finished → Q a.ray (k a.ray)) → Q ray (a.andThen k))
    (T : QTree F) : ∀ ray, Q ray (T.visit items hit cb ray) := by
  have hnil : ∀ ray, Q ray ⟨[], ray, .finished⟩ := fun ray => hleaf [] ray
  induction T with
  | none => exact hnil
  | leaf => exact fun ray => hnil ray
  | quad b c0 c1 c2 c3 ih0 ih1 ih2 ih3 =>
    intro ray
    rw [QTree.visit_quad]
    refine hseq _ _ _ (inOrder_induct hnil hseq ?_ _ _) (fun _ => inOrder_induct hnil hseq ?_ _ _)
    · intro i r
      unfold gateBy
      split
      · show Q r (QTree.giveLeaf items cb (QTree.kid c0 c1 c2 c3 i) r)
        cases QTree.kid c0 c1 c2 c3 i with
        | leaf f c => exact hleaf _ _
        | none => exact hnil _
        | quad => exact hnil _
      · exact hnil _
    · intro i r
      unfold gateBy
      split
      · match i with
        | 0 => exact ih0 r
        | 1 => exact ih1 r
        | 2 => exact ih2 r
        | 3 => exact ih3 r
      · exact hnil _

theorem QTree.visit_inv {Inv : σ → Prop} (hcb : ∀ r x, Inv r → Inv (cb r x).1) (T : QTree F) (ray : σ) (h : Inv ray) :
    Inv (T.visit items hit cb ray).ray := by
  refine T.visit_induct (Q := fun ray run => Inv ray → Inv run.ray) ?_ ?_ ray h
  · intro xs
    induction xs with
    | nil => intro ray h; exact h
    | cons x xs ih =>
      intro ray h
      have h1 := hcb ray x h
      rw [visitItems]
      split
      · rename_i r' e; rw [e] at h1; exact h1
      · rename_i r' e; rw [e] at h1; exact ih r' h1
  · intro ray a k ha hk h
    by_cases hf : a.ending = .finished
    · rw [Run.andThen_finished hf]; exact hk hf (ha h)
    · rw [Run.andThen_not hf]; exact ha h

theorem QTree.visit_rel {R : σ → σ → Prop} (hrefl : ∀ r, R r r) (htrans : ∀ {a b c}, R a b → R b c → R a c)
    (hcb : ∀ r x, R r (cb r x).1) (T : QTree F) (ray : σ) : R ray (T.visit items hit cb ray).ray :=
  QTree.visit_inv (Inv := fun r => R ray r) (fun r x h => htrans h (hcb r x)) T ray (hrefl ray)

theorem QTree.visit_finished (hcb : ∀ r x, (cb r x).2 = false) (T : QTree F) (ray : σ) :
    (T.visit items hit cb ray).ending = .finished := by
  refine T.visit_induct (Q := fun _ run => run.ending = .finished) ?_ ?_ ray
  · intro xs
    induction xs with
    | nil => intro ray; rfl
    | cons x xs ih =>
      intro ray
      have h1 := hcb ray x
      rw [visitItems]
      split
      · rename_i r' e; rw [e] at h1; simp at h1
      · rename_i r' e; exact ih r'
  · intro ray a k ha hk
    rw [Run.andThen_finished ha]; exact hk ha

theorem QTree.visit_ending (T : QTree F) (ray : σ) :
    (T.visit items hit cb ray).ending = .finished ∨ (T.visit items hit cb ray).ending = .stopped := by
  refine T.visit_induct (Q := fun _ run => run.ending = .finished ∨ run.ending = .stopped) ?_ ?_ ray
  · intro xs
    induction xs with
    | nil => intro ray; exact .inl rfl
    | cons x xs ih =>
      intro ray
      rw [visitItems]
      split
      · exact .inr rfl
      · exact ih _
  · intro ray a k ha hk
    by_cases hf : a.ending = .finished
    · rw [Run.andThen_finished hf]; exact hk hf
    · rw [Run.andThen_not hf]; exact ha

theorem QTree.visit_ray (T : QTree F) (ray : σ) :
    (T.visit items hit cb ray).ray = (T.visit items hit cb ray).items.foldl (fun r x => (cb r x).1) ray := by
  refine T.visit_induct (Q := fun ray run => run.ray = run.items.foldl (fun r x => (cb r x).1) ray) ?_ ?_ ray
  · intro xs
    induction xs with
    | nil => intro ray; rfl
    | cons x xs ih =>
      intro ray
      rw [visitItems]
      split
      · rename_i r' e; simp [e]
      · rename_i r' e; simp only [Run.cons, List.foldl_cons, e]; exact ih r'
  · intro ray a k ha hk
    by_cases hf : a.ending = .finished
    · rw [Run.andThen_finished hf]
      simp only [List.foldl_append]
      rw [← ha]; exact hk hf
    · rw [Run.andThen_not hf]; exact ha

theorem inOrder_count_le [BEq ι] {p : ι} {k : Fin 4 → σ → Run σ ι} {f : Fin 4 → Nat} {Inv : σ → Prop}
    (hk : ∀ i r, Inv r → (k i r).items.count p ≤ f i ∧ Inv (k i r).ray) :
    ∀ ss r, Inv r → (QTree.inOrder k ss r).items.count p ≤ (ss.map f).sum ∧ Inv (QTree.inOrder k ss r).ray := by
  intro ss
  induction ss with
  | nil => intro r h; exact ⟨by simp [QTree.inOrder], h⟩
  | cons s ss ih =>
    intro r h
    obtain ⟨h1, h2⟩ := hk s r h
    obtain ⟨h3, h4⟩ := ih _ h2
    rw [QTree.inOrder, List.map_cons, List.sum_cons]
    refine ⟨andThen_items_le _ _ _ h1 (fun _ => h3), ?_⟩
    by_cases hf : (k s r).ending = .finished
    · rw [Run.andThen_finished hf]; exact h4
    · rw [Run.andThen_not hf]; exact h2

theorem inOrder_count_ge [BEq ι] {p : ι} {k : Fin 4 → σ → Run σ ι} {f : Fin 4 → Nat} {R : σ → σ → Prop}
    (hrefl : ∀ r, R r r) (htrans : ∀ {a b c}, R a b → R b c → R a c) {fin : σ} (hR : ∀ i r, R r (k i r).ray)
    (hk : ∀ i r, (k i r).ending = .finished → R (k i r).ray fin → f i ≤ (k i r).items.count p) :
    ∀ ss r, R r (QTree.inOrder k ss r).ray ∧ ((QTree.inOrder k ss r).ending = .finished →
      R (QTree.inOrder k ss r).ray fin → (ss.map f).sum ≤ (QTree.inOrder k ss r).items.count p) := by
  intro ss
  induction ss with
  | nil => intro r; exact ⟨hrefl r, by simp⟩
  | cons s ss ih =>
    intro r
    rw [QTree.inOrder, List.map_cons, List.sum_cons]
    by_cases hf : (k s r).ending = .finished
    · rw [Run.andThen_finished hf]
      obtain ⟨h1, h2⟩ := ih (k s r).ray
      refine ⟨htrans (hR s r) h1, fun hf' hfin => ?_⟩
      simp only [List.count_append]
      exact Nat.add_le_add (hk s r hf (htrans h1 hfin)) (h2 hf' hfin)
    · rw [Run.andThen_not hf]
      exact ⟨hR s r, fun h => absurd h hf⟩

/-- How often `p` is stored in a leaf content; below a quad content. -/
def QTree.leafCount (idx : List Nat) (p : Nat) : QTree F → Nat
  | .leaf f c => (BTree.rangeIds idx f c).count p
  | _ => 0
def QTree.quadCount (idx : List Nat) (pass : Aabb F → Bool) (p : Nat) (c : QTree F) : Nat :=
  if c.isQuad then (c.reach idx pass).count p else 0

theorem QTree.leaf_add_quad (idx : List Nat) (pass : Aabb F → Bool) (p : Nat) (c : QTree F) :
    c.leafCount idx p + c.quadCount idx pass p = (c.reach idx pass).count p := by
  cases c <;> simp [leafCount, quadCount, isQuad, reach]

theorem QTree.reach_quad (idx : List Nat) (pass : Aabb F → Bool) (p : Nat) (b : Vec4 (Aabb F)) (c0 c1 c2 c3 : QTree F)
    (g : Fin 4 → Nat) (hg : ∀ s, g s = if pass (b.get s) then ((QTree.kid c0 c1 c2 c3 s).reach idx pass).count p else 0) :
    ((QTree.quad b c0 c1 c2 c3).reach idx pass).count p = g 0 + g 1 + g 2 + g 3 := by
  have e : ∀ (t : Bool) (l : List Nat), (if t then l else []).count p = if t then l.count p else 0 := by
    intro t l; cases t <;> simp
  rw [hg, hg, hg, hg]
  simp only [QTree.reach, List.count_append, e, QTree.kid]

/-- Upper bound: what is visited lies in leaf slots all of whose ancestors-or-self pass a test implied by `hit`. -/
theorem QTree.visit_count_le {idx : List Nat} {cb : σ → Nat → σ × Bool} {Inv : σ → Prop}
    (hcb : ∀ r x, Inv r → Inv (cb r x).1) {pass : Aabb F → Bool} (hperm : ∀ b r, (hit b r).order.Perm [0, 1, 2, 3])
    (hp : ∀ b r s, Inv r → (hit b r).result.get s = true → pass (b.get s) = true) (p : Nat) (T : QTree F) :
    ∀ ray, Inv ray → (T.visit (BTree.rangeIds idx) hit cb ray).items.count p ≤ T.quadCount idx pass p := by
  induction T with
  | none => intro ray _; simp [QTree.visit]
  | leaf => intro ray _; simp [QTree.visit]
  | quad b c0 c1 c2 c3 ih0 ih1 ih2 ih3 =>
    intro ray hI
    rw [QTree.visit_quad]
    have ih : ∀ s r, Inv r → ((QTree.kid c0 c1 c2 c3 s).visit (BTree.rangeIds idx) hit cb r).items.count p ≤
        (QTree.kid c0 c1 c2 c3 s).quadCount idx pass p := by
      intro s r h
      match s with
      | 0 => exact ih0 r h
      | 1 => exact ih1 r h
      | 2 => exact ih2 r h
      | 3 => exact ih3 r h
    generalize hh : hit b ray = h
    have hpass : ∀ s, h.result.get s = true → pass (b.get s) = true := fun s hs => hp b ray s hI (by rw [hh]; exact hs)
    have hpm : h.order.Perm [0, 1, 2, 3] := by rw [← hh]; exact hperm _ _
    have g1 := inOrder_count_le (p := p) (Inv := Inv)
      (k := gateBy h fun s => QTree.giveLeaf (BTree.rangeIds idx) cb (QTree.kid c0 c1 c2 c3 s))
      (f := fun s => if pass (b.get s) then (QTree.kid c0 c1 c2 c3 s).leafCount idx p else 0) (by
        intro s r hI
        unfold gateBy
        split
        · rename_i hs
          rw [if_pos (hpass s hs)]
          show (QTree.giveLeaf (BTree.rangeIds idx) cb (QTree.kid c0 c1 c2 c3 s) r).items.count p ≤ _ ∧
            Inv (QTree.giveLeaf (BTree.rangeIds idx) cb (QTree.kid c0 c1 c2 c3 s) r).ray
          unfold QTree.giveLeaf QTree.leafCount
          cases QTree.kid c0 c1 c2 c3 s with
          | none => exact ⟨by simp, hI⟩
          | quad => exact ⟨by simp, hI⟩
          | leaf f c =>
            refine ⟨(visitItems_prefix _ _).sublist.count_le p, ?_⟩
            exact _root_.Rtbvh.visit_inv (F := F) (items := fun _ _ => BTree.rangeIds idx f c) (hit := fun _ _ => (Option.none : Option Unit))
              (closer := fun _ _ => true) hcb (.leaf (b.get 0) 0 0) r hI
        · exact ⟨by simp, hI⟩) h.order ray hI
    have g2 := inOrder_count_le (p := p) (Inv := Inv)
      (k := gateBy h fun s => (QTree.kid c0 c1 c2 c3 s).visit (BTree.rangeIds idx) hit cb)
      (f := fun s => if pass (b.get s) then (QTree.kid c0 c1 c2 c3 s).quadCount idx pass p else 0) (by
        intro s r hI
        unfold gateBy
        split
        · rename_i hs
          rw [if_pos (hpass s hs)]
          exact ⟨ih s r hI, QTree.visit_inv hcb _ _ hI⟩
        · exact ⟨by simp, hI⟩) h.order.reverse _ g1.2
    rw [perm_sum hpm] at g1
    rw [perm_sum ((List.reverse_perm _).trans hpm)] at g2
    refine Nat.le_trans (andThen_items_le _ _ _ g1.1 (fun _ => g2.1)) ?_
    show ((QTree.quad b c0 c1 c2 c3).reach idx pass).count p ≥ _
    rw [QTree.reach_quad idx pass p b c0 c1 c2 c3 (fun s =>
      (if pass (b.get s) then (QTree.kid c0 c1 c2 c3 s).leafCount idx p else 0) +
      (if pass (b.get s) then (QTree.kid c0 c1 c2 c3 s).quadCount idx pass p else 0))
      (by intro s; rw [← QTree.leaf_add_quad]; cases pass (b.get s) <;> simp)]
    omega

/-- Lower bound relative to the final ray. -/
theorem QTree.visit_count_ge_final {idx : List Nat} {cb : σ → Nat → σ × Bool} {R : σ → σ → Prop} (hrefl : ∀ r, R r r)
    (htrans : ∀ {a b c}, R a b → R b c → R a c) (hcb : ∀ r x, R r (cb r x).1) {pass : Aabb F → Bool} {fin : σ}
    (hperm : ∀ b r, (hit b r).order.Perm [0, 1, 2, 3])
    (hp : ∀ b r s, R r fin → pass (b.get s) = true → (hit b r).result.get s = true) (p : Nat) (T : QTree F) :
    ∀ ray, (T.visit (BTree.rangeIds idx) hit cb ray).ending = .finished →
      R (T.visit (BTree.rangeIds idx) hit cb ray).ray fin →
      T.quadCount idx pass p ≤ (T.visit (BTree.rangeIds idx) hit cb ray).items.count p := by
  induction T with
  | none => intro ray _ _; simp [QTree.quadCount, QTree.isQuad]
  | leaf => intro ray _ _; simp [QTree.quadCount, QTree.isQuad]
  | quad b c0 c1 c2 c3 ih0 ih1 ih2 ih3 =>
    intro ray hf hR
    have hray : R ray fin := htrans (QTree.visit_rel hrefl htrans hcb (.quad b c0 c1 c2 c3) ray) hR
    rw [QTree.visit_quad] at hf hR ⊢
    have ih : ∀ s r, ((QTree.kid c0 c1 c2 c3 s).visit (BTree.rangeIds idx) hit cb r).ending = .finished →
        R ((QTree.kid c0 c1 c2 c3 s).visit (BTree.rangeIds idx) hit cb r).ray fin →
        (QTree.kid c0 c1 c2 c3 s).quadCount idx pass p ≤
        ((QTree.kid c0 c1 c2 c3 s).visit (BTree.rangeIds idx) hit cb r).items.count p := by
      intro s r h
      match s with
      | 0 => exact ih0 r h
      | 1 => exact ih1 r h
      | 2 => exact ih2 r h
      | 3 => exact ih3 r h
    have hpass : ∀ s, pass (b.get s) = true → (hit b ray).result.get s = true := fun s hs => hp b ray s hray hs
    have hpm := hperm b ray
    generalize hit b ray = h at *
    have g1 := inOrder_count_ge (p := p) (R := R) hrefl htrans (fin := fin)
      (k := gateBy h fun s => QTree.giveLeaf (BTree.rangeIds idx) cb (QTree.kid c0 c1 c2 c3 s))
      (f := fun s => if pass (b.get s) then (QTree.kid c0 c1 c2 c3 s).leafCount idx p else 0) (by
        intro s r
        unfold gateBy
        split
        · show R r (QTree.giveLeaf (BTree.rangeIds idx) cb (QTree.kid c0 c1 c2 c3 s) r).ray
          unfold QTree.giveLeaf
          split
          · rename_i f c _
            exact _root_.Rtbvh.visit_rel (F := F) (items := fun _ _ => BTree.rangeIds idx f c) (hit := fun _ _ => (Option.none : Option Unit))
              (closer := fun _ _ => true) hrefl htrans hcb (.leaf (b.get 0) 0 0) r
          · exact hrefl _
        · exact hrefl _) (by
        intro s r hf _
        by_cases hs : pass (b.get s) = true
        · rw [if_pos hs]
          unfold gateBy at hf ⊢
          rw [if_pos (hpass s hs)] at hf ⊢
          show _ ≤ (QTree.giveLeaf (BTree.rangeIds idx) cb (QTree.kid c0 c1 c2 c3 s) r).items.count p
          change (QTree.giveLeaf (BTree.rangeIds idx) cb (QTree.kid c0 c1 c2 c3 s) r).ending = _ at hf
          unfold QTree.giveLeaf at hf ⊢
          unfold QTree.leafCount
          cases hk : QTree.kid c0 c1 c2 c3 s with
          | none => simp
          | quad => simp
          | leaf f c =>
            rw [hk] at hf
            simp only at hf ⊢
            rw [visitItems_finished hf]
            exact Nat.le_refl _
        · rw [if_neg hs]; omega) h.order ray
    have g2 := inOrder_count_ge (p := p) (R := R) hrefl htrans (fin := fin)
      (k := gateBy h fun s => (QTree.kid c0 c1 c2 c3 s).visit (BTree.rangeIds idx) hit cb)
      (f := fun s => if pass (b.get s) then (QTree.kid c0 c1 c2 c3 s).quadCount idx pass p else 0) (by
        intro s r
        unfold gateBy
        split
        · exact QTree.visit_rel hrefl htrans hcb _ _
        · exact hrefl _) (by
        intro s r hf hR
        by_cases hs : pass (b.get s) = true
        · rw [if_pos hs]
          unfold gateBy at hf hR ⊢
          rw [if_pos (hpass s hs)] at hf hR ⊢
          exact ih s r hf hR
        · rw [if_neg hs]; omega) h.order.reverse
    generalize hA : QTree.inOrder (gateBy h fun s => QTree.giveLeaf (BTree.rangeIds idx) cb (QTree.kid c0 c1 c2 c3 s))
      h.order ray = A at *
    by_cases hAf : A.ending = .finished
    · rw [Run.andThen_finished hAf] at hf hR ⊢
      obtain ⟨r2, l2⟩ := g2 A.ray
      have l1 := g1.2 hAf (htrans r2 hR)
      have l2 := l2 hf hR
      rw [perm_sum hpm] at l1
      rw [perm_sum ((List.reverse_perm _).trans hpm)] at l2
      simp only [List.count_append]
      show ((QTree.quad b c0 c1 c2 c3).reach idx pass).count p ≤ _
      rw [QTree.reach_quad idx pass p b c0 c1 c2 c3 (fun s =>
        (if pass (b.get s) then (QTree.kid c0 c1 c2 c3 s).leafCount idx p else 0) +
        (if pass (b.get s) then (QTree.kid c0 c1 c2 c3 s).quadCount idx pass p else 0))
        (by intro s; rw [← QTree.leaf_add_quad]; cases pass (b.get s) <;> simp)]
      omega
    · rw [Run.andThen_not hAf] at hf; exact absurd hf hAf

theorem QTree.reach_count_le_ids (idx : List Nat) (pass : Aabb F → Bool) (p : Nat) (T : QTree F) :
    (T.reach idx pass).count p ≤ (T.ids idx).count p := by
  have ifl : ∀ (b : Bool) (xs : List Nat), (if b then xs else []).count p ≤ xs.count p := by
    intro b xs; cases b <;> simp
  induction T with
  | none => exact Nat.le_refl _
  | leaf => exact Nat.le_refl _
  | quad b c0 c1 c2 c3 ih0 ih1 ih2 ih3 =>
    simp only [QTree.reach, QTree.ids, List.count_append]
    have h0 := ifl (pass (b.get 0)) (c0.reach idx pass)
    have h1 := ifl (pass (b.get 1)) (c1.reach idx pass)
    have h2 := ifl (pass (b.get 2)) (c2.reach idx pass)
    have h3 := ifl (pass (b.get 3)) (c3.reach idx pass)
    omega

/-- An id is reached if every slot box above it passes. -/
theorem QTree.mem_reach_one {idx : List Nat} {pass : Aabb F → Bool} {p : Nat} (T : QTree F)
    (hT : T.Forall idx (fun a ids => p ∈ ids → pass a = true)) (hp : p ∈ T.ids idx) : p ∈ T.reach idx pass := by
  induction T with
  | none => exact hp
  | leaf => exact hp
  | quad b c0 c1 c2 c3 ih0 ih1 ih2 ih3 =>
    obtain ⟨⟨k0, k1, k2, k3⟩, h0, h1, h2, h3⟩ := hT
    simp only [QTree.reach, QTree.ids, List.mem_append] at hp ⊢
    rcases hp with ((h | h) | h) | h
    · rw [if_pos (k0 h)]; exact .inl (.inl (.inl (ih0 h0 h)))
    · rw [if_pos (k1 h)]; exact .inl (.inl (.inr (ih1 h1 h)))
    · rw [if_pos (k2 h)]; exact .inl (.inr (ih2 h2 h))
    · rw [if_pos (k3 h)]; exact .inr (ih3 h3 h)

/-- If slot boxes contain what is below them and the test is monotone along that, then every id whose own box passes is
reached. -/
theorem QTree.mem_reach_of_pass {idx : List Nat} {pass : Aabb F → Bool} {p : Nat} {Contains : Aabb F → Nat → Prop}
    (hmono : ∀ a, Contains a p → pass a = true) (T : QTree F)
    (hT : T.Forall idx (fun a ids => ∀ q ∈ ids, Contains a q)) (hp : p ∈ T.ids idx) : p ∈ T.reach idx pass := by
  induction T with
  | none => exact hp
  | leaf => exact hp
  | quad b c0 c1 c2 c3 ih0 ih1 ih2 ih3 =>
    obtain ⟨⟨k0, k1, k2, k3⟩, h0, h1, h2, h3⟩ := hT
    simp only [QTree.reach, QTree.ids, List.mem_append] at hp ⊢
    rcases hp with ((h | h) | h) | h
    · rw [if_pos (hmono _ (k0 p h))]; exact .inl (.inl (.inl (ih0 h0 h)))
    · rw [if_pos (hmono _ (k1 p h))]; exact .inl (.inl (.inr (ih1 h1 h)))
    · rw [if_pos (hmono _ (k2 p h))]; exact .inl (.inr (ih2 h2 h))
    · rw [if_pos (hmono _ (k3 p h))]; exact .inr (ih3 h3 h)

end Rtbvh
