import Verif.Spec.AnyHit
import Verif.Proofs.QVisit
/- Facts about traversals by callers that may break. -/
namespace Rtbvh
variable {F σ τ ι : Type} {items : Nat → Nat → List ι} {cb : σ → ι → σ × Bool}

/-- The caller that does the same but never breaks. -/
def unbreak (cb : σ → ι → σ × Bool) (r : σ) (x : ι) : σ × Bool := ((cb r x).1, false)

theorem visitItems_unbreak (xs : List ι) (r : σ) (h : (visitItems cb xs r).ending = .finished) :
    visitItems (unbreak cb) xs r = visitItems cb xs r := by
  induction xs generalizing r with
  | nil => rfl
  | cons x xs ih =>
    rw [visitItems] at h ⊢
    rw [visitItems]
    cases e : cb r x with
    | mk r' b =>
      rw [e] at h
      have e' : unbreak cb r x = (r', false) := by rw [unbreak, e]
      rw [e']
      cases b with
      | true => simp at h
      | false => show Run.cons x _ = Run.cons x _; rw [ih r' h]

theorem andThen_unbreak {a a' : Run σ ι} {k k' : σ → Run σ ι} (ha : a.ending = .finished → a' = a)
    (hk : ∀ r, (k r).ending = .finished → k' r = k r) (h : (a.andThen k).ending = .finished) :
    a'.andThen k' = a.andThen k := by
  by_cases hf : a.ending = .finished
  · have e := ha hf
    rw [e]
    rw [Run.andThen_finished hf] at h ⊢
    rw [Run.andThen_finished hf, hk _ h]
  · rw [Run.andThen_not hf] at h; exact absurd h hf

theorem BTree.visit_unbreak {hit : Aabb F → σ → Option τ} {closer : τ → τ → Bool} (T : BTree F) :
    ∀ ray, (T.visit items hit closer cb ray).ending = .finished →
      T.visit items hit closer (unbreak cb) ray = T.visit items hit closer cb ray := by
  induction T with
  | leaf b f c => intro ray h; exact visitItems_unbreak _ _ h
  | node b l r ihl ihr =>
    intro ray h
    rw [BTree.visit] at h ⊢
    rw [BTree.visit]
    cases e1 : hit l.bounds ray <;> cases e2 : hit r.bounds ray <;> simp only [e1, e2] at h ⊢
    · exact ihr ray h
    · exact ihl ray h
    · split
      · rename_i hc; rw [if_pos hc] at h; exact andThen_unbreak (ihr ray) ihl h
      · rename_i hc; rw [if_neg hc] at h; exact andThen_unbreak (ihl ray) ihr h

theorem inOrder_unbreak {k k' : Fin 4 → σ → Run σ ι} (hk : ∀ i r, (k i r).ending = .finished → k' i r = k i r) :
    ∀ ss r, (QTree.inOrder k ss r).ending = .finished → QTree.inOrder k' ss r = QTree.inOrder k ss r := by
  intro ss
  induction ss with
  | nil => intro r _; rfl
  | cons s ss ih => intro r h; exact andThen_unbreak (hk s r) ih h

theorem gate_unbreak {h : MbvhHit} {k k' : Fin 4 → σ → Run σ ι} (hk : ∀ i r, (k i r).ending = .finished → k' i r = k i r) :
    ∀ i r, (gateBy h k i r).ending = .finished → gateBy h k' i r = gateBy h k i r := by
  intro i r hf
  unfold gateBy at hf ⊢
  split
  · rename_i hc; rw [if_pos hc] at hf; exact hk i r hf
  · rfl

theorem QTree.visit_unbreak {hit : Vec4 (Aabb F) → σ → MbvhHit} (T : QTree F) :
    ∀ ray, (T.visit items hit cb ray).ending = .finished → T.visit items hit (unbreak cb) ray = T.visit items hit cb ray := by
  induction T with
  | none => intro ray _; rfl
  | leaf => intro ray _; rfl
  | quad b c0 c1 c2 c3 ih0 ih1 ih2 ih3 =>
    intro ray h
    rw [QTree.visit_quad] at h ⊢
    rw [QTree.visit_quad]
    refine andThen_unbreak (inOrder_unbreak (gate_unbreak ?_) _ _) (inOrder_unbreak (gate_unbreak ?_) _) h
    · intro i r hf
      cases e : QTree.kid c0 c1 c2 c3 i with
      | leaf f c => rw [e] at hf; exact visitItems_unbreak _ _ hf
      | none => rfl
      | quad => rfl
    · intro i r hf
      match i with
      | 0 => exact ih0 r hf
      | 1 => exact ih1 r hf
      | 2 => exact ih2 r hf
      | 3 => exact ih3 r hf

/-- What every run of an any-hit caller satisfies. -/
def AnyRun (cb : σ → ι → σ × Bool) (ray : σ) (run : Run σ ι) : Prop :=
  (run.ending = .finished → run.ray = ray ∧ ∀ x ∈ run.items, (cb ray x).2 = false) ∧
  (run.ending = .stopped → FirstSuccess cb ray run)

theorem anyRun_items (hcb : AnyHit cb) (xs : List ι) (ray : σ) : AnyRun cb ray (visitItems cb xs ray) := by
  induction xs with
  | nil => exact ⟨fun _ => ⟨rfl, by simp [visitItems]⟩, fun h => by simp [visitItems] at h⟩
  | cons x xs ih =>
    rw [visitItems]
    cases e : cb ray x with
    | mk r' b =>
      cases b with
      | true => exact ⟨fun h => by simp at h, fun _ => ⟨[], x, rfl, by simp, e⟩⟩
      | false =>
        have h0 : (cb ray x).2 = false := by rw [e]
        have : r' = ray := by have := hcb ray x h0; rw [e] at this; exact this
        subst this
        refine ⟨fun h => ⟨(ih.1 h).1, fun y hy => ?_⟩, fun h => ?_⟩
        · rcases List.mem_cons.1 hy with rfl | hy
          · exact h0
          · exact (ih.1 h).2 y hy
        · obtain ⟨init, p, h1, h2, h3⟩ := ih.2 h
          refine ⟨x :: init, p, ?_, ?_, h3⟩
          · show x :: _ = _; rw [h1]; rfl
          · intro y hy
            rcases List.mem_cons.1 hy with rfl | hy
            · exact h0
            · exact h2 y hy

theorem anyRun_seq (ray : σ) (a : Run σ ι) (k : σ → Run σ ι) (ha : AnyRun cb ray a)
    (hk : a.ending = .finished → AnyRun cb a.ray (k a.ray)) : AnyRun cb ray (a.andThen k) := by
  by_cases hf : a.ending = .finished
  · obtain ⟨e, h0⟩ := ha.1 hf
    have h1 := hk hf
    rw [Run.andThen_finished hf]
    rw [e] at h1 ⊢
    refine ⟨fun h => ⟨(h1.1 h).1, fun y hy => ?_⟩, fun h => ?_⟩
    · rcases List.mem_append.1 hy with hy | hy
      · exact h0 y hy
      · exact (h1.1 h).2 y hy
    · obtain ⟨init, p, i1, i2, i3⟩ := h1.2 h
      refine ⟨a.items ++ init, p, ?_, ?_, i3⟩
      · show a.items ++ _ = _; rw [i1, List.append_assoc]
      · intro y hy
        rcases List.mem_append.1 hy with hy | hy
        · exact h0 y hy
        · exact i2 y hy
  · rw [Run.andThen_not hf]; exact ha

/-- Put together: if a run that finishes hands out everything that could succeed, the query is answered. -/
theorem occlusion_of {ids : List ι} {ray : σ} {run : Run σ ι} (hany : AnyRun cb ray run)
    (hend : run.ending = .finished ∨ run.ending = .stopped) (hsub : ∀ x ∈ run.items, x ∈ ids)
    (hall : run.ending = .finished → ∀ p ∈ ids, (cb ray p).2 = true → p ∈ run.items) : Occlusion cb ids ray run := by
  have hs : run.ending = .stopped → ∃ p ∈ ids, (cb ray p).2 = true := by
    intro h
    obtain ⟨init, p, h1, _, h3⟩ := hany.2 h
    exact ⟨p, hsub p (by rw [h1]; simp), by rw [h3]⟩
  have hf : run.ending = .finished → ∀ p ∈ ids, (cb ray p).2 = false := by
    intro h p hp
    cases hc : (cb ray p).2 with
    | false => rfl
    | true => rw [(hany.1 h).2 p (hall h p hp hc)] at hc; cases hc
  refine ⟨⟨hs, fun ⟨p, hp, hc⟩ => ?_⟩, ⟨hf, fun h => ?_⟩, hany.2, fun h => (hany.1 h).1⟩
  · rcases hend with h | h
    · have := hf h p hp; rw [this] at hc; cases hc
    · exact h
  · rcases hend with h' | h'
    · exact h'
    · obtain ⟨p, hp, hc⟩ := hs h'
      have := h p hp; rw [this] at hc; cases hc

end Rtbvh
