import Verif.Model.Next
/- Clients that call `next()` one call at a time (Model/Next) against `for` loops with bodies without memory. -/
namespace Rtbvh
variable {F σ τ ι D κ : Type}

/-- A `for` loop over an abstract iterator. -/
def gdrive (round : τ → Round τ ι) (get : τ → σ) (set : σ → τ → τ) (cb : σ → ι → σ × Bool) : Nat → τ → Run σ ι
  | 0, t => ⟨[], get t, .outOfFuel⟩
  | fuel + 1, t =>
    match round t with
    | .done => ⟨[], get t, .finished⟩
    | .panic => ⟨[], get t, .panicked⟩
    | .cont t' => gdrive round get set cb fuel t'
    | .yield x t' =>
      match cb (get t') x with
      | (ray, true) => ⟨[x], ray, .stopped⟩
      | (ray, false) => (gdrive round get set cb fuel (set ray t')).cons x

theorem drive_gdrive (step : Trav σ → Step σ ι) (cb : σ → ι → σ × Bool) (fuel : Nat) (t : Trav σ) :
    drive step cb fuel t = gdrive (fun t => (step t).toRound) Trav.ray Trav.setRay cb fuel t := by
  induction fuel generalizing t with
  | zero => rfl
  | succ n ih =>
    simp only [drive, gdrive]
    cases step t with
    | done => rfl
    | panic => rfl
    | cont t' => exact ih t'
    | yield x t' =>
      simp only [Step.toRound]
      cases cb t'.ray x with
      | mk r s =>
        cases s with
        | true => rfl
        | false => simp only [ih]; rfl

theorem qdrive_gdrive (step : QTrav σ → QStep σ ι) (cb : σ → ι → σ × Bool) (fuel : Nat) (t : QTrav σ) :
    qdrive step cb fuel t = gdrive (fun t => (step t).toRound) QTrav.ray QTrav.setRay cb fuel t := by
  induction fuel generalizing t with
  | zero => rfl
  | succ n ih =>
    simp only [qdrive, gdrive]
    cases step t with
    | done => rfl
    | panic => rfl
    | cont t' => exact ih t'
    | yield x t' =>
      simp only [QStep.toRound]
      cases cb t'.ray x with
      | mk r s =>
        cases s with
        | true => rfl
        | false => simp only [ih]; rfl

section
variable {round : τ → Round τ ι} {get : τ → σ} {set : σ → τ → τ}

theorem gdrive_mono {cb : σ → ι → σ × Bool} {n : Nat} : ∀ {t : τ}, (gdrive round get set cb n t).ending ≠ .outOfFuel →
    ∀ k, gdrive round get set cb (n + k) t = gdrive round get set cb n t := by
  induction n with
  | zero => intro t h; exact absurd rfl h
  | succ n ih =>
    intro t h k
    rw [show n + 1 + k = (n + k) + 1 by omega]
    simp only [gdrive] at h ⊢
    cases e : round t with
    | done => rfl
    | panic => rfl
    | cont t' => simp only [e] at h ⊢; exact ih h k
    | yield x t' =>
      simp only [e] at h ⊢
      cases e2 : cb (get t') x with
      | mk r s =>
        cases s with
        | true => rfl
        | false =>
          simp only [e2] at h ⊢
          rw [ih (t := set r t') h k]

/-- Bodies that differ only at an item that is not handed out give the same loop. -/
theorem gdrive_off {cb cb' : σ → ι → σ × Bool} {x : ι} (ha : ∀ r y, y ≠ x → cb r y = cb' r y) {n : Nat} :
    ∀ {t : τ}, x ∉ (gdrive round get set cb n t).items → gdrive round get set cb' n t = gdrive round get set cb n t := by
  induction n with
  | zero => intro t _; rfl
  | succ n ih =>
    intro t h
    simp only [gdrive] at h ⊢
    cases e : round t with
    | done => rfl
    | panic => rfl
    | cont t' => simp only [e] at h ⊢; exact ih h
    | yield y t' =>
      simp only [e] at h ⊢
      cases e2 : cb (get t') y with
      | mk r s =>
        have hy : y ≠ x := by
          rintro rfl
          rw [e2] at h
          cases s with
          | true => exact h (by simp)
          | false => exact h (by simp [Run.cons])
        rw [← ha _ _ hy, e2]
        cases s with
        | true => rfl
        | false =>
          simp only [e2] at h ⊢
          rw [ih (t := set r t') (fun hm => h (by simp [Run.cons, hm]))]

theorem callNext_item {n : Nat} {x : ι} : ∀ {t t' : τ}, callNext round n t = .item x t' →
    ∃ k, 1 ≤ k ∧ k ≤ n ∧ ∀ (cb : σ → ι → σ × Bool) f, gdrive round get set cb (k + f) t =
      match cb (get t') x with
      | (r, true) => ⟨[x], r, .stopped⟩
      | (r, false) => (gdrive round get set cb f (set r t')).cons x := by
  induction n with
  | zero => intro t t' h; cases h
  | succ n ih =>
    intro t t' h
    simp only [callNext] at h
    cases e : round t with
    | done => rw [e] at h; cases h
    | panic => rw [e] at h; cases h
    | cont t1 =>
      rw [e] at h
      obtain ⟨k, h1, h2, h3⟩ := ih h
      refine ⟨k + 1, by omega, by omega, fun cb f => ?_⟩
      rw [show k + 1 + f = (k + f) + 1 by omega, gdrive, e]
      exact h3 cb f
    | yield y t1 =>
      rw [e] at h
      cases h
      refine ⟨1, by omega, by omega, fun cb f => ?_⟩
      rw [show 1 + f = f + 1 by omega, gdrive, e]

theorem callNext_none {n : Nat} : ∀ {t t' : τ}, callNext round n t = .none t' → round t' = .done ∧ 1 ≤ n ∧
    ∀ (cb : σ → ι → σ × Bool), gdrive round get set cb n t = ⟨[], get t', .finished⟩ := by
  induction n with
  | zero => intro t t' h; cases h
  | succ n ih =>
    intro t t' h
    simp only [callNext] at h
    cases e : round t with
    | done => rw [e] at h; cases h; exact ⟨e, by omega, fun cb => by rw [gdrive, e]⟩
    | panic => rw [e] at h; cases h
    | cont t1 =>
      rw [e] at h
      obtain ⟨h1, h2, h3⟩ := ih h
      exact ⟨h1, by omega, fun cb => by rw [gdrive, e]; exact h3 cb⟩
    | yield y t1 => rw [e] at h; cases h

theorem callNext_bad {n : Nat} : ∀ {t : τ}, (callNext round n t = .panic ∨ callNext round n t = .running) →
    ∀ (cb : σ → ι → σ × Bool), ¬ ((gdrive round get set cb n t).ending = .finished ∨
      (gdrive round get set cb n t).ending = .stopped) := by
  induction n with
  | zero => intro t _ cb h; simp [gdrive] at h
  | succ n ih =>
    intro t h cb
    simp only [callNext] at h
    rw [gdrive]
    cases e : round t with
    | done => rw [e] at h; simp at h
    | panic => simp
    | cont t1 => rw [e] at h; exact ih h cb
    | yield y t1 => rw [e] at h; simp at h

/-- Every loop from here ends properly within `N` rounds and hands out nothing twice. -/
def GoodAt (round : τ → Round τ ι) (get : τ → σ) (set : σ → τ → τ) (N : Nat) (t : τ) : Prop :=
  ∀ cb : σ → ι → σ × Bool, (gdrive round get set cb N t).items.Nodup ∧
    ((gdrive round get set cb N t).ending = .finished ∨ (gdrive round get set cb N t).ending = .stopped)

variable [DecidableEq ι]

theorem GoodAt.next {N : Nat} {t t' : τ} {x : ι} (h : GoodAt round get set N t) (e : callNext round N t = .item x t') (r : σ) :
    GoodAt round get set N (set r t') ∧
      ∀ cb : σ → ι → σ × Bool, x ∉ (gdrive round get set cb N (set r t')).items := by
  obtain ⟨k, h1, h2, h3⟩ := callNext_item (get := get) (set := set) e
  have key : ∀ cb : σ → ι → σ × Bool, (gdrive round get set cb N (set r t')).items.Nodup ∧
      ((gdrive round get set cb N (set r t')).ending = .finished ∨
        (gdrive round get set cb N (set r t')).ending = .stopped) ∧
      x ∉ (gdrive round get set cb N (set r t')).items := by
    intro cb
    obtain ⟨ha, hb⟩ := h (fun q y => if y = x then (r, false) else cb q y)
    have e3 := h3 (fun q y => if y = x then (r, false) else cb q y) (N - k)
    rw [show k + (N - k) = N by omega, if_pos rfl] at e3
    simp only at e3
    rw [e3] at ha hb
    simp only [Run.cons, List.nodup_cons] at ha hb
    have e4 := gdrive_off (cb' := cb) (fun q y hy => by rw [if_neg hy]) ha.1
    rw [← e4] at ha hb
    have e5 := gdrive_mono (round := round) (get := get) (set := set) (cb := cb) (n := N - k) (t := set r t')
      (by rcases hb with hb | hb <;> rw [hb] <;> simp) k
    rw [show N - k + k = N by omega] at e5
    rw [e5]
    exact ⟨ha.2, hb, ha.1⟩
  exact ⟨fun cb => ⟨(key cb).1, (key cb).2.1⟩, fun cb => (key cb).2.2⟩

omit [DecidableEq ι] in
/-- After `None` there is only `None`. -/
theorem session_done {client : D → σ → Option ι → D × σ × Bool} {N : Nat} (hN : 1 ≤ N) {t : τ}
    (h : ∀ r, round (set r t) = .done) (hss : ∀ r r', set r (set r' t) = set r t) : ∀ (calls : Nat) (d : D) (r : σ),
    ((session round get set client N calls d (set r t)).ending = .stopped ∨
      (session round get set client N calls d (set r t)).ending = .more) ∧
    ∃ k, (session round get set client N calls d (set r t)).results.map Prod.fst = List.replicate k none := by
  intro calls
  induction calls with
  | zero => intro d r; exact ⟨.inr rfl, 0, rfl⟩
  | succ c ih =>
    intro d r
    have e : callNext round N (set r t) = .none (set r t) := by
      cases N with
      | zero => omega
      | succ n => rw [callNext, h r]
    rw [session, e]
    simp only
    cases e2 : client d (get (set r t)) none with
    | mk d' p =>
      obtain ⟨r', s⟩ := p
      cases s with
      | true => exact ⟨.inl rfl, 1, rfl⟩
      | false =>
        simp only [hss]
        obtain ⟨a, k, b⟩ := ih d' r'
        exact ⟨a, k + 1, by simp only [Session.cons, List.map_cons, b, List.replicate_succ]⟩

/-- The main lemma: a client with memory gets what a loop body without memory gets that in each situation does something
the client might do. -/
theorem session_main {client : D → σ → Option ι → D × σ × Bool} {N : Nat} (d0 : D)
    (hfuse : ∀ t, round t = .done → ∀ r, round (set r t) = .done) (hss : ∀ t r r', set r (set r' t) = set r t) :
    ∀ (calls : Nat) (d : D) (t : τ), GoodAt round get set N t →
    let s := session round get set client N calls d t
    (s.ending = .stopped ∨ s.ending = .more) ∧
    ∃ (ids : List ι) (k : Nat) (cb : σ → ι → σ × Bool),
      s.results.map Prod.fst = ids.map some ++ List.replicate k none ∧
      (∀ r x, ∃ d, cb r x = (client d r (some x)).2) ∧
      ids <+: (gdrive round get set cb N t).items ∧
      (0 < k → (gdrive round get set cb N t).items = ids ∧ (gdrive round get set cb N t).ending = .finished ∧
        s.results[ids.length]? = some (none, (gdrive round get set cb N t).ray)) ∧
      (k = 0 → s.ending = .stopped → (gdrive round get set cb N t).items = ids ∧
        (gdrive round get set cb N t).ending = .stopped ∧ (gdrive round get set cb N t).ray = s.ray) := by
  intro calls
  induction calls with
  | zero =>
    intro d t _
    exact ⟨.inr rfl, [], 0, fun r x => (client d0 r (some x)).2, rfl, fun r x => ⟨d0, rfl⟩, List.nil_prefix,
      fun h => by omega, fun _ h => by simp [session] at h⟩
  | succ c ih =>
    intro d t hg
    simp only [session]
    cases e : callNext round N t with
    | panic => exact absurd (hg (fun r x => (client d0 r (some x)).2)).2 (callNext_bad (.inl e) _)
    | running => exact absurd (hg (fun r x => (client d0 r (some x)).2)).2 (callNext_bad (.inr e) _)
    | none t' =>
      obtain ⟨h1, h2, h3⟩ := callNext_none (get := get) (set := set) e
      simp only
      cases e2 : client d (get t') none with
      | mk d' p =>
        obtain ⟨r', s⟩ := p
        cases s with
        | true =>
          refine ⟨.inl rfl, [], 1, fun r x => (client d0 r (some x)).2, rfl, fun r x => ⟨d0, rfl⟩, List.nil_prefix,
            fun _ => ?_, fun h => by omega⟩
          rw [h3]
          exact ⟨rfl, rfl, rfl⟩
        | false =>
          obtain ⟨a, k, b⟩ := session_done (get := get) (client := client) h2 (hfuse t' h1) (hss t') c d' r'
          refine ⟨a, [], k + 1, fun r x => (client d0 r (some x)).2, ?_, fun r x => ⟨d0, rfl⟩, List.nil_prefix,
            fun _ => ?_, fun h => by omega⟩
          · simp only [Session.cons, List.map_cons, b, List.replicate_succ, List.map_nil, List.nil_append]
          · rw [h3]
            exact ⟨rfl, rfl, rfl⟩
    | item x t' =>
      obtain ⟨k0, g1, g2, g3⟩ := callNext_item (get := get) (set := set) e
      simp only
      cases e2 : client d (get t') (some x) with
      | mk d' p =>
        obtain ⟨r', s⟩ := p
        cases s with
        | true =>
          have hr : gdrive round get set (fun r y => if y = x then (client d r (some x)).2 else (client d0 r (some y)).2) N t =
              ⟨[x], r', .stopped⟩ := by
            have := g3 (fun r y => if y = x then (client d r (some x)).2 else (client d0 r (some y)).2) (N - k0)
            rw [show k0 + (N - k0) = N by omega] at this
            rw [this, if_pos rfl, e2]
          refine ⟨.inl rfl, [x], 0, fun r y => if y = x then (client d r (some x)).2 else (client d0 r (some y)).2, rfl,
            fun r y => ?_, ?_, fun h => by omega, fun _ _ => ?_⟩
          · by_cases hy : y = x
            · exact ⟨d, by subst hy; simp⟩
            · exact ⟨d0, by simp only [if_neg hy]⟩
          · rw [hr]; exact List.prefix_refl _
          · rw [hr]; exact ⟨rfl, rfl, rfl⟩
        | false =>
          obtain ⟨hg1, hx⟩ := hg.next e r'
          obtain ⟨a, ids, k, cb, b1, b2, b3, b4, b5⟩ := ih d' (set r' t') hg1
          have hr : gdrive round get set (fun r y => if y = x then (client d r (some x)).2 else cb r y) N t =
              (gdrive round get set cb N (set r' t')).cons x := by
            have h4 := g3 (fun r y => if y = x then (client d r (some x)).2 else cb r y) (N - k0)
            rw [show k0 + (N - k0) = N by omega, if_pos rfl, e2] at h4
            simp only at h4
            have h5 := (hg (fun r y => if y = x then (client d r (some x)).2 else cb r y)).2
            rw [h4] at h5
            have h6 := gdrive_mono (round := round) (get := get) (set := set)
              (cb := fun r y => if y = x then (client d r (some x)).2 else cb r y) (n := N - k0) (t := set r' t')
              (by simp only [Run.cons] at h5; rcases h5 with h5 | h5 <;> rw [h5] <;> simp) k0
            rw [show N - k0 + k0 = N by omega] at h6
            rw [h4, ← h6, gdrive_off (cb := cb) (x := x) (fun r y hy => by rw [if_neg hy]) (hx cb)]
          refine ⟨a, x :: ids, k, fun r y => if y = x then (client d r (some x)).2 else cb r y, ?_, fun r y => ?_, ?_,
            fun hk => ?_, fun hk hs => ?_⟩
          · simp only [Session.cons, List.map_cons, b1, List.cons_append]
          · by_cases hy : y = x
            · exact ⟨d, by subst hy; simp⟩
            · obtain ⟨d1, h1⟩ := b2 r y
              exact ⟨d1, by simp only [if_neg hy, h1]⟩
          · rw [hr]
            exact (List.prefix_cons_inj x).2 b3
          · rw [hr]
            obtain ⟨c1, c2, c3⟩ := b4 hk
            exact ⟨by simp only [Run.cons, c1], c2, by simpa [Session.cons, Run.cons] using c3⟩
          · rw [hr]
            obtain ⟨c1, c2, c3⟩ := b5 hk hs
            exact ⟨by simp only [Run.cons, c1], c2, c3⟩
end

/-! ### Primitive iterators -/

/-- Rename the items of a round. -/
def Round.mapItems (f : ι → Option κ) : Round τ ι → Option (Round τ κ)
  | .done => some .done
  | .panic => some .panic
  | .cont t => some (.cont t)
  | .yield x t => (f x).map (fun y => .yield y t)

/-- Rename the result of a call. -/
def Called.mapItems (f : ι → Option κ) : Called τ ι → Option (Called τ κ)
  | .item x t => (f x).map (fun y => .item y t)
  | .none t => some (.none t)
  | .panic => some .panic
  | .running => some .running

theorem callNext_sim {r1 : τ → Round τ ι} {r2 : τ → Round τ κ} {f : ι → Option κ}
    (h : ∀ t, (r1 t).mapItems f = some (r2 t)) (n : Nat) (t : τ) :
    (callNext r1 n t).mapItems f = some (callNext r2 n t) := by
  induction n generalizing t with
  | zero => rfl
  | succ n ih =>
    have ht := h t
    simp only [callNext]
    cases e : r1 t with
    | done => rw [e] at ht; simp only [Round.mapItems, Option.some.injEq] at ht; rw [← ht]; rfl
    | panic => rw [e] at ht; simp only [Round.mapItems, Option.some.injEq] at ht; rw [← ht]; rfl
    | cont t' => rw [e] at ht; simp only [Round.mapItems, Option.some.injEq] at ht; rw [← ht]; exact ih t'
    | yield x t' =>
      rw [e] at ht
      simp only [Round.mapItems] at ht
      cases fx : f x with
      | none => rw [fx] at ht; simp at ht
      | some y =>
        rw [fx] at ht
        simp only [Option.map_some, Option.some.injEq] at ht
        rw [← ht]
        simp [Called.mapItems, fx]

theorem session_sim {r1 : τ → Round τ ι} {r2 : τ → Round τ κ} {get : τ → σ} {set : σ → τ → τ} {f : ι → Option κ}
    (h : ∀ t, (r1 t).mapItems f = some (r2 t)) (client : D → σ → Option κ → D × σ × Bool) (n calls : Nat) (d : D) (t : τ) :
    session r2 get set client n calls d t =
      (let s := session r1 get set (fun d r o => client d r (o.bind f)) n calls d t
       ⟨s.results.map fun p => (p.1.bind f, p.2), s.ray, s.memory, s.ending⟩) := by
  induction calls generalizing d t with
  | zero => rfl
  | succ c ih =>
    have ht := callNext_sim h n t
    simp only [session]
    cases e : callNext r1 n t with
    | panic => rw [e] at ht; simp only [Called.mapItems, Option.some.injEq] at ht; rw [← ht]; rfl
    | running => rw [e] at ht; simp only [Called.mapItems, Option.some.injEq] at ht; rw [← ht]; rfl
    | none t' =>
      rw [e] at ht
      simp only [Called.mapItems, Option.some.injEq] at ht
      rw [← ht]
      simp only [Option.bind_none]
      cases client d (get t') none with
      | mk d' p =>
        obtain ⟨r', s⟩ := p
        cases s with
        | true => rfl
        | false => simp only [ih]; rfl
    | item x t' =>
      rw [e] at ht
      simp only [Called.mapItems] at ht
      cases fx : f x with
      | none => rw [fx] at ht; simp at ht
      | some y =>
        rw [fx] at ht
        simp only [Option.map_some, Option.some.injEq] at ht
        rw [← ht]
        simp only [Option.bind_some, fx]
        cases client d (get t') (some y) with
        | mk d' p =>
          obtain ⟨r', s⟩ := p
          cases s with
          | true => simp [fx]
          | false => simp only [ih]; simp [Session.cons, fx]

end Rtbvh
