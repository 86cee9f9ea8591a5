import Verif.Model.Fine
/- Whole steps suffice: a build whose tasks' steps overlap gets no further than one whose steps follow each other. -/
namespace Rtbvh
variable {S X K E : Type}

/-- What the whole steps of a system must satisfy, in the states `P` they lead to, for overlapping steps to make no
difference. -/
structure TaskSystem.Apart (M : TaskSystem S X K E) (P : S → Prop) : Prop where
  refl : ∀ s c, M.same s s c
  symm : ∀ s t c, M.same s t c → M.same t s c
  trans : ∀ s t u c, M.same s t c → M.same t u c → M.same s u c
  size_refl : ∀ s, M.sameSize s s
  size_symm : ∀ s t, M.sameSize s t → M.sameSize t s
  size_trans : ∀ s t u, M.sameSize s t → M.sameSize t u → M.sameSize s u
  merge : ∀ (s r : S) (D : Cell → Prop) (p : List X) (n : K), M.sameSize s r →
    ∃ t, M.pending t = p ∧ M.counters t = n ∧ M.sameSize s t ∧ (∀ c, D c → M.same r t c) ∧ ∀ c, ¬ D c → M.same s t c
  apart : ∀ s, P s → ∀ (i j : Nat) x y, i ≠ j → (M.pending s)[i]? = some x → (M.pending s)[j]? = some y →
    ∀ c, ¬ (M.uses x c ∧ M.uses y c)
  local_ok : ∀ s, P s → ∀ (k : Nat) x m, (M.pending s)[k]? = some x → M.sameSize s m →
    (∀ c, M.uses x c → M.same s m c) →
    (∃ e, M.step s k = .error e ∧ M.step (M.alone m (M.counters s) x) 0 = .error e) ∨
    ∃ s' r, M.step s k = .ok s' ∧ M.step (M.alone m (M.counters s) x) 0 = .ok r ∧ P s' ∧ M.sameSize s s' ∧
      M.sameSize s' r ∧ M.pending s' = (M.pending s).eraseIdx k ++ M.pending r ∧ M.counters s' = M.counters r ∧
      (∀ c, ¬ M.uses x c → M.same s s' c) ∧ ∀ c, M.uses x c → M.same s' r c

/-- The state `s`, got by whole steps, is the one the build `f` with overlapping steps stands for. -/
structure Stands (M : TaskSystem S X K E) (f : Fine S) (s : S) : Prop where
  pending : M.pending f.state = M.pending s
  counters : M.counters f.state = M.counters s
  size : M.sameSize s f.state
  length : f.running.length = (M.pending s).length
  own : ∀ k x m, f.Runs M k x m → M.sameSize s m ∧ ∀ c, M.uses x c → M.same s m c
  rest : ∀ c, (∀ k x m, f.Runs M k x m → ¬ M.uses x c) → M.same s f.state c

theorem eraseIdx_getElem? {α : Type} {l : List α} {k j : Nat} {x : α} (h : (l.eraseIdx k)[j]? = some x) :
    l[if j < k then j else j + 1]? = some x := by
  rw [List.getElem?_eraseIdx] at h
  split at h <;> rename_i hj
  · rwa [if_pos hj]
  · rwa [if_neg hj]

theorem skip_ne {k j : Nat} : (if j < k then j else j + 1) ≠ k := by split <;> omega

theorem eraseIdx_of_ne {α : Type} {l : List α} {k j : Nat} {x : α} (h : l[j]? = some x) (hjk : j ≠ k) :
    (l.eraseIdx k)[if j < k then j else j - 1]? = some x := by
  rw [List.getElem?_eraseIdx]
  by_cases hj : j < k
  · simp only [if_pos hj]; exact h
  · rw [if_neg hj, if_neg (by omega), show j - 1 + 1 = j by omega]; exact h

theorem Stands.init {M : TaskSystem S X K E} {P : S → Prop} (hM : M.Apart P) {s : S} :
    Stands M ⟨s, (M.pending s).map fun _ => none⟩ s := by
  have none : ∀ k x m, ¬ Fine.Runs M ⟨s, (M.pending s).map fun _ => none⟩ k x m := by
    rintro k x m ⟨_, h2⟩
    simp only [List.getElem?_map] at h2
    cases e : (M.pending s)[k]? with
    | none => rw [e] at h2; cases h2
    | some z => rw [e] at h2; cases h2
  exact ⟨rfl, rfl, hM.size_refl s, by simp, fun k x m h => (none k x m h).elim, fun c _ => hM.refl s c⟩

/-- The number of tasks in the middle of a step. -/
def runCount (f : Fine S) : Nat := f.running.countP Option.isSome

theorem runCount_le (f : Fine S) : runCount f ≤ f.running.length := List.countP_le_length

theorem countP_eraseIdx_some {α : Type} : ∀ {l : List (Option α)} {k : Nat} {m : α}, l[k]? = some (some m) →
    (l.eraseIdx k).countP Option.isSome + 1 = l.countP Option.isSome
  | [], k, m, h => by cases h
  | a :: l, 0, m, h => by
    simp only [List.getElem?_cons_zero, Option.some.injEq] at h
    subst h
    simp
  | a :: l, k + 1, m, h => by
    have ih := countP_eraseIdx_some (l := l) (k := k) (m := m) (by simpa using h)
    simp only [List.eraseIdx_cons_succ, List.countP_cons]
    omega

theorem countP_set_some {α : Type} : ∀ {l : List (Option α)} {k : Nat} {m : α}, l[k]? = some none →
    (l.set k (some m)).countP Option.isSome = l.countP Option.isSome + 1
  | [], k, m, h => by cases h
  | a :: l, 0, m, h => by
    simp only [List.getElem?_cons_zero, Option.some.injEq] at h
    subst h
    simp
  | a :: l, k + 1, m, h => by
    have ih := countP_set_some (l := l) (k := k) (m := m) (by simpa using h)
    simp only [List.set_cons_succ, List.countP_cons]
    omega

/-- An event ends the step of at most one task. -/
theorem FineStep.runCount {M : TaskSystem S X K E} {f f' : Fine S} (hs : FineStep M f f') :
    runCount f ≤ runCount f' + 1 := by
  cases hs with
  | @start k hk =>
    have h : (f.running.set k (some f.state)).countP Option.isSome = f.running.countP Option.isSome + 1 :=
      countP_set_some hk
    unfold Rtbvh.runCount
    dsimp only
    omega
  | scribble hk hc hr hp hn hl hs =>
    unfold Rtbvh.runCount
    rw [hr]
    omega
  | atomic hk he hx hk' hp hr hn hl hs hl' hu ho =>
    have := countP_eraseIdx_some hk.2
    unfold Rtbvh.runCount
    rw [hr, List.countP_append]
    omega
  | finish hk he hp hr hn hl hu hs =>
    have := countP_eraseIdx_some hk.2
    unfold Rtbvh.runCount
    rw [hr, List.countP_append]
    omega

theorem Stands.step {M : TaskSystem S X K E} {P : S → Prop} (hM : M.Apart P) {f f' : Fine S} {s : S} (hP : P s)
    (h : Stands M f s) (hs : FineStep M f f') :
    (Stands M f' s ∧ (f.Quiet M f' ∨ runCount f' = runCount f + 1)) ∨
    ∃ k s', k < (M.pending s).length ∧ M.step s k = .ok s' ∧ P s' ∧ Stands M f' s' := by
  have idx : ∀ {j : Nat} {x : X}, (M.pending f.state)[j]? = some x → (M.pending s)[j]? = some x := fun hj => by
    rw [← h.pending]; exact hj
  cases hs with
  | @start k hk =>
    left
    refine ⟨?_, .inr (countP_set_some hk)⟩
    refine ⟨h.pending, h.counters, h.size, by rw [List.length_set]; exact h.length, ?_, ?_⟩
    · intro j x m hr
      obtain ⟨h1, h2⟩ := hr
      simp only at h1 h2
      rw [List.getElem?_set] at h2
      split at h2
      · rename_i hj
        subst hj
        split at h2
        · cases h2
          refine ⟨h.size, fun c hc => h.rest c fun i y m' hy hu => ?_⟩
          by_cases hi : i = k
          · subst hi
            rw [hy.2] at hk; cases hk
          · exact hM.apart s hP i k y x hi (idx hy.1) (idx h1) c ⟨hu, hc⟩
        · cases h2
      · exact h.own j x m ⟨h1, h2⟩
    · intro c hc
      refine h.rest c fun j x m hr => hc j x m ⟨hr.1, ?_⟩
      simp only
      rw [List.getElem?_set_ne]
      · exact hr.2
      · rintro rfl
        rw [hr.2] at hk; cases hk
  | @scribble _ k x m c hk hc hr hp hn hl hs =>
    left
    have runs : ∀ {j y m'}, f'.Runs M j y m' → f.Runs M j y m' := fun ⟨h1, h2⟩ => ⟨hp ▸ h1, hr ▸ h2⟩
    refine ⟨?_, .inl ⟨hr, hp, hn⟩⟩
    refine ⟨hp.trans h.pending, hn.trans h.counters, hM.size_trans _ _ _ h.size hl, by rw [hr]; exact h.length,
      fun j y m' hy => h.own j y m' (runs hy), fun c' hc' => ?_⟩
    have hne : c' ≠ c := by
      rintro rfl
      exact hc' k x m ⟨hp ▸ hk.1, hr ▸ hk.2⟩ hc
    exact hM.trans _ _ _ _ (h.rest c' fun j y m' hy => hc' j y m' ⟨hp ▸ hy.1, hr ▸ hy.2⟩) (hs c' hne)
  | @atomic _ k x x' m m' r hk he hx hk' hp hr hn hl hs hl' hu ho =>
    right
    have hxs := idx hk.1
    obtain ⟨hm1, hm2⟩ := h.own k x m hk
    rw [h.counters] at he
    rcases hM.local_ok s hP k x m hxs hm1 hm2 with ⟨e, _, e2⟩ | ⟨s', r', e1, e2, hP', q1, q2, q3, q4, q5, q6⟩
    · rw [e2] at he; cases he
    rw [e2] at he
    cases he
    rw [hx] at q3
    have hlp : k < (M.pending s).length := (List.getElem?_eq_some_iff.1 hxs).1
    have hel : ((M.pending s).eraseIdx k).length = (M.pending s).length - 1 := by rw [List.length_eraseIdx, if_pos hlp]
    have hrl : (f.running.eraseIdx k).length = (M.pending s).length - 1 := by
      rw [List.length_eraseIdx, if_pos (by rw [h.length]; exact hlp), h.length]
    have runs : ∀ {j y m0}, f'.Runs M j y m0 → (j < (M.pending s).length - 1 ∧
        f.Runs M (if j < k then j else j + 1) y m0) ∨ (j = (M.pending s).length - 1 ∧ y = x' ∧ m0 = m') := by
      intro j y m0 ⟨h1, h2⟩
      rw [hp, h.pending] at h1
      rw [hr] at h2
      by_cases hj : j < (M.pending s).length - 1
      · rw [List.getElem?_append_left (by omega)] at h1 h2
        exact .inl ⟨hj, by rw [h.pending]; exact eraseIdx_getElem? h1, eraseIdx_getElem? h2⟩
      · rw [List.getElem?_append_right (by omega)] at h1 h2
        have hj' : j = (M.pending s).length - 1 := by
          have := (List.getElem?_eq_some_iff.1 h1).1
          simp at this; omega
        rw [hel, hj', Nat.sub_self] at h1
        rw [hrl, hj', Nat.sub_self] at h2
        cases h1; cases h2
        exact .inr ⟨hj', rfl, rfl⟩
    have last : (M.pending s')[(M.pending s).length - 1]? = some x' := by
      rw [q3, List.getElem?_append_right (by omega), hel, Nat.sub_self]; rfl
    have inj : ∀ {j : Nat} {y : X}, j ≠ k → (M.pending s)[j]? = some y → (M.pending s')[if j < k then j else j - 1]? = some y ∧
        (if j < k then j else j - 1) < (M.pending s).length - 1 := by
      intro j y hjk hj
      have h1 := eraseIdx_of_ne hj hjk
      have := (List.getElem?_eq_some_iff.1 h1).1
      exact ⟨by rw [q3, List.getElem?_append_left this]; exact h1, by omega⟩
    refine ⟨k, s', hlp, e1, hP', ⟨by rw [hp, h.pending, q3], hn.trans q4.symm,
      hM.size_trans _ _ _ (hM.size_symm _ _ q1) (hM.size_trans _ _ _ h.size hl), ?_, ?_, ?_⟩⟩
    · rw [hr, q3, List.length_append, List.length_append, hel, hrl]; rfl
    · intro j y m0 hj
      rcases runs hj with ⟨hj1, hj2⟩ | ⟨rfl, rfl, rfl⟩
      · obtain ⟨o1, o2⟩ := h.own _ y m0 hj2
        refine ⟨hM.size_trans _ _ _ (hM.size_symm _ _ q1) o1, fun c hc => ?_⟩
        have hnx : ¬ M.uses x c := fun hxc => hM.apart s hP _ _ y x skip_ne (idx hj2.1) hxs c ⟨hc, hxc⟩
        exact hM.trans _ _ _ _ (hM.symm _ _ _ (q5 c hnx)) (o2 c hc)
      · refine ⟨hM.size_trans _ _ _ (hM.size_symm _ _ q1) (hM.size_trans _ _ _ h.size hl'), fun c hc => ?_⟩
        by_cases hxc : M.uses x c
        · exact hM.trans _ _ _ _ (q6 c hxc) (hu c hxc)
        · refine hM.trans _ _ _ _ (hM.symm _ _ _ (q5 c hxc)) (hM.trans _ _ _ _ (h.rest c ?_) (ho c hxc))
          intro j' y' m1 hj' hy'
          by_cases hjk : j' = k
          · subst hjk
            have := hj'.1
            rw [hk.1] at this
            cases this
            exact hxc hy'
          · obtain ⟨a1, a2⟩ := inj hjk (idx hj'.1)
            exact hM.apart s' hP' _ _ _ _ (by omega) a1 last c ⟨hy', hc⟩
    · intro c hc
      have hx'c : ¬ M.uses x' c := hc ((M.pending s).length - 1) x' m' ⟨by
          rw [hp, h.pending, List.getElem?_append_right (by omega), hel, Nat.sub_self]; rfl, by
          rw [hr, List.getElem?_append_right (by omega), hrl, Nat.sub_self]; rfl⟩
      have hxc : ¬ M.uses x c := fun hh => hx'c (hk' c hh)
      refine hM.trans _ _ _ _ (hM.symm _ _ _ (q5 c hxc)) (hM.trans _ _ _ _ (h.rest c ?_) (hs c))
      intro j y m1 hj hy
      by_cases hjk : j = k
      · subst hjk
        have := hj.1
        rw [hk.1] at this
        cases this
        exact hxc hy
      · have h1 := eraseIdx_of_ne hj.1 hjk
        have h2 := eraseIdx_of_ne hj.2 hjk
        exact hc _ y m1 ⟨by rw [hp, List.getElem?_append_left (List.getElem?_eq_some_iff.1 h1).1]; exact h1,
          by rw [hr, List.getElem?_append_left (List.getElem?_eq_some_iff.1 h2).1]; exact h2⟩ hy
  | @finish _ k x m r hk he hp hr hn hl hu hs =>
    right
    have hxs := idx hk.1
    obtain ⟨hm1, hm2⟩ := h.own k x m hk
    rw [h.counters] at he
    rcases hM.local_ok s hP k x m hxs hm1 hm2 with ⟨e, _, e2⟩ | ⟨s', r', e1, e2, hP', q1, q2, q3, q4, q5, q6⟩
    · rw [e2] at he; cases he
    rw [e2] at he
    cases he
    have hlp : k < (M.pending s).length := (List.getElem?_eq_some_iff.1 hxs).1
    have hel : ((M.pending s).eraseIdx k).length = (M.pending s).length - 1 := by rw [List.length_eraseIdx, if_pos hlp]
    have hrl : (f.running.eraseIdx k).length = (M.pending s).length - 1 := by
      rw [List.length_eraseIdx, if_pos (by rw [h.length]; exact hlp), h.length]
    have runs : ∀ {j y m0}, f'.Runs M j y m0 → f.Runs M (if j < k then j else j + 1) y m0 := by
      intro j y m0 ⟨h1, h2⟩
      rw [hp, h.pending] at h1
      rw [hr] at h2
      by_cases hj : j < (M.pending s).length - 1
      · rw [List.getElem?_append_left (by omega)] at h1 h2
        exact ⟨by rw [h.pending]; exact eraseIdx_getElem? h1, eraseIdx_getElem? h2⟩
      · rw [List.getElem?_append_right (by omega), List.getElem?_map] at h2
        cases e : (M.pending r)[j - (f.running.eraseIdx k).length]? with
        | none => rw [e] at h2; cases h2
        | some z => rw [e] at h2; cases h2
    refine ⟨k, s', hlp, e1, hP', ⟨by rw [hp, h.pending, q3], hn.trans q4.symm,
      hM.size_trans _ _ _ (hM.size_symm _ _ q1) (hM.size_trans _ _ _ h.size hl), ?_, ?_, ?_⟩⟩
    · rw [hr, q3, List.length_append, List.length_append, hel, hrl, List.length_map]
    · intro j y m0 hj
      have hj2 := runs hj
      obtain ⟨o1, o2⟩ := h.own _ y m0 hj2
      refine ⟨hM.size_trans _ _ _ (hM.size_symm _ _ q1) o1, fun c hc => ?_⟩
      have hnx : ¬ M.uses x c := fun hxc => hM.apart s hP _ _ y x skip_ne (idx hj2.1) hxs c ⟨hc, hxc⟩
      exact hM.trans _ _ _ _ (hM.symm _ _ _ (q5 c hnx)) (o2 c hc)
    · intro c hc
      by_cases hxc : M.uses x c
      · exact hM.trans _ _ _ _ (q6 c hxc) (hu c hxc)
      · refine hM.trans _ _ _ _ (hM.symm _ _ _ (q5 c hxc)) (hM.trans _ _ _ _ (h.rest c ?_) (hs c hxc))
        intro j y m1 hj hy
        by_cases hjk : j = k
        · subst hjk
          have := hj.1
          rw [hk.1] at this
          cases this
          exact hxc hy
        · have h1 := eraseIdx_of_ne hj.1 hjk
          have h2 := eraseIdx_of_ne hj.2 hjk
          exact hc _ y m1 ⟨by rw [hp, List.getElem?_append_left (List.getElem?_eq_some_iff.1 h1).1]; exact h1,
            by rw [hr, List.getElem?_append_left (List.getElem?_eq_some_iff.1 h2).1]; exact h2⟩ hy

/-- A task in the middle of a step either faults as the whole step would or can end it. -/
theorem Stands.progress {M : TaskSystem S X K E} {P : S → Prop} (hM : M.Apart P) {f : Fine S} {s : S} (hP : P s)
    (h : Stands M f s) {k : Nat} {x : X} {m : S} (hk : f.Runs M k x m) :
    (∃ e, M.step s k = .error e ∧ M.step (M.alone m (M.counters f.state) x) 0 = .error e) ∨
    ∃ r f', M.step (M.alone m (M.counters f.state) x) 0 = .ok r ∧ FineStep M f f' ∧
      M.pending f'.state = (M.pending f.state).eraseIdx k ++ M.pending r ∧ ¬ f.Quiet M f' := by
  have hxs : (M.pending s)[k]? = some x := by rw [← h.pending]; exact hk.1
  obtain ⟨hm1, hm2⟩ := h.own k x m hk
  rw [h.counters]
  rcases hM.local_ok s hP k x m hxs hm1 hm2 with ⟨e, e1, e2⟩ | ⟨s', r, e1, e2, hP', q1, q2, q3, q4, q5, q6⟩
  · exact .inl ⟨e, e1, e2⟩
  · obtain ⟨t, t1, t2, t3, t4, t5⟩ := hM.merge f.state r (M.uses x) ((M.pending f.state).eraseIdx k ++ M.pending r)
      (M.counters r) (hM.size_trans _ _ _ (hM.size_symm _ _ h.size) (hM.size_trans _ _ _ q1 q2))
    refine .inr ⟨r, ⟨t, f.running.eraseIdx k ++ (M.pending r).map fun _ => none⟩, e2,
      .finish hk (by rw [h.counters]; exact e2) t1 rfl t2 t3 t4 t5, t1, fun hq => ?_⟩
    have h1 := countP_eraseIdx_some hk.2
    have h2 : (f.running.eraseIdx k ++ (M.pending r).map fun _ => none).countP Option.isSome =
        f.running.countP Option.isSome := congrArg (List.countP Option.isSome) hq.1
    have h3 : ((M.pending r).map fun _ => (none : Option S)).countP Option.isSome = 0 := by
      rw [List.countP_eq_zero]
      intro a ha
      obtain ⟨_, _, rfl⟩ := List.mem_map.1 ha
      simp
    rw [List.countP_append, h3] at h2
    omega

/-- Whole steps one after the other, counted. -/
inductive WholeRun (M : TaskSystem S X K E) (s₀ : S) : Nat → S → Prop
  | init : WholeRun M s₀ 0 s₀
  | step {j : Nat} {s s' : S} {k : Nat} (h : WholeRun M s₀ j s) (hk : k < (M.pending s).length)
      (e : M.step s k = .ok s') : WholeRun M s₀ (j + 1) s'

/-- A history with `n` events other than writes matches whole steps at least half as many. -/
theorem FineRun.stands {M : TaskSystem S X K E} {P : S → Prop} (hM : M.Apart P) {s₀ : S} (hP : P s₀) {n : Nat} {f : Fine S}
    (h : FineRun M s₀ n f) : ∃ j s, P s ∧ WholeRun M s₀ j s ∧ Stands M f s ∧ n ≤ 2 * j + runCount f := by
  induction h with
  | init => exact ⟨0, s₀, hP, .init, Stands.init hM, by omega⟩
  | write _ hs hq ih =>
    obtain ⟨j, s, hPs, hw, hS, hn⟩ := ih
    have hr := congrArg (List.countP Option.isSome) hq.1
    rcases hS.step hM hPs hs with ⟨h', _⟩ | ⟨k, s', hk, e, hP', h'⟩
    · exact ⟨j, s, hPs, hw, h', by unfold runCount at *; omega⟩
    · exact ⟨j + 1, s', hP', hw.step hk e, h', by unfold runCount at *; omega⟩
  | event _ hs hq ih =>
    obtain ⟨j, s, hPs, hw, hS, hn⟩ := ih
    rcases hS.step hM hPs hs with ⟨h', h''⟩ | ⟨k, s', hk, e, hP', h'⟩
    · rcases h'' with h'' | h''
      · exact absurd h'' hq
      · exact ⟨j, s, hPs, hw, h', by omega⟩
    · have := hs.runCount
      exact ⟨j + 1, s', hP', hw.step hk e, h', by omega⟩

/-- Every history has a number of events. -/
theorem FineReach.run {M : TaskSystem S X K E} {s₀ : S} {f : Fine S} (h : FineReach M s₀ f) : ∃ n, FineRun M s₀ n f := by
  induction h with
  | init => exact ⟨0, .init⟩
  | step _ hs ih =>
    obtain ⟨n, ih⟩ := ih
    rename_i f f' _
    by_cases hq : f.Quiet M f'
    · exact ⟨n, ih.write hs hq⟩
    · exact ⟨n + 1, ih.event hs hq⟩

theorem FineRun.reach {M : TaskSystem S X K E} {s₀ : S} {n : Nat} {f : Fine S} (h : FineRun M s₀ n f) :
    FineReach M s₀ f := by
  induction h with
  | init => exact .init
  | write _ hs _ ih => exact ih.step hs
  | event _ hs _ ih => exact ih.step hs

/-- As long as tasks are left, one can begin a step, end it or fault in it. -/
theorem Stands.moves {M : TaskSystem S X K E} {P : S → Prop} (hM : M.Apart P) {f : Fine S} {s : S} (hP : P s)
    (h : Stands M f s) (hne : M.pending f.state ≠ []) :
    (∃ f', FineStep M f f' ∧ ¬ f.Quiet M f') ∨ ∃ e, f.Faults M e := by
  have hlen : 0 < (M.pending f.state).length := List.length_pos_iff.2 hne
  have hrl : 0 < f.running.length := by rw [h.length, ← h.pending]; exact hlen
  cases e : f.running[0] with
  | none =>
    have hk : f.running[0]? = some none := by rw [List.getElem?_eq_getElem hrl, e]
    refine .inl ⟨_, .start hk, fun hq => ?_⟩
    have h1 : (f.running.set 0 (some f.state)).countP Option.isSome = f.running.countP Option.isSome + 1 :=
      countP_set_some hk
    have h2 : (f.running.set 0 (some f.state)).countP Option.isSome = f.running.countP Option.isSome :=
      congrArg (List.countP Option.isSome) hq.1
    omega
  | some m =>
    have hr : f.Runs M 0 (M.pending f.state)[0] m :=
      ⟨List.getElem?_eq_getElem hlen, by rw [List.getElem?_eq_getElem hrl, e]⟩
    rcases h.progress hM hP hr with ⟨er, _, e2⟩ | ⟨r, f', _, h1, _, h2⟩
    · exact .inr ⟨er, 0, _, m, hr, e2⟩
    · exact .inl ⟨f', h1, h2⟩

/-- Whole steps are a special case. -/
theorem FineReach.whole {M : TaskSystem S X K E} {P : S → Prop} (hM : M.Apart P) {s₀ s s' : S} {k : Nat} (hP : P s)
    (hk : k < (M.pending s).length) (h : FineReach M s₀ ⟨s, (M.pending s).map fun _ => none⟩)
    (e : M.step s k = .ok s') : P s' ∧ FineReach M s₀ ⟨s', (M.pending s').map fun _ => none⟩ := by
  have hxs : (M.pending s)[k]? = some (M.pending s)[k] := List.getElem?_eq_getElem hk
  rcases hM.local_ok s hP k _ s hxs (hM.size_refl s) (fun c _ => hM.refl s c) with
    ⟨e0, e1, e2⟩ | ⟨s1, r, e1, e2, hP', q1, q2, q3, q4, q5, q6⟩
  · rw [e1] at e; cases e
  rw [e1] at e; cases e
  have h1 := h.step (.start (k := k) (by simp [hk]))
  refine ⟨hP', h1.step (.finish (k := k) (x := (M.pending s)[k]) (m := s) ⟨hxs, by simp [hk]⟩ e2 q3 ?_ q4 q1
    (fun c hc => hM.symm _ _ _ (q6 c hc)) q5)⟩
  simp only
  rw [q3, List.map_append]
  congr 1
  apply List.ext_getElem?
  intro j
  rw [List.getElem?_map, List.getElem?_eraseIdx, List.getElem?_eraseIdx]
  split
  · rw [List.getElem?_set_ne (by omega), List.getElem?_map]
  · rw [List.getElem?_set_ne (by omega), List.getElem?_map]

end Rtbvh
