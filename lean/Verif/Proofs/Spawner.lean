import Verif.Spec.Spawner
import Verif.Spec.Build
import Verif.Proofs.BuilderMain
/- Proofs about the task spawner: refinement to a pool of pending tasks, no deadlock, bounded number of turns. -/
namespace Rtbvh
variable {S A : Type}

/-- Everything a worker still has to run. -/
def Worker.items (w : Worker A) : List A := w.current.toList ++ w.stack
/-- All tasks that exist and have not finished. -/
def poolOf (ws : List (Worker A)) : List A := ws.flatMap Worker.items
/-- Bookkeeping turns still to come for a worker. -/
def Worker.todo (w : Worker A) : Nat := w.stack.length + w.handles.length + (if w.done then 0 else 1)
/-- Bookkeeping turns still to come for all workers. -/
def todoOf (ws : List (Worker A)) : Nat := (ws.map Worker.todo).sum

def Ran.toList : Ran A → List A
  | .finished => []
  | .goesOn a => [a]
  | .forks a b => [a, b]

theorem pool_split (ws : List (Worker A)) (i : Nat) (w : Worker A) (h : ws[i]? = some w) :
    ∃ R, (poolOf ws).Perm (w.items ++ R) ∧ ∀ w', (poolOf (ws.set i w')).Perm (w'.items ++ R) := by
  induction ws generalizing i with
  | nil => simp at h
  | cons x ws ih =>
    cases i with
    | zero =>
      simp at h; subst h
      exact ⟨poolOf ws, by simp [poolOf], by intro w'; simp [poolOf]⟩
    | succ i =>
      obtain ⟨R, h1, h2⟩ := ih i (by simpa using h)
      refine ⟨x.items ++ R, ?_, fun w' => ?_⟩
      · have : poolOf (x :: ws) = x.items ++ poolOf ws := by simp [poolOf]
        rw [this]
        refine (h1.append_left _).trans ?_
        rw [← List.append_assoc, ← List.append_assoc]
        exact List.perm_append_comm.append_right _
      · have : poolOf ((x :: ws).set (i + 1) w') = x.items ++ poolOf (ws.set i w') := by simp [poolOf]
        rw [this]
        refine ((h2 w').append_left _).trans ?_
        rw [← List.append_assoc, ← List.append_assoc]
        exact List.perm_append_comm.append_right _

theorem todo_split (ws : List (Worker A)) (i : Nat) (w : Worker A) (h : ws[i]? = some w) :
    ∃ r, todoOf ws = w.todo + r ∧ ∀ w', todoOf (ws.set i w') = w'.todo + r := by
  induction ws generalizing i with
  | nil => simp at h
  | cons x ws ih =>
    cases i with
    | zero =>
      simp at h; subst h
      exact ⟨todoOf ws, by simp [todoOf], by intro w'; simp [todoOf]⟩
    | succ i =>
      obtain ⟨r, h1, h2⟩ := ih i (by simpa using h)
      refine ⟨x.todo + r, ?_, fun w' => ?_⟩
      · have : todoOf (x :: ws) = x.todo + todoOf ws := by simp [todoOf]
        omega
      · have : todoOf ((x :: ws).set (i + 1) w') = x.todo + todoOf (ws.set i w') := by simp [todoOf]
        have := h2 w'
        omega

/-- What a turn does to the pool: either nothing (and it uses up one unit of bookkeeping), or one pending task makes
one atomic step. -/
theorem turn_pool {run : S → A → Option (S × Ran A)} {size : A → Nat} {thr : Nat} {s s' : Spawn S A} {i : Nat}
    (h : spawnTurn run size thr s i = .next s') :
    (s'.shared = s.shared ∧ (poolOf s'.workers).Perm (poolOf s.workers) ∧ todoOf s'.workers + 1 = todoOf s.workers) ∨
    ∃ a R r, run s.shared a = some (s'.shared, r) ∧ (poolOf s.workers).Perm (a :: R) ∧
      (poolOf s'.workers).Perm (r.toList ++ R) ∧ todoOf s'.workers ≤ todoOf s.workers + 4 := by
  unfold spawnTurn at h
  split at h
  · cases h
  rename_i w hw
  obtain ⟨R, hp, hp'⟩ := pool_split _ _ _ hw
  obtain ⟨q, ht, ht'⟩ := todo_split _ _ _ hw
  split at h
  · cases h
  rename_i hd
  have hd : w.done = false := by simpa using hd
  split at h
  · rename_i a hc
    have hit : w.items = a :: w.stack := by simp [Worker.items, hc]
    rw [hit] at hp
    split at h
    · cases h
    · rename_i sh e
      cases h
      refine .inr ⟨a, w.stack ++ R, .finished, e, hp, ?_, ?_⟩
      · simpa [Ran.toList, Worker.items] using hp' { w with current := none }
      · have := ht' { w with current := none }
        simp [Worker.todo] at this ht ⊢; omega
    · rename_i sh a' e
      cases h
      refine .inr ⟨a, w.stack ++ R, .goesOn a', e, hp, ?_, ?_⟩
      · simpa [Ran.toList, Worker.items] using hp' { w with current := some a' }
      · have := ht' { w with current := some a' }
        simp [Worker.todo] at this ht ⊢; omega
    · rename_i sh x y e
      have hswap : ∃ big small, (if size x < size y then (y, x) else (x, y)) = (big, small) ∧ [big, small].Perm [x, y] := by
        split
        · exact ⟨y, x, rfl, List.Perm.swap _ _ _⟩
        · exact ⟨x, y, rfl, .refl _⟩
      obtain ⟨big, small, hb, hperm⟩ := hswap
      simp only [hb] at h
      split at h
      · cases h
        refine .inr ⟨a, w.stack ++ R, .forks x y, e, hp, ?_, ?_⟩
        · refine (hp' _).trans ?_
          simpa [Ran.toList, Worker.items] using hperm.append_right (w.stack ++ R)
        · have := ht' { w with current := none, stack := big :: small :: w.stack }
          simp [Worker.todo] at this ht ⊢; omega
      · cases h
        refine .inr ⟨a, w.stack ++ R, .forks x y, e, hp, ?_, ?_⟩
        · have h1 := hp' { w with current := none, stack := small :: w.stack, handles := s.workers.length :: w.handles }
          have h2 : poolOf (s.workers.set i { w with current := none, stack := small :: w.stack
                                                     handles := s.workers.length :: w.handles } ++ [Worker.start big]) =
            poolOf (s.workers.set i { w with current := none, stack := small :: w.stack
                                             handles := s.workers.length :: w.handles }) ++ [big] := by
            simp [poolOf, Worker.start, Worker.items]
          rw [h2]
          refine (h1.append_right _).trans ?_
          simp only [Worker.items, Option.toList, List.nil_append, Ran.toList]
          refine (List.perm_append_comm).trans ?_
          simpa using hperm.append_right (w.stack ++ R)
        · have := ht' { w with current := none, stack := small :: w.stack, handles := s.workers.length :: w.handles }
          simp only [todoOf, List.map_append, List.sum_append, List.map_cons, List.map_nil, List.sum_cons,
            List.sum_nil] at this ht ⊢
          rw [this, ht]
          simp [Worker.todo, Worker.start, hd]; omega
  · rename_i hc
    split at h
    · rename_i a st hst
      cases h
      refine .inl ⟨rfl, ?_, ?_⟩
      · refine (hp' _).trans (.trans ?_ hp.symm)
        simp [Worker.items, hc, hst]
      · have := ht' { w with current := some a, stack := st }
        simp [Worker.todo, hst] at this ht ⊢; omega
    · rename_i hst
      split at h
      · rename_i j hs hh
        split at h
        · split at h
          · cases h
            refine .inl ⟨rfl, ?_, ?_⟩
            · refine (hp' _).trans (.trans ?_ hp.symm)
              simp [Worker.items, hc, hst]
            · have := ht' { w with handles := hs }
              simp [Worker.todo, hh] at this ht ⊢; omega
          · cases h
        · cases h
      · rename_i hh
        cases h
        refine .inl ⟨rfl, ?_, ?_⟩
        · refine (hp' _).trans (.trans ?_ hp.symm)
          simp [Worker.items, hc, hst]
        · have := ht' { w with done := true }
          simp [Worker.todo, hd] at this ht ⊢; omega

/-- The join structure: a returned thread has nothing left; every thread but the first has returned or is held by a
thread with a smaller number; handles name later threads. -/
structure Joins (ws : List (Worker A)) : Prop where
  nonempty : 0 < ws.length
  done : ∀ (i : Nat) (w : Worker A), ws[i]? = some w → w.done = true → w.current = none ∧ w.stack = [] ∧ w.handles = []
  held : ∀ (j : Nat) (c : Worker A), ws[j]? = some c → 0 < j → c.done = true ∨ ∃ (i : Nat) (w : Worker A), i < j ∧ ws[i]? = some w ∧ j ∈ w.handles
  later : ∀ (i : Nat) (w : Worker A) (j : Nat), ws[i]? = some w → j ∈ w.handles → i < j ∧ j < ws.length

theorem Joins.init (a : A) : Joins [Worker.start a] where
  nonempty := by simp
  done := by
    intro i w h
    cases i with
    | zero => simp at h; subst h; simp [Worker.start]
    | succ i => simp at h
  held := by
    intro j c h hj
    cases j with
    | zero => omega
    | succ j => simp at h
  later := by
    intro i w j h hj
    cases i with
    | zero => simp at h; subst h; simp [Worker.start] at hj
    | succ i => simp at h

/-- Replacing one live worker by another with the same handles. -/
theorem Joins.update {ws : List (Worker A)} (J : Joins ws) {i : Nat} {w w' : Worker A} (hw : ws[i]? = some w)
    (hh : w'.handles = w.handles) (hd : w.done = false)
    (hd' : w'.done = true → w'.current = none ∧ w'.stack = [] ∧ w'.handles = []) : Joins (ws.set i w') where
  nonempty := by simpa using J.nonempty
  done := by
    intro k x hk hx
    rw [List.getElem?_set] at hk
    split at hk
    · split at hk
      · cases hk; exact hd' hx
      · cases hk
    · exact J.done k x hk hx
  held := by
    intro j c hj h0
    have held : ∀ d, ws[j]? = some d → (d.done = true → c.done = true) →
        c.done = true ∨ ∃ k x, k < j ∧ (ws.set i w')[k]? = some x ∧ j ∈ x.handles := by
      intro d hd0 hdc
      rcases J.held j d hd0 h0 with h | ⟨k, x, hk, hx, hm⟩
      · exact .inl (hdc h)
      · refine .inr ?_
        by_cases hki : k = i
        · subst hki
          rw [hx] at hw; cases hw
          refine ⟨k, w', hk, ?_, by rw [hh]; exact hm⟩
          rw [List.getElem?_set, if_pos rfl, if_pos (List.getElem?_eq_some_iff.1 hx).1]
        · exact ⟨k, x, hk, by rw [List.getElem?_set, if_neg (Ne.symm hki)]; exact hx, hm⟩
    rw [List.getElem?_set] at hj
    split at hj
    · rename_i hij
      subst hij
      split at hj
      · cases hj
        exact held w hw (fun h => by rw [hd] at h; cases h)
      · cases hj
    · exact held c hj id
  later := by
    intro k x j hk hj
    rw [List.getElem?_set] at hk
    rw [List.length_set]
    split at hk
    · rename_i hik
      subst hik
      split at hk
      · cases hk; rw [hh] at hj; exact J.later _ _ j hw hj
      · cases hk
    · exact J.later k x j hk hj

theorem turn_joins {run : S → A → Option (S × Ran A)} {size : A → Nat} {thr : Nat} {s s' : Spawn S A} {i : Nat}
    (h : spawnTurn run size thr s i = .next s') (J : Joins s.workers) : Joins s'.workers := by
  unfold spawnTurn at h
  split at h
  · cases h
  rename_i w hw
  split at h
  · cases h
  rename_i hd
  have hd : w.done = false := by simpa using hd
  have nd : ∀ {p : Prop}, w.done = true → p := fun h => by rw [hd] at h; cases h
  have hi : i < s.workers.length := (List.getElem?_eq_some_iff.1 hw).1
  split at h
  · split at h
    · cases h
    · cases h; exact J.update hw rfl hd nd
    · cases h; exact J.update hw rfl hd nd
    · rename_i sh x y e
      generalize (if size x < size y then (y, x) else (x, y)) = bs at h
      obtain ⟨big, small⟩ := bs
      simp only at h
      split at h
      · cases h; exact J.update hw rfl hd nd
      · cases h
        have J1 : Joins (s.workers.set i { w with current := none, stack := small :: w.stack }) :=
          J.update hw rfl hd nd
        refine ⟨by simp, ?_, ?_, ?_⟩
        · intro k x hk hx
          simp only [List.getElem?_append, List.length_set] at hk
          split at hk
          · rw [List.getElem?_set] at hk
            split at hk
            · cases hk; exact nd hx
            · exact J.done k x hk hx
          · have : x = Worker.start big := by
              by_cases hk0 : k - s.workers.length = 0
              · rw [hk0] at hk; simpa using hk.symm
              · rw [show k - s.workers.length = (k - s.workers.length - 1) + 1 by omega] at hk
                simp at hk
            subst this
            simp [Worker.start] at hx
        · intro j c hj h0
          simp only [List.getElem?_append, List.length_set] at hj
          split at hj
          · rename_i hlt
            obtain ⟨c', hc', hcd⟩ : ∃ c', (s.workers.set i { w with current := none, stack := small :: w.stack })[j]? =
                some c' ∧ (c'.done = true → c.done = true) := by
              rw [List.getElem?_set] at hj
              split at hj
              · rename_i hij
                cases hj
                exact ⟨{ w with current := none, stack := small :: w.stack }, by rw [List.getElem?_set, if_pos hij, if_pos hi], id⟩
              · rename_i hij
                exact ⟨c, by rw [List.getElem?_set, if_neg hij]; exact hj, id⟩
            rcases J1.held j c' hc' h0 with h | ⟨k, x, hk, hx, hm⟩
            · exact .inl (hcd h)
            · refine .inr ?_
              by_cases hki : i = k
              · subst hki
                rw [List.getElem?_set, if_pos rfl, if_pos hi] at hx
                cases hx
                refine ⟨i, { w with current := none, stack := small :: w.stack,
                                    handles := s.workers.length :: w.handles }, hk, ?_, ?_⟩
                · rw [List.getElem?_append_left (by simpa using hi), List.getElem?_set, if_pos rfl, if_pos hi]
                · simp at hm ⊢; exact .inr hm
              · refine ⟨k, x, hk, ?_, hm⟩
                have hkl : k < s.workers.length := by omega
                rw [List.getElem?_set, if_neg hki] at hx
                rw [List.getElem?_append_left (by simpa using hkl), List.getElem?_set, if_neg hki]
                exact hx
          · rename_i hge
            have hjl : j = s.workers.length := by
              by_cases hk0 : j - s.workers.length = 0
              · omega
              · rw [show j - s.workers.length = (j - s.workers.length - 1) + 1 by omega] at hj
                simp at hj
            subst hjl
            refine .inr ⟨i, { w with current := none, stack := small :: w.stack,
                                     handles := s.workers.length :: w.handles }, hi, ?_, ?_⟩
            · rw [List.getElem?_append_left (by simpa using hi), List.getElem?_set, if_pos rfl, if_pos hi]
            · simp
        · intro k x j hk hj
          simp only [List.length_append, List.length_set, List.length_cons, List.length_nil]
          simp only [List.getElem?_append, List.length_set] at hk
          split at hk
          · rw [List.getElem?_set] at hk
            split at hk
            · rename_i hik
              cases hk
              subst hik
              simp at hj
              rcases hj with rfl | hj
              · omega
              · have := J.later i w j hw hj; omega
            · have := J.later k x j hk hj; omega
          · have : x = Worker.start big := by
              by_cases hk0 : k - s.workers.length = 0
              · rw [hk0] at hk; simpa using hk.symm
              · rw [show k - s.workers.length = (k - s.workers.length - 1) + 1 by omega] at hk
                simp at hk
            subst this
            simp [Worker.start] at hj
  · rename_i hc
    split at h
    · cases h; exact J.update hw rfl hd nd
    · rename_i hst
      split at h
      · rename_i j hs hh
        split at h
        · rename_i c hcj
          split at h
          · rename_i hcd
            cases h
            refine ⟨by simpa using J.nonempty, ?_, ?_, ?_⟩
            · intro k x hk hx
              rw [List.getElem?_set] at hk
              split at hk
              · cases hk; exact nd hx
              · exact J.done k x hk hx
            · intro k d hk h0
              by_cases hkj : k = j
              · subst hkj
                rw [List.getElem?_set] at hk
                split at hk
                · rename_i hik
                  subst hik
                  rw [hcj] at hw; cases hw
                  rw [hd] at hcd; cases hcd
                · rw [hcj] at hk; cases hk
                  exact .inl hcd
              · have key : ∀ e, s.workers[k]? = some e → (e.done = true → d.done = true) →
                    d.done = true ∨ ∃ m x, m < k ∧ (s.workers.set i { w with handles := hs })[m]? = some x ∧
                      k ∈ x.handles := by
                  intro e he hed
                  rcases J.held k e he h0 with h | ⟨m, x, hm, hx, hmem⟩
                  · exact .inl (hed h)
                  · refine .inr ?_
                    by_cases hmi : i = m
                    · subst hmi
                      rw [hx] at hw; cases hw
                      refine ⟨i, { w with handles := hs }, hm, ?_, ?_⟩
                      · rw [List.getElem?_set, if_pos rfl, if_pos hi]
                      · rw [hh] at hmem
                        simp at hmem
                        exact hmem.resolve_left hkj
                    · exact ⟨m, x, hm, by rw [List.getElem?_set, if_neg hmi]; exact hx, hmem⟩
                rw [List.getElem?_set] at hk
                split at hk
                · rename_i hik
                  subst hik
                  cases hk; exact key w hw nd
                · exact key d hk id
            · intro k x m hk hm
              rw [List.length_set]
              rw [List.getElem?_set] at hk
              split at hk
              · rename_i hik
                subst hik
                cases hk
                exact J.later i w m hw (by rw [hh]; simp at hm ⊢; exact .inr hm)
              · exact J.later k x m hk hm
          · cases h
        · cases h
      · rename_i hh
        cases h
        exact J.update hw rfl hd (fun _ => ⟨hc, hst, hh⟩)

/-- When the caller's thread has returned nothing is pending anywhere. -/
theorem Joins.returned {ws : List (Worker A)} (J : Joins ws) {w : Worker A} (h0 : ws[0]? = some w)
    (hd : w.done = true) : poolOf ws = [] := by
  have all : ∀ (j : Nat) (c : Worker A), ws[j]? = some c → c.done = true := by
    intro j
    induction j using Nat.strongRecOn with
    | _ j ih =>
      intro c hc
      by_cases hj : j = 0
      · subst hj; rw [h0] at hc; cases hc; exact hd
      · rcases J.held j c hc (by omega) with h | ⟨i, x, hi, hx, hm⟩
        · exact h
        · have := J.done i x hx (ih i hi x hx)
          rw [this.2.2] at hm; simp at hm
  unfold poolOf
  rw [List.flatMap_eq_nil_iff]
  intro x hx
  obtain ⟨i, hi, e⟩ := List.mem_iff_getElem.1 hx
  have hx' : ws[i]? = some x := by rw [← e]; exact List.getElem?_eq_getElem hi
  obtain ⟨a, b, _⟩ := J.done i x hx' (all i x hx')
  simp [Worker.items, a, b]

/-- Some thread can make a turn as long as the caller's thread has not returned. -/
theorem Joins.progress {s : Spawn S A} (J : Joins s.workers) (run : S → A → Option (S × Ran A)) (size : A → Nat)
    (thr : Nat) (h : ¬ s.Returned) : ∃ i, spawnTurn run size thr s i ≠ .blocked := by
  have hex : ∃ (i : Nat) (w : Worker A), s.workers[i]? = some w ∧ w.done = false := by
    refine ⟨0, s.workers[0]'J.nonempty, List.getElem?_eq_getElem _, ?_⟩
    cases hd : (s.workers[0]'J.nonempty).done with
    | false => rfl
    | true => exact absurd ⟨_, List.getElem?_eq_getElem _, hd⟩ h
  have hmax : ∃ (i : Nat) (w : Worker A), s.workers[i]? = some w ∧ w.done = false ∧ ∀ (j : Nat) (c : Worker A), i < j → s.workers[j]? = some c → c.done = true := by
    obtain ⟨i0, w0, h0, hd0⟩ := hex
    suffices H : ∀ (n i : Nat) (w : Worker A), s.workers.length - i = n → s.workers[i]? = some w → w.done = false →
        ∃ (i : Nat) (w : Worker A), s.workers[i]? = some w ∧ w.done = false ∧ ∀ (j : Nat) (c : Worker A), i < j → s.workers[j]? = some c → c.done = true from
      H _ i0 w0 rfl h0 hd0
    intro n
    induction n using Nat.strongRecOn with
    | _ n ih =>
      intro i w hn hw hd
      by_cases hall : ∀ (j : Nat) (c : Worker A), i < j → s.workers[j]? = some c → c.done = true
      · exact ⟨i, w, hw, hd, hall⟩
      · obtain ⟨j, hj⟩ := Classical.not_forall.1 hall
        obtain ⟨c, hj⟩ := Classical.not_forall.1 hj
        simp only [Classical.not_imp] at hj
        obtain ⟨hij, hc, hcd⟩ := hj
        have hjl := (List.getElem?_eq_some_iff.1 hc).1
        exact ih (s.workers.length - j) (by omega) j c rfl hc (by simpa using hcd)
  obtain ⟨i, w, hw, hd, hlater⟩ := hmax
  refine ⟨i, ?_⟩
  unfold spawnTurn
  rw [hw]
  simp only [hd, Bool.false_eq_true, if_false]
  cases hc : w.current with
  | some a =>
    simp only
    cases run s.shared a with
    | none => simp
    | some r =>
      obtain ⟨sh, r⟩ := r
      cases r with
      | finished => simp
      | goesOn a => simp
      | forks a b =>
        simp only
        split <;> split <;> simp
  | none =>
    simp only
    cases hs : w.stack with
    | cons a st => simp
    | nil =>
      simp only
      cases hh : w.handles with
      | nil => simp
      | cons j hs =>
        have := J.later i w j hw (by rw [hh]; simp)
        have hj : s.workers[j]? = some s.workers[j] := List.getElem?_eq_getElem this.2
        simp only [hj, hlater j _ this.1 hj, if_true]
        simp

/-- `m` atomic steps of pending tasks, picked in any order from a pool. -/
inductive PoolRun (run : S → A → Option (S × Ran A)) : Nat → S → List A → S → List A → Prop
  | refl {sh l l'} : l'.Perm l → PoolRun run 0 sh l sh l'
  | step {m sh l sh' l' sh'' l'' a R r} : PoolRun run m sh l sh' l' → l'.Perm (a :: R) →
      run sh' a = some (sh'', r) → l''.Perm (r.toList ++ R) → PoolRun run (m + 1) sh l sh'' l''

theorem PoolRun.perm {run : S → A → Option (S × Ran A)} {m : Nat} {sh sh' : S} {l l' l'' : List A}
    (h : PoolRun run m sh l sh' l') (hp : l''.Perm l') : PoolRun run m sh l sh' l'' := by
  cases h with
  | refl h => exact .refl (hp.trans h)
  | step h1 h2 h3 h4 => exact .step h1 h2 h3 (hp.trans h4)

theorem spawn_refines {run : S → A → Option (S × Ran A)} {size : A → Nat} {thr : Nat} {k : Nat} {s s' : Spawn S A}
    (h : SpawnRun run size thr k s s') (J : Joins s.workers) :
    Joins s'.workers ∧ ∃ m, PoolRun run m s.shared (poolOf s.workers) s'.shared (poolOf s'.workers) ∧
      k + todoOf s'.workers ≤ 5 * m + todoOf s.workers := by
  induction h with
  | refl => exact ⟨J, 0, .refl (.refl _), by omega⟩
  | step i h1 h2 ih =>
    obtain ⟨J', m, hm, hk⟩ := ih J
    refine ⟨turn_joins h2 J', ?_⟩
    rcases turn_pool h2 with ⟨e1, e2, e3⟩ | ⟨a, R, r, e1, e2, e3, e4⟩
    · exact ⟨m, e1 ▸ hm.perm e2, by omega⟩
    · exact ⟨m + 1, .step hm e2 e1 e3, by omega⟩

theorem panic_item {run : S → A → Option (S × Ran A)} {size : A → Nat} {thr : Nat} {s : Spawn S A} {i : Nat}
    (h : spawnTurn run size thr s i = .panic) : ∃ a ∈ poolOf s.workers, run s.shared a = none := by
  unfold spawnTurn at h
  split at h
  · cases h
  rename_i w hw
  have hmem := List.mem_of_getElem? hw
  split at h
  · cases h
  split at h
  · rename_i a hc
    split at h
    · rename_i e
      exact ⟨a, List.mem_flatMap.2 ⟨w, hmem, by simp [Worker.items, hc]⟩, e⟩
    · cases h
    · cases h
    · rename_i sh x y e
      generalize (if size x < size y then (y, x) else (x, y)) = bs at h
      obtain ⟨big, small⟩ := bs
      simp only at h
      split at h <;> cases h
  · split at h
    · cases h
    · split at h
      · split at h
        · split at h <;> cases h
        · cases h
      · cases h

end Rtbvh
