import Verif.Spec.Unwind
import Verif.Proofs.Spawner
/- Proofs about the task spawner with panicking tasks. -/
namespace Rtbvh
variable {S A : Type} {run : S → A → Option (S × Ran A)} {size : A → Nat} {thr : Nat}

theorem toSpawn_get {s : Unwind S A} {i : Nat} {w : UWorker A} (h : s.workers[i]? = some w) :
    s.toSpawn.workers[i]? = some { current := w.current, stack := w.stack, handles := w.handles
                                   done := decide (w.fate ≠ .running) } := by
  simp [Unwind.toSpawn, h]

/-- A turn is a turn of the model without panics that makes nobody panic, or the thread unwinds: because a task panicked,
or because it joined a thread that had. -/
theorem unwind_cases {s s' : Unwind S A} {i : Nat} {crash : Option S} {p : Bool}
    (h : unwindTurn run size thr s i crash = some (s', p)) :
    ∃ w, s.workers[i]? = some w ∧ w.fate = .running ∧
    ((p = false ∧ crash = none ∧ spawnTurn run size thr s.toSpawn i = .next s'.toSpawn ∧
        (∃ w' l, s'.workers = s.workers.set i w' ++ l ∧ w'.fate ≠ .panicked ∧ (∀ x ∈ l, x.fate = .running ∧ x.handles = []) ∧
          ∀ j ∈ w'.handles, j ∈ w.handles ∨ j = s.workers.length ∧ l ≠ []) ∧
        ∀ j ∈ s'.taken, j ∈ s.taken ∨ ∃ c, s.workers[j]? = some c ∧ c.fate = .returned) ∨
     (s'.workers = s.workers.set i .dead ∧
        ((p = true ∧ s'.taken = s.taken ∧
            ((∃ sh a, crash = some sh ∧ s'.shared = sh ∧ w.current = some a) ∨
             crash = none ∧ s'.shared = s.shared ∧ ∃ a, w.current = some a ∧ run s.shared a = none)) ∨
         (p = false ∧ crash = none ∧ s'.shared = s.shared ∧
            ∃ j c, j ∈ w.handles ∧ s.workers[j]? = some c ∧ c.fate = .panicked ∧ s'.taken = j :: s.taken)))) := by
  unfold unwindTurn at h
  split at h
  · cases h
  rename_i w hw
  refine ⟨w, hw, ?_⟩
  have hi := (List.getElem?_eq_some_iff.1 hw).1
  split at h
  · cases h
  rename_i hf
  have hf : w.fate = .running := by simpa using hf
  refine ⟨hf, ?_⟩
  have hg := toSpawn_get hw
  have nr : (Fate.running : Fate) ≠ .panicked := by decide
  have key : ∀ (sh : S) (w' : UWorker A), w'.fate ≠ .panicked → (∀ j ∈ w'.handles, j ∈ w.handles) →
      (∃ v l, (s.workers.set i w' : List (UWorker A)) = s.workers.set i v ++ l ∧ v.fate ≠ .panicked ∧
        (∀ x ∈ l, x.fate = .running ∧ x.handles = []) ∧ ∀ j ∈ v.handles, j ∈ w.handles ∨ j = s.workers.length ∧ l ≠ []) :=
    fun _ w' h1 h2 => ⟨w', [], by simp, h1, by simp, fun j hj => .inl (h2 j hj)⟩
  split at h
  · rename_i a sh hc
    cases h
    exact .inr ⟨rfl, .inl ⟨rfl, rfl, .inl ⟨_, a, rfl, rfl, hc⟩⟩⟩
  · rename_i a hc
    split at h
    · rename_i e
      cases h
      exact .inr ⟨rfl, .inl ⟨rfl, rfl, .inr ⟨rfl, rfl, a, hc, e⟩⟩⟩
    · rename_i sh e
      cases h
      refine .inl ⟨rfl, rfl, ?_, key sh _ (by rw [hf]; decide) (fun j hj => hj), fun j hj => .inl hj⟩
      unfold spawnTurn
      rw [hg]
      simp [hf, hc, Unwind.toSpawn, e, List.map_set]
    · rename_i sh a' e
      cases h
      refine .inl ⟨rfl, rfl, ?_, key sh _ (by rw [hf]; decide) (fun j hj => hj), fun j hj => .inl hj⟩
      unfold spawnTurn
      rw [hg]
      simp [hf, hc, Unwind.toSpawn, e, List.map_set]
    · rename_i sh x y e
      obtain ⟨big, small, hb⟩ : ∃ big small, (if size x < size y then (y, x) else (x, y)) = (big, small) := ⟨_, _, rfl⟩
      simp only [hb] at h
      split at h
      · rename_i ht
        cases h
        refine .inl ⟨rfl, rfl, ?_, key sh _ (by rw [hf]; decide) (fun j hj => hj), fun j hj => .inl hj⟩
        unfold spawnTurn
        rw [hg]
        simp [hf, hc, Unwind.toSpawn, e, List.map_set, hb, ht]
      · rename_i ht
        cases h
        refine .inl ⟨rfl, rfl, ?_, ⟨_, _, rfl, by rw [hf]; decide, ?_, ?_⟩, fun j hj => .inl hj⟩
        · unfold spawnTurn
          rw [hg]
          simp [hf, hc, Unwind.toSpawn, e, List.map_set, hb, ht, UWorker.start, Worker.start]
        · intro x hx
          simp at hx; subst hx; exact ⟨rfl, rfl⟩
        · intro j hj
          rcases List.mem_cons.1 hj with h | h
          · exact .inr ⟨h, by simp⟩
          · exact .inl h
  · cases h
  · rename_i hc
    split at h
    · rename_i a st hst
      cases h
      refine .inl ⟨rfl, rfl, ?_, key s.shared _ (by rw [hf]; decide) (fun j hj => hj), fun j hj => .inl hj⟩
      unfold spawnTurn
      rw [hg]
      simp [hf, hc, Unwind.toSpawn, List.map_set, hst]
    · rename_i hst
      split at h
      · rename_i j hs hh
        split at h
        · cases h
        · rename_i c hj
          have hgj := toSpawn_get hj
          split at h
          · cases h
          · rename_i hcf
            cases h
            refine .inl ⟨rfl, rfl, ?_, key s.shared _ (by rw [hf]; decide) (fun k hk => ?_), fun k hk => ?_⟩
            · unfold spawnTurn
              rw [hg]
              simp only [hf, hc, hst, hh, hgj, hcf]
              simp [Unwind.toSpawn, List.map_set, hf, hc, hst]
            · rw [hh]; exact List.mem_cons_of_mem _ hk
            · rcases List.mem_cons.1 hk with rfl | hk
              · exact .inr ⟨c, hj, hcf⟩
              · exact .inl hk
          · rename_i hcf
            cases h
            exact .inr ⟨rfl, .inr ⟨rfl, rfl, rfl, j, c, by rw [hh]; simp, hj, hcf, rfl⟩⟩
      · rename_i hh
        cases h
        refine .inl ⟨rfl, rfl, ?_, key s.shared _ (fun h => by cases h) (fun j hj => hj), fun j hj => .inl hj⟩
        unfold spawnTurn
        rw [hg]
        simp [hf, hc, Unwind.toSpawn, List.map_set, hst, hh]

/-- What holds in every state: handles name later threads; a panicked thread that was joined left a panicked thread with a
smaller number (the one that joined it). -/
structure Unwound (s : Unwind S A) (c : Nat) : Prop where
  nonempty : 0 < s.workers.length
  later : ∀ (i : Nat) (w : UWorker A) (j : Nat), s.workers[i]? = some w → j ∈ w.handles → i < j ∧ j < s.workers.length
  blame : ∀ (j : Nat) (x : UWorker A), s.workers[j]? = some x → x.fate = .panicked → j ∈ s.taken →
    ∃ (i : Nat) (w : UWorker A), i < j ∧ s.workers[i]? = some w ∧ w.fate = .panicked
  ended : ∀ j ∈ s.taken, ∃ x : UWorker A, s.workers[j]? = some x ∧ x.fate ≠ .running
  count : 0 < c ↔ ∃ (i : Nat) (w : UWorker A), s.workers[i]? = some w ∧ w.fate = .panicked

theorem Unwound.init (sh : S) (a : A) : Unwound (Unwind.init sh a) 0 where
  nonempty := by simp [Unwind.init]
  later := by
    intro i w j h hj
    cases i with
    | zero => simp [Unwind.init] at h; subst h; simp [UWorker.start] at hj
    | succ i => simp [Unwind.init] at h
  blame := by
    intro j x h hx
    cases j with
    | zero => simp [Unwind.init] at h; subst h; cases hx
    | succ i => simp [Unwind.init] at h
  ended := by intro j hj; cases hj
  count := by
    refine ⟨fun h => by omega, ?_⟩
    rintro ⟨i, w, h, hx⟩
    cases i with
    | zero => simp [Unwind.init] at h; subst h; cases hx
    | succ i => simp [Unwind.init] at h

theorem Unwound.turn {s s' : Unwind S A} {c i : Nat} {crash : Option S} {p : Bool} (U : Unwound s c)
    (h : unwindTurn run size thr s i crash = some (s', p)) : Unwound s' (c + p.toNat) := by
  obtain ⟨w, hw, hf, h⟩ := unwind_cases h
  have hi := (List.getElem?_eq_some_iff.1 hw).1
  rcases h with ⟨rfl, -, -, ⟨w', l, hws, hw', hl, hh⟩, ht⟩ | ⟨hws, hd⟩
  · -- nobody new has panicked
    have hlen : s'.workers.length = s.workers.length + l.length := by rw [hws]; simp
    have old : ∀ (j : Nat) (x : UWorker A), s'.workers[j]? = some x → x.fate = .panicked → s.workers[j]? = some x := by
      intro j x hj hx
      rw [hws] at hj
      by_cases hjl : j < s.workers.length
      · rw [List.getElem?_append_left (by simpa using hjl), List.getElem?_set] at hj
        split at hj
        · cases hj; exact absurd hx hw'
        · exact hj
      · rw [List.getElem?_append_right (by simpa using hjl)] at hj
        rw [(hl x (List.mem_of_getElem? hj)).1] at hx
        cases hx
    have new : ∀ (j : Nat) (x : UWorker A), s.workers[j]? = some x → x.fate = .panicked → s'.workers[j]? = some x := by
      intro j x hj hx
      have hjl := (List.getElem?_eq_some_iff.1 hj).1
      rw [hws, List.getElem?_append_left (by simpa using hjl), List.getElem?_set]
      split
      · rename_i e; subst e; rw [hw] at hj; cases hj; rw [hf] at hx; cases hx
      · exact hj
    refine ⟨by rw [hlen]; have := U.nonempty; omega, ?_, ?_, ?_, ?_⟩
    · intro k x j hk hj
      rw [hws] at hk
      by_cases hkl : k < s.workers.length
      · rw [List.getElem?_append_left (by simpa using hkl), List.getElem?_set] at hk
        split at hk
        · rename_i e
          subst e
          cases hk
          rcases hh j hj with h | ⟨h, h'⟩
          · have := U.later _ _ j hw h; omega
          · have := List.length_pos_iff.2 h'; omega
        · have := U.later k x j hk hj; omega
      · rw [List.getElem?_append_right (by simpa using hkl)] at hk
        rw [(hl x (List.mem_of_getElem? hk)).2] at hj
        cases hj
    · intro j x hj hx hjt
      rcases ht j hjt with h | ⟨c', hc', hr⟩
      · obtain ⟨k, v, hk, hv, hvp⟩ := U.blame j x (old j x hj hx) hx h
        exact ⟨k, v, hk, new k v hv hvp, hvp⟩
      · rw [old j x hj hx] at hc'; cases hc'; rw [hx] at hr; cases hr
    · intro j hj
      have hr : ∃ x : UWorker A, s.workers[j]? = some x ∧ x.fate ≠ .running := by
        rcases ht j hj with h | ⟨c', hc', hr⟩
        · exact U.ended j h
        · exact ⟨c', hc', by rw [hr]; decide⟩
      obtain ⟨x, hx, hxf⟩ := hr
      have hjl := (List.getElem?_eq_some_iff.1 hx).1
      refine ⟨x, ?_, hxf⟩
      rw [hws, List.getElem?_append_left (by simpa using hjl), List.getElem?_set]
      split
      · rename_i e; subst e; rw [hw] at hx; cases hx; exact absurd hf hxf
      · exact hx
    · rw [show c + false.toNat = c from rfl, U.count]
      exact ⟨fun ⟨k, v, h, h'⟩ => ⟨k, v, new k v h h', h'⟩, fun ⟨k, v, h, h'⟩ => ⟨k, v, old k v h h', h'⟩⟩
  · have hlen : s'.workers.length = s.workers.length := by rw [hws]; simp
    have hself : s'.workers[i]? = some .dead := by rw [hws, List.getElem?_set_self hi]
    have other : ∀ j, j ≠ i → s'.workers[j]? = s.workers[j]? := fun j hj => by
      rw [hws, List.getElem?_set_ne (Ne.symm hj)]
    refine ⟨by rw [hlen]; exact U.nonempty, ?_, ?_, ?_, ?_⟩
    · intro k x j hk hj
      rw [hlen]
      by_cases e : k = i
      · subst e; rw [hself] at hk; cases hk; cases hj
      · rw [other k e] at hk; exact U.later k x j hk hj
    · intro j x hj hx hjt
      have hold : j ∈ s.taken → ∃ (k : Nat) (v : UWorker A), k < j ∧ s'.workers[k]? = some v ∧ v.fate = .panicked := by
        intro hjs
        obtain ⟨y, hy, hyf⟩ := U.ended j hjs
        have e : j ≠ i := fun e => by subst e; rw [hw] at hy; cases hy; exact hyf hf
        rw [other j e] at hj
        obtain ⟨k, v, hk, hv, hvp⟩ := U.blame j x hj hx hjs
        have ek : k ≠ i := fun e => by subst e; rw [hw] at hv; cases hv; rw [hf] at hvp; cases hvp
        exact ⟨k, v, hk, by rw [other k ek]; exact hv, hvp⟩
      rcases hd with ⟨-, ht, -⟩ | ⟨-, -, -, j', y, hj', -, -, ht⟩
      · rw [ht] at hjt; exact hold hjt
      · rw [ht] at hjt
        rcases List.mem_cons.1 hjt with rfl | h
        · exact ⟨i, _, (U.later _ _ _ hw hj').1, hself, rfl⟩
        · exact hold h
    · intro j hj
      have keep : j ∈ s.taken → ∃ x : UWorker A, s'.workers[j]? = some x ∧ x.fate ≠ .running := by
        intro hjs
        obtain ⟨y, hy, hyf⟩ := U.ended j hjs
        have e : j ≠ i := fun e => by subst e; rw [hw] at hy; cases hy; exact hyf hf
        exact ⟨y, by rw [other j e]; exact hy, hyf⟩
      rcases hd with ⟨-, ht, -⟩ | ⟨-, -, -, j', y, hj', hy, hyp, ht⟩
      · rw [ht] at hj; exact keep hj
      · rw [ht] at hj
        rcases List.mem_cons.1 hj with rfl | h
        · have e : j ≠ i := by have := U.later _ _ _ hw hj'; omega
          exact ⟨y, by rw [other j e]; exact hy, by rw [hyp]; decide⟩
        · exact keep h
    · constructor
      · intro _; exact ⟨i, _, hself, rfl⟩
      · intro _
        rcases hd with ⟨rfl, -⟩ | ⟨-, -, -, j, x, hj, hx, hp, -⟩
        · simp
        · have := U.count.2 ⟨j, x, hx, hp⟩; omega

/-- As long as a thread is running, some thread can take a turn. -/
theorem Unwound.progress {s : Unwind S A} {c : Nat} (U : Unwound s c) (h : ¬ s.AllEnded) :
    ∃ i s' p, unwindTurn run size thr s i none = some (s', p) := by
  have hex : ∃ (i : Nat) (w : UWorker A), s.workers[i]? = some w ∧ w.fate = .running := by
    unfold Unwind.AllEnded at h
    simp only [not_forall, not_not] at h
    obtain ⟨w, hw, hf⟩ := h
    obtain ⟨i, hi⟩ := List.mem_iff_getElem?.1 hw
    exact ⟨i, w, hi, hf⟩
  -- the running thread with the largest number
  have hmax : ∃ (i : Nat) (w : UWorker A), s.workers[i]? = some w ∧ w.fate = .running ∧
      ∀ (j : Nat) (x : UWorker A), i < j → s.workers[j]? = some x → x.fate ≠ .running := by
    by_contra hc
    have step : ∀ n, ∃ (i : Nat) (w : UWorker A), n ≤ i ∧ s.workers[i]? = some w ∧ w.fate = .running := by
      intro n
      induction n with
      | zero => obtain ⟨i, w, h⟩ := hex; exact ⟨i, w, Nat.zero_le _, h⟩
      | succ n ih =>
        obtain ⟨i, w, hn, hw, hf⟩ := ih
        by_contra hno
        apply hc
        refine ⟨i, w, hw, hf, fun j x hj hx hxf => hno ⟨j, x, by omega, hx, hxf⟩⟩
    obtain ⟨i, w, hn, hw, -⟩ := step s.workers.length
    have := (List.getElem?_eq_some_iff.1 hw).1
    omega
  obtain ⟨i, w, hw, hf, hm⟩ := hmax
  suffices hs : unwindTurn run size thr s i none ≠ none by
    obtain ⟨⟨s', p⟩, e⟩ := Option.ne_none_iff_exists'.1 hs
    exact ⟨i, s', p, e⟩
  unfold unwindTurn
  rw [hw]
  simp only [hf]
  cases hcur : w.current with
  | some a =>
    dsimp only
    cases hr : run s.shared a with
    | none => simp
    | some r =>
      obtain ⟨sh, r⟩ := r
      cases r with
      | finished => simp
      | goesOn a' => simp
      | forks x y =>
        by_cases hsz : size (if size x < size y then (y, x) else (x, y)).1 ≤ thr <;> simp [hsz]
  | none =>
    simp only [hcur]
    cases hst : w.stack with
    | cons a st => simp
    | nil =>
      cases hh : w.handles with
      | nil => simp
      | cons j hs =>
        obtain ⟨hlt, hlen⟩ := U.later i w j hw (by rw [hh]; simp)
        have hj := List.getElem?_eq_getElem hlen
        have hnr := hm j _ hlt hj
        simp only [hj]
        cases hfj : s.workers[j].fate with
        | running => exact absurd hfj hnr
        | returned => simp
        | panicked => simp

/-- What a turn does to the tasks that exist: nothing (one unit of bookkeeping is used up), or one of them makes an atomic
step, or the thread unwinds and its tasks are gone. -/
theorem uturn_pool {s s' : Unwind S A} {i : Nat} {crash : Option S} {p : Bool}
    (h : unwindTurn run size thr s i crash = some (s', p)) :
    (s'.shared = s.shared ∧ (poolOf s'.toSpawn.workers).Perm (poolOf s.toSpawn.workers) ∧
      todoOf s'.toSpawn.workers + 1 = todoOf s.toSpawn.workers) ∨
    (∃ a R r, run s.shared a = some (s'.shared, r) ∧ (poolOf s.toSpawn.workers).Perm (a :: R) ∧
      (poolOf s'.toSpawn.workers).Perm (r.toList ++ R) ∧ todoOf s'.toSpawn.workers ≤ todoOf s.toSpawn.workers + 4) ∨
    (∃ D, (poolOf s.toSpawn.workers).Perm (D ++ poolOf s'.toSpawn.workers) ∧
      todoOf s'.toSpawn.workers + 1 ≤ todoOf s.toSpawn.workers ∧
      ((∃ sh w a, crash = some sh ∧ s'.shared = sh ∧ s.workers[i]? = some w ∧ w.current = some a ∧ a ∈ D) ∨
        s'.shared = s.shared)) := by
  obtain ⟨w, hw, hf, h⟩ := unwind_cases h
  rcases h with ⟨-, -, h, -⟩ | ⟨hws, hd⟩
  · rcases turn_pool h with h | h
    · exact .inl h
    · exact .inr (.inl h)
  · refine .inr (.inr ?_)
    have hg := toSpawn_get hw
    obtain ⟨R, hp, hp'⟩ := pool_split _ _ _ hg
    obtain ⟨r, ht, ht'⟩ := todo_split _ _ _ hg
    have hs' : s'.toSpawn.workers = s.toSpawn.workers.set i { current := none, stack := [], handles := [], done := true } := by
      simp [Unwind.toSpawn, hws, List.map_set, UWorker.dead]
    refine ⟨w.current.toList ++ w.stack, ?_, ?_, ?_⟩
    · rw [hs']
      refine hp.trans (List.Perm.append_left _ ?_)
      have := (hp' { current := none, stack := [], handles := [], done := true }).symm
      simpa [Worker.items] using this
    · rw [hs', ht', ht]
      simp [Worker.todo, hf]
      omega
    · rcases hd with ⟨-, -, ⟨sh, a, h1, h2, h3⟩ | ⟨-, h, -⟩⟩ | ⟨-, -, h, -⟩
      · exact .inl ⟨sh, w, a, h1, h2, hw, h3, by simp [h3]⟩
      · exact .inr h
      · exact .inr h

/-- A run without panics is a run of the model without panics. -/
theorem UnwindRun.calm {allowed : A → S → S → Prop} {k c : Nat} {s s' : Unwind S A}
    (h : UnwindRun run size thr allowed k c s s') (hU : Unwound s 0) (hc : c = 0) :
    SpawnRun run size thr k s.toSpawn s'.toSpawn ∧ Unwound s' 0 := by
  induction h with
  | refl => exact ⟨.refl _, hU⟩
  | @step k c s s' s'' crash p i h ha ht ih =>
    have h0 : c = 0 := by omega
    have hp : p = false := by cases p with | false => rfl | true => simp at hc
    subst h0; subst hp
    obtain ⟨h1, h2⟩ := ih hU rfl
    refine ⟨?_, h2.turn ht⟩
    obtain ⟨w, hw, hf, h⟩ := unwind_cases ht
    rcases h with ⟨-, -, h, -⟩ | ⟨-, ⟨e, -⟩ | ⟨-, -, -, j, x, -, hx, hxp, -⟩⟩
    · exact .step i h1 h
    · cases e
    · have := h2.count.2 ⟨j, x, hx, hxp⟩; omega

theorem UnwindRun.unwound {allowed : A → S → S → Prop} {k c : Nat} {s s' : Unwind S A}
    (h : UnwindRun run size thr allowed k c s s') (hU : Unwound s 0) : Unwound s' c := by
  induction h with
  | refl => exact hU
  | step i h ha ht ih => exact (ih hU).turn ht

/-- Tasks that get smaller bound the number of turns, whatever memory a panic leaves. -/
theorem UnwindRun.bound {allowed : A → S → S → Prop} {k c : Nat} {s s' : Unwind S A} (weight : A → Nat)
    (hw : ∀ sh a sh' r, run sh a = some (sh', r) → (r.toList.map weight).sum < weight a)
    (h : UnwindRun run size thr allowed k c s s') :
    k + todoOf s'.toSpawn.workers + 5 * ((poolOf s'.toSpawn.workers).map weight).sum ≤
      todoOf s.toSpawn.workers + 5 * ((poolOf s.toSpawn.workers).map weight).sum := by
  induction h with
  | refl => omega
  | @step k c s s' s'' crash p i h ha ht ih =>
    rcases uturn_pool ht with ⟨e, hp, hk⟩ | ⟨a, R, r, e, hp, hp', hk⟩ | ⟨D', hp, hk, hs⟩
    · have := (hp.map weight).sum_nat
      omega
    · have h1 := (hp.map weight).sum_nat
      have h2 := (hp'.map weight).sum_nat
      have h3 := hw _ _ _ _ e
      simp only [List.map_cons, List.sum_cons, List.map_append, List.sum_append] at h1 h2
      omega
    · have h1 := (hp.map weight).sum_nat
      simp only [List.map_append, List.sum_append] at h1
      omega

end Rtbvh
