import Verif.Proofs.FfiConc
/- The calls of the C interface never block each other for ever. -/
namespace Rtbvh
variable {F : Type}

/-- The order in which locks are taken. -/
def Lock.rank : Lock → Nat
  | .structures => 0
  | .bvh _ => 1
  | .mstructures => 2
  | .mbvh _ => 3

theorem Lock.rank_le (l : Lock) : l.rank ≤ 3 := by cases l <;> simp [Lock.rank]

/-- The lock a call takes next, if its next step takes one. -/
def nextLock : FfiOp F → FfiPhase F → Option (Lock × LockMode)
  | .manage (.create _ _), .built _ => some (.structures, .write)
  | _, .stored id _ => some (.bvh id, .read)
  | .manage (.createMbvh _ _), .called => some (.structures, .read)
  | .manage (.createMbvh h _), .looking => some (.bvh h.id, .read)
  | _, .converted _ _ _ => some (.mstructures, .write)
  | _, .mstored _ j _ => some (.mbvh j, .read)
  | .manage (.refit _ _), .called => some (.structures, .read)
  | .manage (.refit _ h), .rlooking => some (.bvh h.id, .write)
  | .manage (.freeBvh _), .called => some (.structures, .write)
  | .manage (.freeMbvh _), .called => some (.mstructures, .write)
  | _, _ => none

variable [FloatOps F]

/-- A step takes at most one lock, and only after locks of smaller rank. -/
theorem move_locks {s : FfiSys F} {op p p' m'} (hm : FfiMove s op p p' m') :
    (∀ x ∈ p'.held, x ∈ p.held) ∨ ∃ l mode, p'.held = (l, mode) :: p.held ∧ nextLock op p = some (l, mode) ∧
      ∀ x ∈ p.held, x.1.rank < l.rank := by
  cases hm <;> first
    | (left; intro x hx; cases hx; done)
    | (left; intro x hx; exact hx)
    | (left; intro x hx; exact List.mem_cons_of_mem _ hx)
    | exact .inr ⟨_, _, rfl, rfl, by simp [FfiPhase.held, Lock.rank]⟩

theorem move_new {s : FfiSys F} {op p p' m'} (hm : FfiMove s op p p' m') {l : Lock} {mode : LockMode}
    (h1 : (l, mode) ∈ p'.held) (h2 : (l, mode) ∉ p.held) :
    nextLock op p = some (l, mode) ∧ ∀ x ∈ p.held, x.1.rank < l.rank := by
  rcases move_locks hm with h | ⟨l', mode', h3, h4, h5⟩
  · exact absurd (h _ h1) h2
  · rw [h3] at h1
    rcases List.mem_cons.1 h1 with h1 | h1
    · cases h1; exact ⟨h4, h5⟩
    · exact absurd h1 h2

theorem wants_next {s : FfiSys F} {k l mode} (h : s.Wants k l mode) : ∃ op p, s.calls[k]? = some (op, p) ∧
    nextLock op p = some (l, mode) ∧ ∀ x ∈ p.held, x.1.rank < l.rank := by
  obtain ⟨op, p, p', m', hk, hm, h1, h2⟩ := h
  exact ⟨op, p, hk, move_new hm h1 h2⟩

/-- A call that has not returned and is not in broken code has a next step. -/
theorem can_move {tr : List (FfiLabel F)} {s : FfiSys F} {lin : List (Nat × Event F)} {m : Manager F}
    (h : FfiInv tr s lin m) {k : Nat} {op : FfiOp F} {p : FfiPhase F} (hk : s.calls[k]? = some (op, p))
    (ho : ∀ c o, p ≠ .done c o) (hb : ¬ s.Broken k) : ∃ p' m', FfiMove s op p p' m' := by
  have hph := h.phase k op p hk
  obtain ⟨a, ha⟩ := exists_fresh s
  cases p with
  | called =>
    cases op with
    | manage c =>
      cases c with
      | create nulls r =>
        cases nulls with
        | true => exact ⟨_, _, .createNull⟩
        | false =>
          cases r with
          | error e => exact ⟨_, _, .createErr⟩
          | ok b => exact ⟨_, _, .createBuild ha⟩
      | createMbvh h nulls =>
        cases e : (nulls || h.addr.isNone) with
        | true => exact ⟨_, _, .mNull e⟩
        | false => exact ⟨_, _, .mLook e⟩
      | refit aabbs h =>
        cases e : (aabbs.isNone || h.addr.isNone) with
        | true => exact ⟨_, _, .rNull e⟩
        | false => exact ⟨_, _, .rLook e⟩
      | freeBvh h => exact ⟨_, _, .fLock⟩
      | freeMbvh h => exact ⟨_, _, .mfLock⟩
    | query h => exact ⟨_, _, .qStart⟩
    | queryMbvh h => exact ⟨_, _, .mqStart⟩
  | built a => obtain ⟨_, b, rfl⟩ := hph; exact ⟨_, _, .createLock⟩
  | storing a => obtain ⟨_, b, rfl⟩ := hph; exact ⟨_, _, .createPush⟩
  | stored id a => obtain ⟨b, rfl, _⟩ := hph; exact ⟨_, _, .createRead⟩
  | storedRead id a => obtain ⟨b, rfl, hs, _⟩ := hph; exact ⟨_, _, .createHandle hs⟩
  | looking =>
    obtain ⟨_, hh, nulls, rfl, _⟩ := hph
    cases e : s.mem.slots[hh.id]? with
    | none => exact ⟨_, _, .mMissing e⟩
    | some sl => exact ⟨_, _, .mFound e⟩
  | found id =>
    obtain ⟨_, hh, nulls, rfl, _, _, sl, hs⟩ := hph
    by_cases hc : ∃ fuel q, Mbvh.construct fuel sl.val = some q
    · obtain ⟨fuel, q, hq⟩ := hc
      exact ⟨_, _, .mConvert hs hq ha⟩
    · refine absurd (.inl ⟨hh, nulls, id, sl, hk, hs, fun fuel => ?_⟩) hb
      cases e : Mbvh.construct fuel sl.val with
      | none => rfl
      | some q => exact absurd ⟨fuel, q, e⟩ hc
  | converted id q a => obtain ⟨_, hh, nulls, rfl, _⟩ := hph; exact ⟨_, _, .mLock⟩
  | mstoring id q a => obtain ⟨_, hh, nulls, rfl, _⟩ := hph; exact ⟨_, _, .mPush⟩
  | mstored id j a => obtain ⟨hh, nulls, q, rfl, _⟩ := hph; exact ⟨_, _, .mRead⟩
  | mstoredRead id j a => obtain ⟨hh, nulls, q, rfl, hs, _⟩ := hph; exact ⟨_, _, .mHandle hs⟩
  | rlooking =>
    obtain ⟨_, bs, hh, rfl, _⟩ := hph
    cases e : s.mem.slots[hh.id]? with
    | none => exact ⟨_, _, .rMissing e⟩
    | some sl => exact ⟨_, _, .rLock e⟩
  | refitting id b =>
    obtain ⟨_, bs, hh, rfl, _, _, sl, hs⟩ := hph
    by_cases hl : bs.length < b.primCount
    · exact absurd (.inr ⟨bs, hh, id, b, hk, .inl hl⟩) hb
    · cases e : b.refit (bs.take b.primCount) with
      | none => exact absurd (.inr ⟨bs, hh, id, b, hk, .inr e⟩) hb
      | some b' => exact ⟨_, _, .rFinish hs (by omega) e⟩
  | freeing => obtain ⟨_, hh, rfl⟩ := hph; exact ⟨_, _, .fFree⟩
  | mfreeing => obtain ⟨_, hh, rfl⟩ := hph; exact ⟨_, _, .mfFree⟩
  | reading seen => obtain ⟨hh, rfl⟩ := hph; exact ⟨_, _, .qEnd⟩
  | mreading seen => obtain ⟨hh, rfl⟩ := hph; exact ⟨_, _, .mqEnd⟩
  | leaving ls c o =>
    cases ls with
    | nil => exact ⟨_, _, .leave⟩
    | cons l ls => exact ⟨_, _, .unlock⟩
  | done c o => exact absurd rfl (ho c o)

/-- Call `k` can go on: it has a next step, and the lock it may ask for is not refused. -/
def FfiSys.Ready (s : FfiSys F) (k : Nat) : Prop :=
  ∃ op p p' m', s.calls[k]? = some (op, p) ∧ FfiMove s op p p' m' ∧ ∀ l mode, s.Wants k l mode → ¬ s.Refused k l mode

/-- From a call that has not returned one gets to a call that can go on. -/
theorem ready_of_open {tr : List (FfiLabel F)} {s : FfiSys F} {lin : List (Nat × Event F)} {m : Manager F}
    (h : FfiInv tr s lin m) (hb : ∀ k, ¬ s.Broken k) {k : Nat} (hk : s.Open k) : ∃ j, s.Ready j := by
  have main : ∀ n k, s.Open k → (∀ l mode, s.Wants k l mode → 4 ≤ l.rank + n) → ∃ j, s.Ready j := by
    intro n
    induction n with
    | zero =>
      rintro k ⟨op, p, hk, ho⟩ hw
      obtain ⟨p', m', hm⟩ := can_move h hk ho (hb k)
      refine ⟨k, op, p, p', m', hk, hm, fun l mode hwl => ?_⟩
      have := hw l mode hwl
      have := l.rank_le
      omega
    | succ n ih =>
      rintro k ⟨op, p, hk, ho⟩ hw
      obtain ⟨p', m', hm⟩ := can_move h hk ho (hb k)
      -- a holder of a lock of this rank can go on, or waits for a lock of higher rank
      have holder : ∀ j (l : Lock) mode, 4 ≤ l.rank + (n + 1) → s.Held j l mode → ∃ i, s.Ready i := by
        rintro j l mode hrank ⟨i, opi, pi, mode', hij, hci, hheld, _⟩
        refine ih i ⟨opi, pi, hci, ?_⟩ ?_
        · rintro c o rfl; cases hheld
        · intro l' mode'' hw'
          obtain ⟨op', p', hc', _, hr⟩ := wants_next hw'
          rw [hci] at hc'
          cases hc'
          have := hr _ hheld
          simp only at this
          omega
      by_cases hr : ∃ l mode, s.Wants k l mode ∧ s.Refused k l mode
      · obtain ⟨l, mode, hwl, href⟩ := hr
        have hrank := hw l mode hwl
        rcases href with hheld | ⟨_, j, hjk, hwj⟩
        · exact holder k l mode hrank hheld
        · by_cases hj : s.Held j l .write
          · exact holder j l .write hrank hj
          · have hwj' := hwj
            obtain ⟨opj, pj, pj', mj', hcj, hmj, h1, h2⟩ := hwj'
            refine ⟨j, opj, pj, pj', mj', hcj, hmj, fun l' mode' hw' => ?_⟩
            obtain ⟨o1, q1, e1, n1, _⟩ := wants_next hw'
            obtain ⟨o2, q2, e2, n2, _⟩ := wants_next hwj
            rw [e1] at e2
            cases e2
            rw [n1] at n2
            cases n2
            rintro (hh | ⟨hh, _⟩)
            · exact hj hh
            · cases hh
      · refine ⟨k, op, p, p', m', hk, hm, fun l mode hwl hr' => hr ⟨l, mode, hwl, hr'⟩⟩
  exact main 4 k hk fun l mode _ => by omega

/-- A call that can go on does. -/
theorem FfiSys.Ready.step {s : FfiSys F} {k : Nat} (h : s.Ready k) :
    ∃ l s', FfiStep s l s' ∧ (l = .step k ∨ ∃ c o, l = .ret k c o) := by
  obtain ⟨op, p, p', m', hk, hm, hr⟩ := h
  cases p' with
  | done c o => exact ⟨_, _, .ret hk hm, .inr ⟨c, o, rfl⟩⟩
  | _ =>
    refine ⟨_, _, .step hk hm ?_ (by intro c o e; cases e), .inl rfl⟩
    exact fun l mode h1 h2 hh => hr l mode ⟨op, p, _, m', hk, hm, h1, h2⟩ (.inl hh)

/-! ### Counting steps -/

omit [FloatOps F] in
/-- A bound on the number of steps a call has before it. -/
def FfiPhase.work : FfiPhase F → Nat
  | .called => 12
  | .built _ => 7
  | .storing _ => 6
  | .stored _ _ => 5
  | .storedRead _ _ => 4
  | .looking => 11
  | .found _ => 10
  | .converted _ _ _ => 9
  | .mstoring _ _ _ => 8
  | .mstored _ _ _ => 7
  | .mstoredRead _ _ _ => 6
  | .rlooking => 5
  | .refitting _ _ => 4
  | .freeing | .mfreeing => 3
  | .reading _ | .mreading _ => 1
  | .leaving ls _ _ => ls.length + 1
  | .done _ _ => 0

/-- The number of steps all calls together have before them, at most. -/
def FfiSys.work (s : FfiSys F) : Nat := (s.calls.map fun c => c.2.work).sum

theorem move_work {s : FfiSys F} {op p p' m'} (hm : FfiMove s op p p' m') : p'.work < p.work := by
  cases hm <;> simp [FfiPhase.work]

theorem idle_work {s : FfiSys F} {op p p' m'} (hm : FfiIdle s op p p' m') : p'.work = p.work := by
  cases hm <;> rfl

theorem sum_set {α : Type} (f : α → Nat) {l : List α} {k : Nat} {x y : α} (h : l[k]? = some x) :
    ((l.set k y).map f).sum + f x = (l.map f).sum + f y := by
  induction l generalizing k with
  | nil => cases h
  | cons z l ih =>
    cases k with
    | zero =>
      simp only [List.getElem?_cons_zero, Option.some.injEq] at h
      subst h
      simp only [List.set_cons_zero, List.map_cons, List.sum_cons]
      omega
    | succ k =>
      simp only [List.getElem?_cons_succ] at h
      have := ih h
      simp only [List.set_cons_succ, List.map_cons, List.sum_cons]
      omega

end Rtbvh
