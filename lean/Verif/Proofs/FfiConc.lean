import Verif.Spec.FfiConc
/- Proofs about the C interface used from several threads. -/
namespace Rtbvh
variable {F : Type}

/-! ### Histories -/

theorem History.snoc [FloatOps F] {m m' m'' : Manager F} {es : List (Event F)} {e : Event F} (h : History m es m')
    (hc : Calls m' e m'') : History m (es ++ [e]) m'' := by
  induction h with
  | nil => exact .cons hc .nil
  | cons h1 _ ih => exact .cons h1 (ih hc)

/-! ### The invariant -/

/-- Number `k` has no place in the order yet. -/
def NotYet (lin : List (Nat × Event F)) (k : Nat) : Prop := k ∉ lin.map Prod.fst

/-- What is known of a call in each phase. -/
def PhaseOk [FloatOps F] (m : Manager F) (lin : List (Nat × Event F)) (k : Nat) (op : FfiOp F) : FfiPhase F → Prop
  | .called => NotYet lin k
  | .built _ | .storing _ => NotYet lin k ∧ ∃ b, op = .manage (.create false (.ok b))
  | .stored id a | .storedRead id a => ∃ b, op = .manage (.create false (.ok b)) ∧ m.slots[id]? = some ⟨b, some a⟩ ∧
      (k, ⟨.create false (.ok b), .ok, some (Slot.handle ⟨b, some a⟩ id)⟩) ∈ lin
  | .looking => NotYet lin k ∧ ∃ h nulls, op = .manage (.createMbvh h nulls) ∧ (nulls || h.addr.isNone) = false
  | .found id => NotYet lin k ∧ ∃ h nulls, op = .manage (.createMbvh h nulls) ∧ (nulls || h.addr.isNone) = false ∧
      id = h.id ∧ ∃ sl, m.slots[id]? = some sl
  | .converted id q _ | .mstoring id q _ => NotYet lin k ∧ ∃ h nulls, op = .manage (.createMbvh h nulls) ∧
      (nulls || h.addr.isNone) = false ∧ id = h.id ∧ ∃ sl fuel, m.slots[id]? = some sl ∧ Mbvh.construct fuel sl.val = some q
  | .mstored _ j a | .mstoredRead _ j a => ∃ h nulls q, op = .manage (.createMbvh h nulls) ∧
      m.mslots[j]? = some ⟨q, some a⟩ ∧ (k, ⟨.createMbvh h nulls, .ok, some (Slot.mhandle ⟨q, some a⟩ j)⟩) ∈ lin
  | .rlooking => NotYet lin k ∧ ∃ bs h, op = .manage (.refit (some bs) h) ∧ h.addr.isNone = false
  | .refitting id _ => NotYet lin k ∧ ∃ bs h, op = .manage (.refit (some bs) h) ∧ h.addr.isNone = false ∧ id = h.id ∧
      ∃ sl, m.slots[id]? = some sl
  | .freeing => NotYet lin k ∧ ∃ h, op = .manage (.freeBvh h)
  | .mfreeing => NotYet lin k ∧ ∃ h, op = .manage (.freeMbvh h)
  | .reading _ => ∃ h, op = .query h
  | .mreading _ => ∃ h, op = .queryMbvh h
  | .leaving _ c o | .done c o => ∀ call, op = .manage call → (k, ⟨call, c, o⟩) ∈ lin

/-- A call is refitting entry `i`, which held `b`. -/
def FfiSys.Refits (s : FfiSys F) (i : Nat) (b : Bvh F) : Prop := ∃ (k : Nat) (op : FfiOp F), s.calls[k]? = some (op, .refitting i b)

/-- `m` is the memory with the unfinished refits undone. -/
structure Settled (s : FfiSys F) (m : Manager F) : Prop where
  mslots : m.mslots = s.mem.mslots
  len : m.slots.length = s.mem.slots.length
  busy : ∀ i b, s.Refits i b → ∃ sl, s.mem.slots[i]? = some sl ∧ m.slots[i]? = some { sl with val := b }
  still : ∀ i, (∀ b, ¬ s.Refits i b) → m.slots[i]? = s.mem.slots[i]?

/-- No two calls hold a lock in ways that exclude each other. -/
def FfiSys.Exclusive (s : FfiSys F) : Prop :=
  ∀ (j k : Nat) op p op' p' l mode mode', j ≠ k → s.calls[j]? = some (op, p) → s.calls[k]? = some (op', p') →
    (l, mode) ∈ p.held → (l, mode') ∈ p'.held → LockMode.conflict mode mode' = false

theorem LockMode.conflict_comm (a b : LockMode) : LockMode.conflict a b = LockMode.conflict b a := by
  cases a <;> cases b <;> rfl

structure FfiInv [FloatOps F] (tr : List (FfiLabel F)) (s : FfiSys F) (lin : List (Nat × Event F)) (m : Manager F) :
    Prop where
  hist : History .empty (lin.map Prod.snd) m
  nodup : (lin.map Prod.fst).Nodup
  settled : Settled s m
  excl : s.Exclusive
  phase : ∀ k op p, s.calls[k]? = some (op, p) → PhaseOk s.mem lin k op p
  linCalls : ∀ k e, (k, e) ∈ lin → ∃ p, s.calls[k]? = some (.manage e.call, p)
  free : ∀ (k : Nat) op p a, s.calls[k]? = some (op, p) → p.buffer = some a → s.mem.Free a
  distinct : ∀ (j k : Nat) op p op' p' a, s.calls[j]? = some (op, p) → s.calls[k]? = some (op', p') → p.buffer = some a →
    p'.buffer = some a → j = k
  invoked : ∀ k op, .invoke k op ∈ tr ↔ ∃ p, s.calls[k]? = some (op, p)
  rets : ∀ k c o, .ret k c o ∈ tr → ∃ op, s.calls[k]? = some (op, .done c o)
  order : ∀ k k' call, .invoke k (.manage call) ∈ tr → ReturnedBefore tr k k' → k' ∈ lin.map Prod.fst →
    StandsBefore lin k k'

/-! ### What a step changes -/

variable [FloatOps F]

/-- A step of a call of either kind. -/
def FfiActs (s : FfiSys F) (op : FfiOp F) (p p' : FfiPhase F) (m' : Manager F) : Prop :=
  FfiMove s op p p' m' ∨ FfiIdle s op p p' m'

theorem acts_mslots {s : FfiSys F} {op p p' m'} (h : FfiActs s op p p' m') :
    m'.mslots = s.mem.mslots ∨ (Lock.mstructures, LockMode.write) ∈ p.held := by
  rcases h with h | h
  · cases h <;> first | (left; rfl) | (right; simp [FfiPhase.held]; done) |
      (left; simp only [Manager.freeBvh]; split <;> rfl)
  · cases h <;> (left; rfl)

theorem acts_slots {s : FfiSys F} {op p p' m'} (h : FfiActs s op p p' m') :
    m'.slots = s.mem.slots ∨ (Lock.structures, LockMode.write) ∈ p.held ∨
    ∃ i, (Lock.structures, LockMode.read) ∈ p.held ∧ (Lock.bvh i, LockMode.write) ∈ p.held ∧
      ∀ j, j ≠ i → m'.slots[j]? = s.mem.slots[j]? := by
  rcases h with h | h
  · cases h
    case rFinish id _ _ _ _ _ _ _ =>
      right; right
      exact ⟨id, by simp [FfiPhase.held], by simp [FfiPhase.held], fun j hj => by
        simp only; rw [List.getElem?_set_ne (Ne.symm hj)]⟩
    all_goals first | (left; rfl) | (right; left; simp [FfiPhase.held]; done) | (left; simp only [Manager.freeMbvh]; split <;> rfl)
  · cases h
    case scribble id _ _ _ _ _ =>
      right; right
      exact ⟨id, by simp [FfiPhase.held], by simp [FfiPhase.held], fun j hj => by
        simp only; rw [List.getElem?_set_ne (Ne.symm hj)]⟩
    all_goals (left; rfl)

theorem acts_mono {s : FfiSys F} {op p p' m'} (h : FfiActs s op p p' m') {i : Nat} {sl : Slot (Bvh F)}
    (hs : s.mem.slots[i]? = some sl) : ∃ sl', m'.slots[i]? = some sl' := by
  have hlt : i < s.mem.slots.length := by
    rcases Nat.lt_or_ge i s.mem.slots.length with h | h
    · exact h
    · rw [List.getElem?_eq_none h] at hs; cases hs
  suffices hl : i < m'.slots.length from ⟨_, List.getElem?_eq_getElem hl⟩
  rcases h with h | h
  · cases h <;> first | exact hlt | (simp only [List.length_set]; exact hlt) | (simp only [List.length_append]; omega) |
      (simp only [Manager.freeBvh]; split; (simp only [List.length_set]; exact hlt); exact hlt) |
      (simp only [Manager.freeMbvh]; split <;> exact hlt)
  · cases h <;> first | exact hlt | (simp only [List.length_set]; exact hlt)

theorem mem_set_slot {S : Type} {l : List (Slot S)} {i : Nat} {x s : Slot S} (h : s ∈ l.set i x) : s ∈ l ∨ s = x := by
  rcases List.mem_or_eq_of_mem_set h with h | h
  · exact .inl h
  · exact .inr h

theorem acts_free {s : FfiSys F} {op p p' m'} (h : FfiActs s op p p' m') {a : Nat} (ha : s.mem.Free a)
    (hp : p.buffer ≠ some a) : m'.Free a := by
  rcases h with h | h
  · cases h
    case createPush b a' =>
      refine ⟨fun x hx => ?_, ha.2⟩
      rcases List.mem_append.1 hx with hx | hx
      · exact ha.1 x hx
      · simp only [List.mem_singleton] at hx; subst hx; exact hp
    case mPush =>
      refine ⟨ha.1, fun x hx => ?_⟩
      rcases List.mem_append.1 hx with hx | hx
      · exact ha.2 x hx
      · simp only [List.mem_singleton] at hx; subst hx; exact hp
    case rFinish sl hs hl hb =>
      refine ⟨fun x hx => ?_, ha.2⟩
      rcases mem_set_slot hx with hx | hx
      · exact ha.1 x hx
      · subst hx; exact ha.1 sl (List.mem_of_getElem? hs)
    case fFree =>
      unfold Manager.freeBvh
      split
      · refine ⟨fun x hx => ?_, ha.2⟩
        rcases mem_set_slot hx with hx | hx
        · exact ha.1 x hx
        · subst hx; simp
      · exact ha
    case mfFree =>
      unfold Manager.freeMbvh
      split
      · refine ⟨ha.1, fun x hx => ?_⟩
        rcases mem_set_slot hx with hx | hx
        · exact ha.2 x hx
        · subst hx; simp
      · exact ha
    all_goals exact ha
  · cases h
    case scribble sl _ hs hl =>
      refine ⟨fun x hx => ?_, ha.2⟩
      rcases mem_set_slot hx with hx | hx
      · exact ha.1 x hx
      · subst hx; exact ha.1 sl (List.mem_of_getElem? hs)
    all_goals exact ha

theorem acts_buffer {s : FfiSys F} {op p p' m'} (h : FfiActs s op p p' m') {a : Nat} (ha : p'.buffer = some a) :
    (p.buffer = some a ∧ m' = s.mem) ∨ s.Fresh a ∧ m' = s.mem := by
  rcases h with h | h
  · cases h <;> simp [FfiPhase.buffer] at ha ⊢ <;> first | (subst ha; first | exact .inl rfl | exact .inr ‹_› | assumption | simp_all)
  · cases h <;> simp [FfiPhase.buffer] at ha

/-- What is known of another call stays true. -/
theorem PhaseOk.other {m m' : Manager F} {lin new : List (Nat × Event F)} {k : Nat} {op : FfiOp F} {p : FfiPhase F}
    (h : PhaseOk m lin k op p) (hnew : NotYet new k)
    (hw : (Lock.structures, LockMode.write) ∈ p.held → m'.slots = m.slots)
    (hr : ∀ i, (Lock.bvh i, LockMode.read) ∈ p.held → (Lock.structures, LockMode.read) ∈ p.held → m'.slots[i]? = m.slots[i]?)
    (hm : (Lock.mstructures, LockMode.write) ∈ p.held → m'.mslots = m.mslots)
    (hs : ∀ (i : Nat) sl, m.slots[i]? = some sl → ∃ sl', m'.slots[i]? = some sl') :
    PhaseOk m' (lin ++ new) k op p := by
  have hny : NotYet lin k → NotYet (lin ++ new) k := fun h => by
    unfold NotYet at *
    rw [List.map_append, List.mem_append]
    rintro (h' | h')
    · exact h h'
    · exact hnew h'
  have hin : ∀ {e : Nat × Event F}, e ∈ lin → e ∈ lin ++ new := fun h => List.mem_append.2 (.inl h)
  cases p with
  | called => exact hny h
  | built a => exact ⟨hny h.1, h.2⟩
  | storing a => exact ⟨hny h.1, h.2⟩
  | stored id a =>
    obtain ⟨b, h1, h2, h3⟩ := h
    exact ⟨b, h1, by rw [hw (by simp [FfiPhase.held])]; exact h2, hin h3⟩
  | storedRead id a =>
    obtain ⟨b, h1, h2, h3⟩ := h
    exact ⟨b, h1, by rw [hw (by simp [FfiPhase.held])]; exact h2, hin h3⟩
  | looking => exact ⟨hny h.1, h.2⟩
  | found id =>
    obtain ⟨h1, hh, nulls, h2, h3, h4, sl, h5⟩ := h
    exact ⟨hny h1, hh, nulls, h2, h3, h4, hs id sl h5⟩
  | converted id q a =>
    obtain ⟨h1, hh, nulls, h2, h3, h4, sl, fuel, h5, h6⟩ := h
    exact ⟨hny h1, hh, nulls, h2, h3, h4, sl, fuel, by rw [hr id (by simp [FfiPhase.held]) (by simp [FfiPhase.held])]; exact h5, h6⟩
  | mstoring id q a =>
    obtain ⟨h1, hh, nulls, h2, h3, h4, sl, fuel, h5, h6⟩ := h
    exact ⟨hny h1, hh, nulls, h2, h3, h4, sl, fuel, by rw [hr id (by simp [FfiPhase.held]) (by simp [FfiPhase.held])]; exact h5, h6⟩
  | mstored id j a =>
    obtain ⟨hh, nulls, q, h1, h2, h3⟩ := h
    exact ⟨hh, nulls, q, h1, by rw [hm (by simp [FfiPhase.held])]; exact h2, hin h3⟩
  | mstoredRead id j a =>
    obtain ⟨hh, nulls, q, h1, h2, h3⟩ := h
    exact ⟨hh, nulls, q, h1, by rw [hm (by simp [FfiPhase.held])]; exact h2, hin h3⟩
  | rlooking => exact ⟨hny h.1, h.2⟩
  | refitting id b =>
    obtain ⟨h1, bs, hh, h2, h3, h4, sl, h5⟩ := h
    exact ⟨hny h1, bs, hh, h2, h3, h4, hs id sl h5⟩
  | freeing => exact ⟨hny h.1, h.2⟩
  | mfreeing => exact ⟨hny h.1, h.2⟩
  | reading seen => exact h
  | mreading seen => exact h
  | leaving ls c o => exact fun call hc => hin (h call hc)
  | done c o => exact fun call hc => hin (h call hc)

theorem StandsBefore.append {α : Type} {lin : List (Nat × α)} {k k' : Nat} (new : List (Nat × α))
    (h : StandsBefore lin k k') : StandsBefore (lin ++ new) k k' := by
  obtain ⟨l₁, l₂, rfl, h1, h2⟩ := h
  exact ⟨l₁, l₂ ++ new, by simp, h1, by rw [List.map_append]; exact List.mem_append.2 (.inl h2)⟩

theorem returnedBefore_snoc {tr : List (FfiLabel F)} {l : FfiLabel F} {k k' : Nat} (h : ReturnedBefore (tr ++ [l]) k k') :
    ReturnedBefore tr k k' ∨ ((∃ c o, .ret k c o ∈ tr) ∧ ∃ op, l = .invoke k' op) := by
  obtain ⟨tr₁, tr₂, he, ⟨c, o, h1⟩, op, h2⟩ := h
  rcases List.eq_nil_or_concat tr₂ with rfl | ⟨tr₂', x, rfl⟩
  · cases h2
  · rw [List.concat_eq_append, ← List.append_assoc] at he
    obtain ⟨rfl, hx⟩ := List.append_inj' he rfl
    simp only [List.cons.injEq, and_true] at hx
    subst hx
    rw [List.concat_eq_append] at h2
    rcases List.mem_append.1 h2 with h2 | h2
    · exact .inl ⟨tr₁, tr₂', rfl, ⟨c, o, h1⟩, op, h2⟩
    · simp only [List.mem_singleton] at h2
      exact .inr ⟨⟨c, o, List.mem_append.2 (.inl h1)⟩, op, h2.symm⟩

theorem get_set {α : Type} {l : List α} {k j : Nat} {x y : α} (h : (l.set k x)[j]? = some y) (hk : k < l.length) :
    (j = k ∧ y = x) ∨ (j ≠ k ∧ l[j]? = some y) := by
  by_cases hj : j = k
  · subst hj
    rw [List.getElem?_set_self hk] at h
    exact .inl ⟨rfl, (Option.some.inj h).symm⟩
  · rw [List.getElem?_set_ne (Ne.symm hj)] at h
    exact .inr ⟨hj, h⟩

theorem lt_of_get {α : Type} {l : List α} {k : Nat} {x : α} (h : l[k]? = some x) : k < l.length := by
  rcases Nat.lt_or_ge k l.length with h' | h'
  · exact h'
  · rw [List.getElem?_eq_none h'] at h; cases h

theorem exclusive_act {s : FfiSys F} {k : Nat} {op : FfiOp F} {p p' : FfiPhase F} {m' : Manager F} (hx : s.Exclusive)
    (hk : s.calls[k]? = some (op, p)) (hl : ∀ l mode, (l, mode) ∈ p'.held → (l, mode) ∉ p.held → ¬ s.Held k l mode) :
    FfiSys.Exclusive ⟨m', s.calls.set k (op, p')⟩ := by
  have hlt := lt_of_get hk
  have key : ∀ (j : Nat) opj pj l mode mode', j ≠ k → s.calls[j]? = some (opj, pj) → (l, mode) ∈ pj.held →
      (l, mode') ∈ p'.held → LockMode.conflict mode mode' = false := by
    intro j opj pj l mode mode' hj hcj h1 h2
    by_cases hold : (l, mode') ∈ p.held
    · exact hx j k _ _ _ _ l mode mode' hj hcj hk h1 hold
    · cases e : LockMode.conflict mode mode' with
      | false => rfl
      | true =>
        exact absurd ⟨j, opj, pj, mode, hj, hcj, h1, by rw [LockMode.conflict_comm]; exact e⟩ (hl l mode' h2 hold)
  intro i j op1 p1 op2 p2 l mode mode' hij h1 h2 h3 h4
  rcases get_set h1 hlt with ⟨rfl, e⟩ | ⟨hi, h1'⟩
  · cases e
    rcases get_set h2 hlt with ⟨rfl, e⟩ | ⟨hj, h2'⟩
    · exact absurd rfl hij
    · rw [LockMode.conflict_comm]
      exact key j _ _ l mode' mode hj h2' h4 h3
  · rcases get_set h2 hlt with ⟨rfl, e⟩ | ⟨hj, h2'⟩
    · cases e
      exact key i _ _ l mode mode' hi h1' h3 h4
    · exact hx i j _ _ _ _ l mode mode' hij h1' h2' h3 h4

/-- A step of call `k`, with its new place in the order, if any. -/
theorem FfiInv.act {tr : List (FfiLabel F)} {s : FfiSys F} {lin new : List (Nat × Event F)} {m m₂ m' : Manager F}
    {k : Nat} {op : FfiOp F} {p p' : FfiPhase F} {l : FfiLabel F} (h : FfiInv tr s lin m)
    (hk : s.calls[k]? = some (op, p)) (ha : FfiActs s op p p' m')
    (hl : ∀ l mode, (l, mode) ∈ p'.held → (l, mode) ∉ p.held → ¬ s.Held k l mode)
    (hlab : l = .step k ∨ l = .idle k ∨ ∃ c o, l = .ret k c o ∧ p' = .done c o)
    (hopen : ∀ c o, p ≠ .done c o)
    (hnew : new = [] ∨ ∃ e, new = [(k, e)] ∧ NotYet lin k ∧ op = .manage e.call)
    (hhist : History .empty ((lin ++ new).map Prod.snd) m₂) (hset : Settled ⟨m', s.calls.set k (op, p')⟩ m₂)
    (hph : PhaseOk m' (lin ++ new) k op p') :
    FfiInv (tr ++ [l]) ⟨m', s.calls.set k (op, p')⟩ (lin ++ new) m₂ := by
  have hlt := lt_of_get hk
  have hnotinv : ∀ k' op', l ≠ .invoke k' op' := by
    rintro k' op' rfl
    rcases hlab with h | h | ⟨c, o, h, _⟩ <;> cases h
  refine ⟨hhist, ?_, hset, exclusive_act h.excl hk hl, ?_, ?_, ?_, ?_, ?_, ?_, ?_⟩
  · rcases hnew with rfl | ⟨e, rfl, hn, _⟩
    · simpa using h.nodup
    · rw [List.map_append]
      refine List.nodup_append.2 ⟨h.nodup, by simp, ?_⟩
      intro x hx y hy
      simp only [List.map_cons, List.map_nil, List.mem_singleton] at hy
      subst hy
      rintro rfl
      exact hn hx
  · intro j opj pj hj
    rcases get_set hj hlt with ⟨rfl, e⟩ | ⟨hne, hj'⟩
    · cases e; exact hph
    · refine (h.phase j opj pj hj').other ?_ ?_ ?_ ?_ ?_
      · rcases hnew with rfl | ⟨e, rfl, _, _⟩
        · simp [NotYet]
        · simpa [NotYet] using hne
      · intro hw
        rcases acts_slots ha with e | e | ⟨i, e, _, _⟩
        · exact e
        · exact absurd (h.excl j k _ _ _ _ _ _ _ hne hj' hk hw e) (by decide)
        · exact absurd (h.excl j k _ _ _ _ _ _ _ hne hj' hk hw e) (by decide)
      · intro i hr hst
        rcases acts_slots ha with e | e | ⟨i', e, e', hsame⟩
        · rw [e]
        · exact absurd (h.excl j k _ _ _ _ _ _ _ hne hj' hk hst e) (by decide)
        · by_cases hi : i = i'
          · subst hi
            exact absurd (h.excl j k _ _ _ _ _ _ _ hne hj' hk hr e') (by decide)
          · exact hsame i hi
      · intro hm
        rcases acts_mslots ha with e | e
        · exact e
        · exact absurd (h.excl j k _ _ _ _ _ _ _ hne hj' hk hm e) (by decide)
      · exact fun i sl hs => acts_mono ha hs
  · intro j e hj
    have hcase : (j, e) ∈ lin ∨ (j = k ∧ op = .manage e.call) := by
      rcases List.mem_append.1 hj with hj | hj
      · exact .inl hj
      · rcases hnew with rfl | ⟨e', rfl, _, he⟩
        · cases hj
        · simp only [List.mem_singleton, Prod.mk.injEq] at hj
          obtain ⟨rfl, rfl⟩ := hj
          exact .inr ⟨rfl, he⟩
    rcases hcase with hj | ⟨rfl, rfl⟩
    · obtain ⟨pj, hp⟩ := h.linCalls j e hj
      by_cases hjk : j = k
      · subst hjk
        rw [hk] at hp
        cases hp
        exact ⟨p', List.getElem?_set_self hlt⟩
      · exact ⟨pj, by simp only; rw [List.getElem?_set_ne (Ne.symm hjk)]; exact hp⟩
    · exact ⟨p', List.getElem?_set_self hlt⟩
  · intro j opj pj a hj hb
    rcases get_set hj hlt with ⟨rfl, e⟩ | ⟨hne, hj'⟩
    · cases e
      rcases acts_buffer ha hb with ⟨e1, e2⟩ | ⟨e1, e2⟩
      · simp only; rw [e2]; exact h.free _ _ _ _ hk e1
      · simp only; rw [e2]; exact e1.1
    · refine acts_free ha (h.free _ _ _ _ hj' hb) ?_
      intro hpb
      exact hne (h.distinct _ _ _ _ _ _ _ hj' hk hb hpb)
  · intro i j op1 p1 op2 p2 a h1 h2 hb1 hb2
    have key : ∀ (j : Nat) opj pj, s.calls[j]? = some (opj, pj) → j ≠ k → pj.buffer = some a → p'.buffer = some a → False := by
      intro j opj pj hj hne hb hb'
      rcases acts_buffer ha hb' with ⟨e1, _⟩ | ⟨e1, _⟩
      · exact hne (h.distinct _ _ _ _ _ _ _ hj hk hb e1)
      · exact e1.2 _ (List.mem_of_getElem? hj) hb
    rcases get_set h1 hlt with ⟨rfl, e⟩ | ⟨hi, h1'⟩
    · cases e
      rcases get_set h2 hlt with ⟨rfl, e⟩ | ⟨hj, h2'⟩
      · rfl
      · exact (key j _ _ h2' hj hb2 hb1).elim
    · rcases get_set h2 hlt with ⟨rfl, e⟩ | ⟨hj, h2'⟩
      · cases e
        exact (key i _ _ h1' hi hb1 hb2).elim
      · exact h.distinct _ _ _ _ _ _ _ h1' h2' hb1 hb2
  · intro j opj
    rw [List.mem_append, List.mem_singleton]
    constructor
    · rintro (hj | hj)
      · obtain ⟨pj, hp⟩ := (h.invoked j opj).1 hj
        by_cases hjk : j = k
        · subst hjk
          rw [hk] at hp
          cases hp
          exact ⟨p', List.getElem?_set_self hlt⟩
        · exact ⟨pj, by simp only; rw [List.getElem?_set_ne (Ne.symm hjk)]; exact hp⟩
      · exact absurd hj.symm (hnotinv j opj)
    · rintro ⟨pj, hj⟩
      rcases get_set hj hlt with ⟨rfl, e⟩ | ⟨_, hj'⟩
      · cases e
        exact .inl ((h.invoked _ _).2 ⟨p, hk⟩)
      · exact .inl ((h.invoked _ _).2 ⟨pj, hj'⟩)
  · intro j c o hj
    rcases List.mem_append.1 hj with hj | hj
    · obtain ⟨opj, hp⟩ := h.rets j c o hj
      have hjk : j ≠ k := by
        rintro rfl
        rw [hk] at hp
        cases hp
        exact hopen c o rfl
      exact ⟨opj, by simp only; rw [List.getElem?_set_ne (Ne.symm hjk)]; exact hp⟩
    · simp only [List.mem_singleton] at hj
      rcases hlab with e | e | ⟨c', o', e, hp'⟩
      · rw [e] at hj; cases hj
      · rw [e] at hj; cases hj
      · rw [e] at hj
        cases hj
        exact ⟨op, by rw [← hp']; exact List.getElem?_set_self hlt⟩
  · intro j j' call hj hb hj'
    have hjold : .invoke j (.manage call) ∈ tr := by
      rcases List.mem_append.1 hj with hj | hj
      · exact hj
      · simp only [List.mem_singleton] at hj
        exact absurd hj.symm (hnotinv _ _)
    rcases returnedBefore_snoc hb with hb | ⟨_, op', e⟩
    · rw [List.map_append, List.mem_append] at hj'
      rcases hj' with hj' | hj'
      · exact (h.order j j' call hjold hb hj').append new
      · rcases hnew with rfl | ⟨e, rfl, hn, _⟩
        · cases hj'
        · simp only [List.map_cons, List.map_nil, List.mem_singleton] at hj'
          subst hj'
          obtain ⟨tr₁, tr₂, rfl, ⟨c, o, hr⟩, _⟩ := hb
          obtain ⟨opj, hp⟩ := h.rets j c o (List.mem_append.2 (.inl hr))
          obtain ⟨pj, hp'⟩ := (h.invoked _ _).1 hjold
          rw [hp] at hp'
          cases hp'
          have := h.phase j _ _ hp call rfl
          exact ⟨lin, _, rfl, List.mem_map.2 ⟨_, this, rfl⟩, by simp⟩
    · exact absurd e (hnotinv _ _)

/-! ### The memory with the unfinished refits undone -/

omit [FloatOps F] in
theorem refits_set {s : FfiSys F} {k : Nat} {op : FfiOp F} {p p' : FfiPhase F} {m' : Manager F} {i : Nat} {b : Bvh F}
    (hk : s.calls[k]? = some (op, p)) (hp : ∀ i b, p ≠ .refitting i b) (hp' : ∀ i b, p' ≠ .refitting i b) :
    FfiSys.Refits ⟨m', s.calls.set k (op, p')⟩ i b ↔ s.Refits i b := by
  have hlt := lt_of_get hk
  constructor
  · rintro ⟨j, opj, hj⟩
    rcases get_set hj hlt with ⟨rfl, e⟩ | ⟨_, hj'⟩
    · cases e; exact absurd rfl (hp' i b)
    · exact ⟨j, opj, hj'⟩
  · rintro ⟨j, opj, hj⟩
    have hjk : j ≠ k := by
      rintro rfl
      rw [hk] at hj
      cases hj
      exact hp i b rfl
    exact ⟨j, opj, by simp only; rw [List.getElem?_set_ne (Ne.symm hjk)]; exact hj⟩

omit [FloatOps F] in
/-- A step that neither begins nor ends a refit and leaves the elements alone. -/
theorem Settled.same {s : FfiSys F} {m m₂ m' : Manager F} {k : Nat} {op : FfiOp F} {p p' : FfiPhase F} (h : Settled s m)
    (hk : s.calls[k]? = some (op, p)) (hp : ∀ i b, p ≠ .refitting i b) (hp' : ∀ i b, p' ≠ .refitting i b)
    (h1 : m'.slots = s.mem.slots) (h2 : m₂.slots = m.slots) (h3 : m₂.mslots = m'.mslots) :
    Settled ⟨m', s.calls.set k (op, p')⟩ m₂ := by
  refine ⟨h3, by simp only; rw [h1, h2]; exact h.len, fun i b hr => ?_, fun i hr => ?_⟩
  · simp only; rw [h1, h2]
    exact h.busy i b ((refits_set hk hp hp').1 hr)
  · simp only; rw [h1, h2]
    exact h.still i fun b hb => hr b ((refits_set hk hp hp').2 hb)

omit [FloatOps F] in
/-- While a call has `structures` write-locked there is no unfinished refit. -/
theorem Settled.eq_mem {s : FfiSys F} {m : Manager F} {k : Nat} {op : FfiOp F} {p : FfiPhase F} (h : Settled s m)
    (hx : s.Exclusive) (hk : s.calls[k]? = some (op, p)) (hw : (Lock.structures, LockMode.write) ∈ p.held)
    (hp : ∀ i b, p ≠ .refitting i b) : m = s.mem ∧ ∀ i b, ¬ s.Refits i b := by
  have hno : ∀ i b, ¬ s.Refits i b := by
    rintro i b ⟨j, opj, hj⟩
    have hjk : j ≠ k := by
      rintro rfl
      rw [hk] at hj
      cases hj
      exact hp i b rfl
    exact absurd (hx j k _ _ _ _ .structures .read .write hjk hj hk (by simp [FfiPhase.held]) hw) (by decide)
  refine ⟨?_, hno⟩
  have h1 : m.slots = s.mem.slots := List.ext_getElem? fun i => h.still i (hno i)
  have h2 := h.mslots
  cases m
  cases hs : s.mem
  rw [hs] at h1 h2
  simp only at h1 h2
  rw [h1, h2]

omit [FloatOps F] in
/-- The undone memory without unfinished refits is the memory. -/
theorem settled_refl {s : FfiSys F} (h : ∀ i b, ¬ s.Refits i b) : Settled s s.mem :=
  ⟨rfl, rfl, fun i b hr => absurd hr (h i b), fun _ _ => rfl⟩

omit [FloatOps F] in
theorem Settled.missing {s : FfiSys F} {m : Manager F} (h : Settled s m) {i : Nat} (hn : s.mem.slots[i]? = none) :
    m.slots[i]? = none := by
  rw [List.getElem?_eq_none_iff] at hn ⊢
  rw [h.len]; exact hn

omit [FloatOps F] in
theorem Settled.free {s : FfiSys F} {m : Manager F} (h : Settled s m) {a : Nat} (ha : s.mem.Free a) : m.Free a := by
  refine ⟨fun x hx => ?_, by rw [h.mslots]; exact ha.2⟩
  obtain ⟨i, hi⟩ := List.mem_iff_getElem?.1 hx
  by_cases hr : ∃ b, s.Refits i b
  · obtain ⟨b, hb⟩ := hr
    obtain ⟨sl, h1, h2⟩ := h.busy i b hb
    rw [hi] at h2
    cases h2
    exact ha.1 sl (List.mem_of_getElem? h1)
  · rw [h.still i fun b hb => hr ⟨b, hb⟩] at hi
    exact ha.1 x (List.mem_of_getElem? hi)

theorem exists_above (l : List Nat) : ∃ a, ∀ x ∈ l, x < a := by
  induction l with
  | nil => exact ⟨0, fun x hx => by cases hx⟩
  | cons y l ih =>
    obtain ⟨a, ha⟩ := ih
    refine ⟨Max.max a (y + 1), fun x hx => ?_⟩
    rcases List.mem_cons.1 hx with rfl | hx
    · omega
    · have := ha x hx; omega

omit [FloatOps F] in
/-- There is always an unused address. -/
theorem exists_fresh (s : FfiSys F) : ∃ a, s.Fresh a := by
  obtain ⟨a, ha⟩ := exists_above (s.mem.slots.filterMap Slot.addr ++ s.mem.mslots.filterMap Slot.addr ++
    s.calls.filterMap fun c => c.2.buffer)
  refine ⟨a, ⟨fun x hx e => ?_, fun x hx e => ?_⟩, fun c hc e => ?_⟩
  · exact Nat.lt_irrefl a (ha a (by simp only [List.mem_append, List.mem_filterMap]; exact .inl (.inl ⟨x, hx, e⟩)))
  · exact Nat.lt_irrefl a (ha a (by simp only [List.mem_append, List.mem_filterMap]; exact .inl (.inr ⟨x, hx, e⟩)))
  · exact Nat.lt_irrefl a (ha a (by simp only [List.mem_append, List.mem_filterMap]; exact .inr ⟨c, hc, e⟩))

/-! ### Every step keeps the invariant -/

theorem FfiInv.invoke {tr : List (FfiLabel F)} {s : FfiSys F} {lin : List (Nat × Event F)} {m : Manager F}
    (h : FfiInv tr s lin m) (op : FfiOp F) :
    FfiInv (tr ++ [.invoke s.calls.length op]) { s with calls := s.calls ++ [(op, .called)] } lin m := by
  have hget : ∀ {j : Nat} {x}, (s.calls ++ [(op, FfiPhase.called)])[j]? = some x →
      s.calls[j]? = some x ∨ (j = s.calls.length ∧ x = (op, .called)) := by
    intro j x hj
    rcases Nat.lt_or_ge j s.calls.length with hlt | hge
    · rw [List.getElem?_append_left hlt] at hj
      exact .inl hj
    · rw [List.getElem?_append_right hge] at hj
      have := lt_of_get hj
      simp only [List.length_singleton] at this
      have hj0 : j - s.calls.length = 0 := by omega
      rw [hj0] at hj
      exact .inr ⟨by omega, (Option.some.inj hj).symm⟩
  have hput : ∀ {j : Nat} {x}, s.calls[j]? = some x → (s.calls ++ [(op, FfiPhase.called)])[j]? = some x := by
    intro j x hj
    rw [List.getElem?_append_left (lt_of_get hj)]; exact hj
  have hny : NotYet lin s.calls.length := by
    intro hm
    obtain ⟨⟨k, e⟩, he, hk⟩ := List.mem_map.1 hm
    obtain ⟨p, hp⟩ := h.linCalls k e he
    simp only at hk
    have := lt_of_get hp
    omega
  have hrefits : ∀ i b, FfiSys.Refits { s with calls := s.calls ++ [(op, .called)] } i b ↔ s.Refits i b := by
    intro i b
    constructor
    · rintro ⟨j, opj, hj⟩
      rcases hget hj with hj | ⟨_, e⟩
      · exact ⟨j, opj, hj⟩
      · cases e
    · rintro ⟨j, opj, hj⟩
      exact ⟨j, opj, hput hj⟩
  refine ⟨h.hist, h.nodup, ⟨h.settled.mslots, h.settled.len, fun i b hr => h.settled.busy i b ((hrefits i b).1 hr),
    fun i hr => h.settled.still i fun b hb => hr b ((hrefits i b).2 hb)⟩, ?_, ?_, ?_, ?_, ?_, ?_, ?_, ?_⟩
  · intro i j op1 p1 op2 p2 l mode mode' hij h1 h2 h3 h4
    rcases hget h1 with h1 | ⟨_, e⟩
    · rcases hget h2 with h2 | ⟨_, e⟩
      · exact h.excl i j _ _ _ _ l mode mode' hij h1 h2 h3 h4
      · cases e; cases h4
    · cases e; cases h3
  · intro j opj pj hj
    rcases hget hj with hj | ⟨rfl, e⟩
    · exact h.phase j _ _ hj
    · cases e; exact hny
  · intro j e hj
    obtain ⟨p, hp⟩ := h.linCalls j e hj
    exact ⟨p, hput hp⟩
  · intro j opj pj a hj hb
    rcases hget hj with hj | ⟨_, e⟩
    · exact h.free j _ _ a hj hb
    · cases e; cases hb
  · intro i j op1 p1 op2 p2 a h1 h2 hb1 hb2
    rcases hget h1 with h1 | ⟨_, e⟩
    · rcases hget h2 with h2 | ⟨_, e⟩
      · exact h.distinct _ _ _ _ _ _ _ h1 h2 hb1 hb2
      · cases e; cases hb2
    · cases e; cases hb1
  · intro j opj
    rw [List.mem_append, List.mem_singleton]
    constructor
    · rintro (hj | hj)
      · obtain ⟨p, hp⟩ := (h.invoked j opj).1 hj
        exact ⟨p, hput hp⟩
      · cases hj
        exact ⟨.called, by simp⟩
    · rintro ⟨p, hp⟩
      rcases hget hp with hp | ⟨rfl, e⟩
      · exact .inl ((h.invoked j opj).2 ⟨p, hp⟩)
      · cases e; exact .inr rfl
  · intro j c o hj
    rcases List.mem_append.1 hj with hj | hj
    · obtain ⟨opj, hp⟩ := h.rets j c o hj
      exact ⟨opj, hput hp⟩
    · simp only [List.mem_singleton] at hj; cases hj
  · intro j j' call hj hb hj'
    have hlt' : j' < s.calls.length := by
      obtain ⟨⟨k, e⟩, he, rfl⟩ := List.mem_map.1 hj'
      obtain ⟨p, hp⟩ := h.linCalls k e he
      exact lt_of_get hp
    rcases returnedBefore_snoc hb with hb' | ⟨_, op', e⟩
    · refine h.order j j' call ?_ hb' hj'
      rcases List.mem_append.1 hj with hj | hj
      · exact hj
      · simp only [List.mem_singleton] at hj
        cases hj
        obtain ⟨tr₁, tr₂, rfl, ⟨c, o, hr⟩, _⟩ := hb'
        obtain ⟨opj, hp⟩ := h.rets _ c o (List.mem_append.2 (.inl hr))
        have := lt_of_get hp
        omega
    · cases e; omega

theorem hist_nil {lin : List (Nat × Event F)} {m : Manager F} (h : History .empty (lin.map Prod.snd) m) :
    History .empty ((lin ++ []).map Prod.snd) m := by simpa using h

theorem hist_one {lin : List (Nat × Event F)} {m m' : Manager F} {k : Nat} {e : Event F}
    (h : History .empty (lin.map Prod.snd) m) (hc : Calls m e m') :
    History .empty ((lin ++ [(k, e)]).map Prod.snd) m' := by
  rw [List.map_append]; exact h.snoc hc

/-- The label of a step that makes progress. -/
def moveLabel (k : Nat) : FfiPhase F → FfiLabel F
  | .done c o => .ret k c o
  | _ => .step k

theorem FfiInv.move {tr : List (FfiLabel F)} {s : FfiSys F} {lin : List (Nat × Event F)} {m m' : Manager F} {k : Nat}
    {op : FfiOp F} {p p' : FfiPhase F} (h : FfiInv tr s lin m) (hk : s.calls[k]? = some (op, p))
    (hm : FfiMove s op p p' m')
    (hl : ∀ l mode, (l, mode) ∈ p'.held → (l, mode) ∉ p.held → ¬ s.Held k l mode) :
    ∃ lin' m₂, FfiInv (tr ++ [moveLabel k p']) ⟨m', s.calls.set k (op, p')⟩ lin' m₂ := by
  have hph := h.phase k op p hk
  have hlab : moveLabel k p' = .step k ∨ moveLabel k p' = .idle k ∨
      ∃ c o, moveLabel k p' = .ret k c o ∧ p' = .done c o := by
    cases p' <;> first | exact .inl rfl | exact .inr (.inr ⟨_, _, rfl, rfl⟩)
  have hopen : ∀ c o, p ≠ .done c o := by
    rintro c o rfl; cases hm
  have quiet : (∀ i b, p ≠ .refitting i b) → (∀ i b, p' ≠ .refitting i b) → m' = s.mem →
      (PhaseOk s.mem lin k op p') →
      ∃ lin' m₂, FfiInv (tr ++ [moveLabel k p']) ⟨m', s.calls.set k (op, p')⟩ lin' m₂ := by
    intro h1 h2 h3 h4
    refine ⟨lin ++ [], m, h.act hk (.inl hm) hl hlab hopen (.inl rfl) (hist_nil h.hist)
      (h.settled.same hk h1 h2 (by rw [h3]) rfl (by rw [h3]; exact h.settled.mslots)) ?_⟩
    rw [h3]; simpa using h4
  have commit : ∀ (e : Event F) (m₂ : Manager F), NotYet lin k → op = .manage e.call → Calls m e m₂ →
      Settled ⟨m', s.calls.set k (op, p')⟩ m₂ → PhaseOk m' (lin ++ [(k, e)]) k op p' →
      ∃ lin' m₂, FfiInv (tr ++ [moveLabel k p']) ⟨m', s.calls.set k (op, p')⟩ lin' m₂ := by
    intro e m₂ h1 h2 h3 h4 h5
    exact ⟨_, m₂, h.act hk (.inl hm) hl hlab hopen (.inr ⟨e, rfl, h1, h2⟩) (hist_one h.hist h3) h4 h5⟩
  obtain ⟨a₀, ha₀⟩ := exists_fresh s
  have hfree := h.settled.free ha₀.1
  have same : (∀ i b, p ≠ .refitting i b) → (∀ i b, p' ≠ .refitting i b) → m' = s.mem →
      Settled ⟨m', s.calls.set k (op, p')⟩ m := fun h1 h2 h3 =>
    h.settled.same hk h1 h2 (by rw [h3]) rfl (by rw [h3]; exact h.settled.mslots)
  cases hm with
  | @createNull r =>
    refine commit ⟨.create true r, .error, none⟩ m hph rfl (Calls.create true r a₀ hfree) (same ?_ ?_ rfl) ?_
    · intro i b e; cases e
    · intro i b e; cases e
    · intro call hc; cases hc; simp
  | @createErr e =>
    refine commit ⟨.create false (.error e), .ofBuildError e, none⟩ m hph rfl (Calls.create false (.error e) a₀ hfree)
      (same ?_ ?_ rfl) ?_
    · intro i b e; cases e
    · intro i b e; cases e
    · intro call hc; cases hc; simp
  | createBuild ha => exact quiet (by intro i b e; cases e) (by intro i b e; cases e) rfl ⟨hph, _, rfl⟩
  | createLock => exact quiet (by intro i b e; cases e) (by intro i b e; cases e) rfl hph
  | @createPush b a =>
    obtain ⟨rfl, hno⟩ := h.settled.eq_mem h.excl hk (by simp [FfiPhase.held]) (by intro i b e; cases e)
    refine commit ⟨.create false (.ok b), .ok, some (Slot.handle ⟨b, some a⟩ s.mem.slots.length)⟩ _ hph.1 rfl
      (Calls.create false (.ok b) a (h.free k _ _ a hk rfl)) ?_ ?_
    · refine settled_refl (s := ⟨_, _⟩) fun i b hr => hno i b ?_
      exact (refits_set hk (by intro i b e; cases e) (by intro i b e; cases e)).1 hr
    · exact ⟨b, rfl, by simp, by simp⟩
  | createRead => exact quiet (by intro i b e; cases e) (by intro i b e; cases e) rfl hph
  | @createHandle b id a sl hs =>
    refine quiet (by intro i b e; cases e) (by intro i b e; cases e) rfl ?_
    obtain ⟨b', h1, h2, h3⟩ := hph
    rw [hs] at h2
    cases h1; cases h2
    intro call hc; cases hc; exact h3
  | @mNull hh nulls hn =>
    refine commit ⟨.createMbvh hh nulls, .error, none⟩ m hph rfl
      (Calls.createMbvh 0 hh nulls a₀ hfree (by unfold Manager.createMbvh; rw [if_pos hn])) (same ?_ ?_ rfl) ?_
    · intro i b e; cases e
    · intro i b e; cases e
    · intro call hc; cases hc; simp
  | mLook hn => exact quiet (by intro i b e; cases e) (by intro i b e; cases e) rfl ⟨hph, _, _, rfl, hn⟩
  | @mMissing hh nulls hs =>
    obtain ⟨h1, h', n', e, hn⟩ := hph
    cases e
    refine commit ⟨.createMbvh hh nulls, .error, none⟩ m h1 rfl
      (Calls.createMbvh 0 hh nulls a₀ hfree (by
        unfold Manager.createMbvh; rw [if_neg (by rw [hn]; simp), h.settled.missing hs])) (same ?_ ?_ rfl) ?_
    · intro i b e; cases e
    · intro i b e; cases e
    · intro call hc; cases hc; simp
  | mFound hs =>
    obtain ⟨h1, h', n', e, hn⟩ := hph
    cases e
    exact quiet (by intro i b e; cases e) (by intro i b e; cases e) rfl ⟨h1, _, _, rfl, hn, rfl, _, hs⟩
  | mConvert hs hq ha =>
    obtain ⟨h1, h', n', e, hn, hid, _⟩ := hph
    cases e
    exact quiet (by intro i b e; cases e) (by intro i b e; cases e) rfl ⟨h1, _, _, rfl, hn, hid, _, _, hs, hq⟩
  | mLock => exact quiet (by intro i b e; cases e) (by intro i b e; cases e) rfl hph
  | @mPush hh nulls id q a =>
    obtain ⟨h1, h', n', e, hn, hid, sl, fuel, hs, hq⟩ := hph
    cases e
    subst hid
    have hstill : m.slots[hh.id]? = some sl := by
      rw [h.settled.still hh.id ?_]; exact hs
      rintro b ⟨j, opj, hj⟩
      have hjk : j ≠ k := by
        rintro rfl
        rw [hk] at hj; cases hj
      exact absurd (h.excl j k _ _ _ _ (.bvh hh.id) .write .read hjk hj hk (by simp [FfiPhase.held])
        (by simp [FfiPhase.held])) (by decide)
    refine commit ⟨.createMbvh hh nulls, .ok, some (Slot.mhandle ⟨q, some a⟩ s.mem.mslots.length)⟩ (m.storeMbvh q a).1 h1 rfl
      (Calls.createMbvh fuel hh nulls a (h.settled.free (h.free k _ _ a hk rfl)) (by
        unfold Manager.createMbvh
        rw [if_neg (by rw [hn]; simp), hstill]
        simp only [hq, Option.map_some, Manager.storeMbvh, Slot.mhandle, h.settled.mslots])) ?_ ?_
    · exact h.settled.same hk (by intro i b e; cases e) (by intro i b e; cases e) rfl rfl
        (by simp only [Manager.storeMbvh, h.settled.mslots])
    · exact ⟨hh, nulls, q, rfl, by simp, by simp⟩
  | mRead => exact quiet (by intro i b e; cases e) (by intro i b e; cases e) rfl hph
  | @mHandle hh nulls id j a sl hs =>
    refine quiet (by intro i b e; cases e) (by intro i b e; cases e) rfl ?_
    obtain ⟨h', n', q, h1, h2, h3⟩ := hph
    rw [hs] at h2
    cases h1; cases h2
    intro call hc; cases hc; exact h3
  | @rNull aabbs hh hn =>
    refine commit ⟨.refit aabbs hh, .error, none⟩ m hph rfl (Calls.refit aabbs hh (by
      unfold Manager.refit
      cases aabbs with
      | none => rfl
      | some bs => simp only; rw [if_pos (by simpa using hn)])) (same ?_ ?_ rfl) ?_
    · intro i b e; cases e
    · intro i b e; cases e
    · intro call hc; cases hc; simp
  | @rLook aabbs hh hn =>
    refine quiet (by intro i b e; cases e) (by intro i b e; cases e) rfl ?_
    cases aabbs with
    | none => simp at hn
    | some bs => exact ⟨hph, bs, hh, rfl, by simpa using hn⟩
  | @rMissing aabbs hh hs =>
    obtain ⟨h1, bs, h', e, hn⟩ := hph
    cases e
    refine commit ⟨.refit (some bs) hh, .error, none⟩ m h1 rfl (Calls.refit (some bs) hh (by
      unfold Manager.refit
      simp only
      rw [if_neg (by rw [hn]; simp), h.settled.missing hs])) (same ?_ ?_ rfl) ?_
    · intro i b e; cases e
    · intro i b e; cases e
    · intro call hc; cases hc; simp
  | @rLock aabbs hh sl hs =>
    obtain ⟨h1, bs, h', e, hn⟩ := hph
    cases e
    have hlt := lt_of_get hk
    have hnone : ∀ b, ¬ s.Refits hh.id b := by
      rintro b ⟨j, opj, hj⟩
      have hjk : j ≠ k := by
        rintro rfl
        rw [hk] at hj; cases hj
      exact hl (.bvh hh.id) .write (by simp [FfiPhase.held]) (by simp [FfiPhase.held])
        ⟨j, opj, _, .write, hjk, hj, by simp [FfiPhase.held], rfl⟩
    refine ⟨lin ++ [], m, h.act hk (.inl (.rLock hs)) hl hlab hopen (.inl rfl) (hist_nil h.hist) ?_ ?_⟩
    · refine ⟨h.settled.mslots, h.settled.len, ?_, ?_⟩
      · rintro i b ⟨j, opj, hj⟩
        rcases get_set hj hlt with ⟨rfl, e⟩ | ⟨hne, hj'⟩
        · cases e
          exact ⟨sl, hs, by rw [h.settled.still _ hnone]; exact hs⟩
        · exact h.settled.busy i b ⟨j, opj, hj'⟩
      · intro i hi
        refine h.settled.still i ?_
        rintro b ⟨j, opj, hj⟩
        have hjk : j ≠ k := by
          rintro rfl
          rw [hk] at hj; cases hj
        exact hi b ⟨j, opj, by simp only; rw [List.getElem?_set_ne (Ne.symm hjk)]; exact hj⟩
    · simp only [List.append_nil]
      exact ⟨h1, bs, hh, rfl, hn, rfl, sl, hs⟩
  | @rFinish hh id bs b b' sl hs hle hb =>
    obtain ⟨h1, bs', h', e, hn, hid, _⟩ := hph
    cases e
    subst hid
    have hlt := lt_of_get hk
    have hi := lt_of_get hs
    obtain ⟨sl', hs', hm'⟩ := h.settled.busy hh.id b ⟨k, _, hk⟩
    rw [hs] at hs'
    cases hs'
    have hi' : hh.id < m.slots.length := by rw [h.settled.len]; exact hi
    refine commit ⟨.refit (some bs) hh, .ok, none⟩ { m with slots := m.slots.set hh.id { sl with val := b' } } h1 rfl
      (Calls.refit (some bs) hh ?_) ?_ ?_
    · unfold Manager.refit
      simp only
      rw [if_neg (by rw [hn]; simp), hm']
      simp only
      rw [if_neg (by omega), hb]
      rfl
    · have hrest : ∀ i b₁, FfiSys.Refits (⟨{ s.mem with slots := s.mem.slots.set hh.id { sl with val := b' } },
          s.calls.set k (.manage (.refit (some bs) hh), .leaving [(.bvh hh.id, .write), (.structures, .read)] .ok none)⟩ :
            FfiSys F) i b₁ → i ≠ hh.id ∧ s.Refits i b₁ := by
        rintro i b₁ ⟨j, opj, hj⟩
        rcases get_set hj hlt with ⟨rfl, e⟩ | ⟨hne, hj'⟩
        · cases e
        · refine ⟨?_, j, opj, hj'⟩
          rintro rfl
          exact absurd (h.excl j k _ _ _ _ (.bvh hh.id) .write .write hne hj' hk (by simp [FfiPhase.held])
            (by simp [FfiPhase.held])) (by decide)
      refine ⟨h.settled.mslots, by simp only [List.length_set]; exact h.settled.len, ?_, ?_⟩
      · intro i b₁ hr
        obtain ⟨hne, hr⟩ := hrest i b₁ hr
        simp only
        rw [List.getElem?_set_ne (Ne.symm hne), List.getElem?_set_ne (Ne.symm hne)]
        exact h.settled.busy i b₁ hr
      · intro i hr
        simp only
        by_cases hne : i = hh.id
        · subst hne
          rw [List.getElem?_set_self hi, List.getElem?_set_self hi']
        · rw [List.getElem?_set_ne (Ne.symm hne), List.getElem?_set_ne (Ne.symm hne)]
          refine h.settled.still i ?_
          rintro b₁ ⟨j, opj, hj⟩
          have hjk : j ≠ k := by
            rintro rfl
            rw [hk] at hj; cases hj
            exact hne rfl
          exact hr b₁ ⟨j, opj, by simp only; rw [List.getElem?_set_ne (Ne.symm hjk)]; exact hj⟩
    · intro call hc; cases hc; simp
  | fLock => exact quiet (by intro i b e; cases e) (by intro i b e; cases e) rfl ⟨hph, _, rfl⟩
  | @fFree hh =>
    obtain ⟨rfl, hno⟩ := h.settled.eq_mem h.excl hk (by simp [FfiPhase.held]) (by intro i b e; cases e)
    refine commit ⟨.freeBvh hh, .ok, none⟩ _ hph.1 rfl (Calls.freeBvh hh) ?_ ?_
    · refine settled_refl (s := ⟨_, _⟩) fun i b hr => hno i b ?_
      exact (refits_set hk (by intro i b e; cases e) (by intro i b e; cases e)).1 hr
    · intro call hc; cases hc; simp
  | mfLock => exact quiet (by intro i b e; cases e) (by intro i b e; cases e) rfl ⟨hph, _, rfl⟩
  | @mfFree hh =>
    refine commit ⟨.freeMbvh hh, .ok, none⟩ _ hph.1 rfl (Calls.freeMbvh hh) ?_ ?_
    · refine h.settled.same hk (by intro i b e; cases e) (by intro i b e; cases e) ?_ ?_ ?_
      · unfold Manager.freeMbvh; split <;> rfl
      · unfold Manager.freeMbvh; split <;> rfl
      · unfold Manager.freeMbvh
        rw [h.settled.mslots]
        split <;> first | rfl | exact h.settled.mslots
    · intro call hc; cases hc; simp
  | qStart => exact quiet (by intro i b e; cases e) (by intro i b e; cases e) rfl ⟨_, rfl⟩
  | qEnd => exact quiet (by intro i b e; cases e) (by intro i b e; cases e) rfl (by intro call hc; cases hc)
  | mqStart => exact quiet (by intro i b e; cases e) (by intro i b e; cases e) rfl ⟨_, rfl⟩
  | mqEnd => exact quiet (by intro i b e; cases e) (by intro i b e; cases e) rfl (by intro call hc; cases hc)
  | unlock => exact quiet (by intro i b e; cases e) (by intro i b e; cases e) rfl hph
  | leave => exact quiet (by intro i b e; cases e) (by intro i b e; cases e) rfl hph

theorem FfiInv.idle {tr : List (FfiLabel F)} {s : FfiSys F} {lin : List (Nat × Event F)} {m m' : Manager F} {k : Nat}
    {op : FfiOp F} {p p' : FfiPhase F} (h : FfiInv tr s lin m) (hk : s.calls[k]? = some (op, p))
    (hm : FfiIdle s op p p' m') : FfiInv (tr ++ [.idle k]) ⟨m', s.calls.set k (op, p')⟩ lin m := by
  have hph := h.phase k op p hk
  have hopen : ∀ c o, p ≠ .done c o := by
    rintro c o rfl; cases hm
  have hl : ∀ l mode, (l, mode) ∈ p'.held → (l, mode) ∉ p.held → ¬ s.Held k l mode := by
    intro l mode h1 h2
    cases hm
    · exact absurd h1 h2
    · cases h1
    · cases h1
  have hlt := lt_of_get hk
  suffices hg : Settled ⟨m', s.calls.set k (op, p')⟩ m ∧ PhaseOk m' (lin ++ []) k op p' by
    have := h.act (new := []) (l := .idle k) hk (.inr hm) hl (.inr (.inl rfl)) hopen (.inl rfl) (hist_nil h.hist) hg.1 hg.2
    simpa using this
  cases hm with
  | @scribble _ id b sl nodes hs hle =>
    have hi := lt_of_get hs
    obtain ⟨sl', hs', hm'⟩ := h.settled.busy id b ⟨k, _, hk⟩
    rw [hs] at hs'
    cases hs'
    have hset : s.calls.set k (op, .refitting id b) = s.calls := by
      apply List.ext_getElem?
      intro j
      by_cases hj : j = k
      · subst hj; rw [List.getElem?_set_self hlt, hk]
      · rw [List.getElem?_set_ne (Ne.symm hj)]
    constructor
    · refine ⟨h.settled.mslots, by simp only [List.length_set]; exact h.settled.len, ?_, ?_⟩
      · intro i b₁ hr
        have hr' : s.Refits i b₁ := by
          unfold FfiSys.Refits at hr ⊢
          simp only [hset] at hr
          exact hr
        simp only
        by_cases hne : i = id
        · subst hne
          obtain ⟨sl'', h1, h2⟩ := h.settled.busy i b₁ hr'
          rw [hs] at h1
          cases h1
          refine ⟨_, List.getElem?_set_self hi, h2⟩
        · rw [List.getElem?_set_ne (Ne.symm hne)]
          exact h.settled.busy i b₁ hr'
      · intro i hr
        have hne : i ≠ id := by
          rintro rfl
          exact hr b ⟨k, op, by simp only; exact List.getElem?_set_self hlt⟩
        simp only
        rw [List.getElem?_set_ne (Ne.symm hne)]
        refine h.settled.still i fun b₁ hb => hr b₁ ?_
        unfold FfiSys.Refits at hb ⊢
        simp only [hset]
        exact hb
    · obtain ⟨h1, bs, hh, h2, h3, h4, _⟩ := hph
      simp only [List.append_nil]
      exact ⟨h1, bs, hh, h2, h3, h4, _, by simp only; exact List.getElem?_set_self hi⟩
  | read =>
    exact ⟨h.settled.same hk (by intro i b e; cases e) (by intro i b e; cases e) rfl rfl h.settled.mslots, hph⟩
  | mread =>
    exact ⟨h.settled.same hk (by intro i b e; cases e) (by intro i b e; cases e) rfl rfl h.settled.mslots, hph⟩

theorem ffiInv_init : FfiInv (F := F) [] .init [] .empty := by
  refine ⟨.nil, List.nodup_nil, ⟨rfl, rfl, ?_, fun _ _ => rfl⟩, ?_, ?_, ?_, ?_, ?_, ?_, ?_, ?_⟩
  · rintro i b ⟨k, op, h⟩; simp [FfiSys.init] at h
  · intro j k op p op' p' l mode mode' _ h; simp [FfiSys.init] at h
  · intro k op p h; simp [FfiSys.init] at h
  · intro k e h; cases h
  · intro k op p a h; simp [FfiSys.init] at h
  · intro j k op p op' p' a h; simp [FfiSys.init] at h
  · intro k op; simp [FfiSys.init]
  · intro k c o h; cases h
  · intro k k' call h; cases h

theorem FfiInv.step {tr : List (FfiLabel F)} {s s' : FfiSys F} {lin : List (Nat × Event F)} {m : Manager F}
    {l : FfiLabel F} (h : FfiInv tr s lin m) (hs : FfiStep s l s') : ∃ lin' m', FfiInv (tr ++ [l]) s' lin' m' := by
  cases hs with
  | invoke op => exact ⟨_, _, h.invoke op⟩
  | @step k op p p' m' hk hm hl hd =>
    have := h.move hk hm hl
    have he : moveLabel k p' = .step k := by
      cases p' <;> first | rfl | exact absurd rfl (hd _ _)
    rwa [he] at this
  | ret hk hm => exact h.move hk hm (by intro l mode h; cases h)
  | idle hk hm => exact ⟨_, _, h.idle hk hm⟩

theorem FfiRun.inv {tr : List (FfiLabel F)} {s : FfiSys F} (h : FfiRun .init tr s) : ∃ lin m, FfiInv tr s lin m := by
  induction h with
  | nil => exact ⟨_, _, ffiInv_init⟩
  | snoc _ hs ih =>
    obtain ⟨lin, m, hi⟩ := ih
    exact hi.step hs

theorem FfiInv.linearizes {tr : List (FfiLabel F)} {s : FfiSys F} {lin : List (Nat × Event F)} {m : Manager F}
    (h : FfiInv tr s lin m) : Linearizes tr lin m := by
  refine ⟨h.hist, h.nodup, fun k e he => (h.invoked k _).2 (h.linCalls k e he), fun k call c o h1 h2 => ?_, h.order⟩
  obtain ⟨op, hp⟩ := h.rets k c o h2
  obtain ⟨p, hp'⟩ := (h.invoked _ _).1 h1
  rw [hp] at hp'
  cases hp'
  exact h.phase k _ _ hp call rfl

end Rtbvh
