import Verif.Proofs.FfiProgress
import Verif.Props.Ffi
/- Properties C82-C84: the C interface used from several threads. -/
namespace Rtbvh
variable {F : Type} [FloatOps F]

/-! ### C82: calls made at the same time behave like calls made one after the other -/

/-- C82: however the calls of any number of threads interleave, lock by lock, what the clients see has a sequential
explanation: an order of whole calls in which every call returned what it returned, that respects which call returned
before which was made.  The structures after that order are the ones in memory, except the ones being refitted. -/
theorem C82_linearizable {tr : List (FfiLabel F)} {s : FfiSys F} (h : FfiRun .init tr s) :
    ∃ lin m, Linearizes tr lin m ∧ m.mslots = s.mem.mslots ∧
      (∀ i, (∀ (k : Nat) op b, s.calls[k]? ≠ some (op, FfiPhase.refitting i b)) → m.slots[i]? = s.mem.slots[i]?) ∧
      ((∀ k, ¬ s.Open k) → m = s.mem) := by
  obtain ⟨lin, m, hi⟩ := h.inv
  have hstill : ∀ i, (∀ (k : Nat) op b, s.calls[k]? ≠ some (op, FfiPhase.refitting i b)) → m.slots[i]? = s.mem.slots[i]? :=
    fun i hr => hi.settled.still i fun b hb => by obtain ⟨k, op, hk⟩ := hb; exact hr k op b hk
  refine ⟨lin, m, hi.linearizes, hi.settled.mslots, hstill, fun ho => ?_⟩
  have h1 : m.slots = s.mem.slots := List.ext_getElem? fun i => hstill i fun k op b hk =>
    ho k ⟨op, _, hk, fun c o e => by cases e⟩
  have h2 := hi.settled.mslots
  cases m
  cases hs : s.mem
  rw [hs] at h1 h2
  simp only at h1 h2
  rw [h1, h2]

/-- C82: at no moment do two calls hold a lock of the manager in ways that exclude each other. -/
theorem C82_mutual_exclusion {tr : List (FfiLabel F)} {s : FfiSys F} (h : FfiRun .init tr s) {j k : Nat}
    {op op' : FfiOp F} {p p' : FfiPhase F} {l : Lock} {mode : LockMode} (hjk : j ≠ k)
    (hj : s.calls[j]? = some (op, p)) (hk : s.calls[k]? = some (op', p')) (hw : (l, .write) ∈ p.held) :
    (l, mode) ∉ p'.held := by
  obtain ⟨lin, m, hi⟩ := h.inv
  intro hr
  have := hi.excl j k _ _ _ _ l .write mode hjk hj hk hw hr
  cases mode <;> exact absurd this (by decide)

/-- A call that creates a BVH. -/
def FfiOp.creates : FfiOp F → Bool
  | .manage (.create _ _) => true
  | _ => false

theorem count_idx {α : Type} (P : α → Bool) : ∀ (n : Nat) (l : List α) (ks : List Nat), l.length = n → ks.Nodup →
    (∀ k ∈ ks, ∃ x, l[k]? = some x ∧ P x = true) → ks.length ≤ l.countP P := by
  intro n
  induction n with
  | zero =>
    intro l ks hl _ h
    cases ks with
    | nil => simp
    | cons k ks =>
      obtain ⟨x, hx, _⟩ := h k (by simp)
      have := lt_of_get hx
      omega
  | succ n ih =>
    intro l ks hl hn h
    rcases List.eq_nil_or_concat l with rfl | ⟨l', y, rfl⟩
    · simp at hl
    · rw [List.concat_eq_append] at *
      have hl' : l'.length = n := by simpa using hl
      rw [List.countP_append]
      by_cases hm : n ∈ ks
      · have hy : P y = true := by
          obtain ⟨x, hx, hp⟩ := h n hm
          rw [List.getElem?_append_right (by omega)] at hx
          rw [show n - l'.length = 0 by omega] at hx
          simp only [List.getElem?_cons_zero, Option.some.injEq] at hx
          rw [hx]; exact hp
        have := ih l' (ks.erase n) hl' (hn.erase n) fun k hk => by
          rw [hn.mem_erase_iff] at hk
          obtain ⟨x, hx, hp⟩ := h k hk.2
          have hlt := lt_of_get hx
          simp only [List.length_append, List.length_singleton] at hlt
          rw [List.getElem?_append_left (by omega)] at hx
          exact ⟨x, hx, hp⟩
        rw [List.length_erase_of_mem hm] at this
        have hpos := List.length_pos_of_mem hm
        simp only [List.countP_cons, List.countP_nil, hy, if_true]
        omega
      · have := ih l' ks hl' hn fun k hk => by
          obtain ⟨x, hx, hp⟩ := h k hk
          have hlt := lt_of_get hx
          simp only [List.length_append, List.length_singleton] at hlt
          have : k ≠ n := fun e => hm (e ▸ hk)
          rw [List.getElem?_append_left (by omega)] at hx
          exact ⟨x, hx, hp⟩
        omega

theorem bvhHandles_le (lin : List (Nat × Event F)) :
    (bvhHandles (lin.map Prod.snd)).length ≤ ((lin.filter fun x => (FfiOp.manage x.2.call).creates).map Prod.fst).length := by
  rw [List.length_map]
  induction lin with
  | nil => simp [bvhHandles]
  | cons x l ih =>
    obtain ⟨k, call, c, o⟩ := x
    unfold bvhHandles at ih ⊢
    cases call <;> cases o <;> simp [FfiOp.creates] at ih ⊢ <;> omega

/-- There are no more handles in the order than calls that create. -/
theorem handles_le_calls {tr : List (FfiLabel F)} {s : FfiSys F} {lin : List (Nat × Event F)} {m : Manager F}
    (hi : FfiInv tr s lin m) : (bvhHandles (lin.map Prod.snd)).length ≤ s.calls.countP fun c => c.1.creates := by
  refine Nat.le_trans (bvhHandles_le lin) (count_idx _ _ _ _ rfl ?_ ?_)
  · exact List.Nodup.sublist (List.Sublist.map _ List.filter_sublist) hi.nodup
  · intro k hk
    obtain ⟨⟨k', e⟩, he, rfl⟩ := List.mem_map.1 hk
    obtain ⟨he, hc⟩ := List.mem_filter.1 he
    obtain ⟨p, hp⟩ := hi.linCalls _ _ he
    exact ⟨_, hp, hc⟩

/-- C82: two creations of BVHs that return, on whatever threads, return handles with different ids. -/
theorem C82_ids_distinct {tr : List (FfiLabel F)} {s : FfiSys F} (h : FfiRun .init tr s)
    (hn : (s.calls.countP fun c => c.1.creates) ≤ 2 ^ 32) {j k : Nat} (hjk : j ≠ k) {nulls nulls' : Bool} {r r' c c' hd hd'}
    (h1 : .invoke j (.manage (.create nulls r)) ∈ tr) (h2 : .ret j c (some hd) ∈ tr)
    (h3 : .invoke k (.manage (.create nulls' r')) ∈ tr) (h4 : .ret k c' (some hd') ∈ tr) : hd.id ≠ hd'.id := by
  obtain ⟨lin, m, hi⟩ := h.inv
  have hlin := hi.linearizes
  have m1 := hlin.returned _ _ _ _ h1 h2
  have m2 := hlin.returned _ _ _ _ h3 h4
  have hle := Nat.le_trans (handles_le_calls hi) hn
  obtain ⟨⟨_, hids⟩, _⟩ := hi.hist.lengths
  have key : ∀ n, n ≤ 2 ^ 32 → ((List.range' 0 n).map natAsU32).Nodup := by
    intro n hn
    have : (List.range' 0 n).map natAsU32 = List.range n := by
      rw [List.range_eq_range']
      conv => rhs; rw [← List.map_id (List.range' 0 n)]
      apply List.map_congr_left
      intro x hx
      simp only [List.mem_range'_1] at hx
      exact asU32_of_lt (by omega)
    rw [this]; exact List.nodup_range
  have hnd : ((bvhHandles (lin.map Prod.snd)).map Handle.id).Nodup := by rw [hids]; exact key _ hle
  obtain ⟨a, b, hab⟩ := List.append_of_mem m1
  have hsplit : ∀ {x y : Nat × Event F} {l : List (Nat × Event F)}, x ∈ l → y ∈ l → x.1 ≠ y.1 →
      ∃ l₁ l₂ l₃, (l = l₁ ++ x :: l₂ ++ y :: l₃) ∨ (l = l₁ ++ y :: l₂ ++ x :: l₃) := by
    intro x y l hx hy hxy
    obtain ⟨a, b, rfl⟩ := List.append_of_mem hx
    rcases List.mem_append.1 hy with hy | hy
    · obtain ⟨a1, a2, rfl⟩ := List.append_of_mem hy
      exact ⟨a1, a2, b, .inr (by simp)⟩
    · rcases List.mem_cons.1 hy with rfl | hy
      · exact absurd rfl hxy
      · obtain ⟨b1, b2, rfl⟩ := List.append_of_mem hy
        exact ⟨a, b1, b2, .inl (by simp)⟩
  obtain ⟨l₁, l₂, l₃, e⟩ := hsplit m1 m2 hjk
  have hcons : ∀ (nl : Bool) (r : Except BuildError (Bvh F)) (cc : ResultCode) (hh : Handle) (es : List (Event F)),
      bvhHandles (⟨.create nl r, cc, some hh⟩ :: es) = hh :: bvhHandles es := fun _ _ _ _ _ => rfl
  have happ : ∀ es es' : List (Event F), bvhHandles (es ++ es') = bvhHandles es ++ bvhHandles es' := fun es es' => by
    unfold bvhHandles; exact List.filterMap_append ..
  intro heq
  rcases e with e | e
  · rw [e, List.map_append, List.map_append, List.map_cons, List.map_cons, happ, happ] at hnd
    simp only [hcons] at hnd
    simp [heq] at hnd
    grind
  · rw [e, List.map_append, List.map_append, List.map_cons, List.map_cons, happ, happ] at hnd
    simp only [hcons] at hnd
    simp [heq] at hnd
    grind

/-! ### C83: calls do not block each other for ever -/

/-- C83: whenever some call has not returned and no call is in code that panics, some call can take its next step, even if
readers are made to wait for waiting writers. -/
theorem C83_no_deadlock {tr : List (FfiLabel F)} {s : FfiSys F} (h : FfiRun .init tr s) {k : Nat} (hk : s.Open k)
    (hb : ∀ k, ¬ s.Broken k) : ∃ j l s', FfiStep s l s' ∧ (l = .step j ∨ ∃ c o, l = .ret j c o) ∧
      ∀ lock mode, s.Wants j lock mode → ¬ s.Refused j lock mode := by
  obtain ⟨lin, m, hi⟩ := h.inv
  obtain ⟨j, hj⟩ := ready_of_open hi hb hk
  obtain ⟨l, s', h1, h2⟩ := hj.step
  obtain ⟨_, _, _, _, _, _, hr⟩ := hj
  exact ⟨j, l, s', h1, h2, hr⟩

/-- A step that brings a call nearer to its end. -/
def FfiLabel.progress : FfiLabel F → Bool
  | .step _ | .ret _ _ _ => true
  | _ => false
/-- A new call. -/
def FfiLabel.isInvoke : FfiLabel F → Bool
  | .invoke _ _ => true
  | _ => false

theorem run_work {s s' : FfiSys F} {tr : List (FfiLabel F)} (h : FfiRun s tr s') :
    tr.countP FfiLabel.progress + s'.work ≤ s.work + 12 * tr.countP FfiLabel.isInvoke := by
  induction h with
  | nil => simp
  | snoc _ hs ih =>
    rw [List.countP_append, List.countP_append]
    cases hs with
    | invoke op =>
      simp only [FfiSys.work, List.map_append, List.sum_append, List.map_cons, List.map_nil, List.sum_cons, List.sum_nil,
        FfiPhase.work, List.countP_cons, List.countP_nil, FfiLabel.progress, FfiLabel.isInvoke] at ih ⊢
      simp
      omega
    | @step k op p p' m' hk hm hl hd =>
      have h1 := sum_set (fun c : FfiOp F × FfiPhase F => c.2.work) (y := (op, p')) hk
      have h2 := move_work hm
      simp only [FfiSys.work, List.countP_cons, List.countP_nil, FfiLabel.progress, FfiLabel.isInvoke, Bool.false_eq_true,
        reduceIte] at ih h1 ⊢
      omega
    | @ret k op p c o m' hk hm =>
      have h1 := sum_set (fun c : FfiOp F × FfiPhase F => c.2.work) (y := (op, .done c o)) hk
      have h2 := move_work hm
      simp only [FfiSys.work, List.countP_cons, List.countP_nil, FfiLabel.progress, FfiLabel.isInvoke, Bool.false_eq_true,
        reduceIte] at ih h1 ⊢
      omega
    | @idle k op p p' m' hk hm =>
      have h1 := sum_set (fun c : FfiOp F × FfiPhase F => c.2.work) (y := (op, p')) hk
      have h2 := idle_work hm
      simp only [FfiSys.work, List.countP_cons, List.countP_nil, FfiLabel.progress, FfiLabel.isInvoke, Bool.false_eq_true,
        reduceIte] at ih h1 ⊢
      omega

/-- C83: whatever the order, a use of the interface has at most twelve steps for each call that was made, not counting
reads by queries and the writes of a refit. -/
theorem C83_bounded {s : FfiSys F} {tr : List (FfiLabel F)} (h : FfiRun .init tr s) :
    tr.countP FfiLabel.progress ≤ 12 * tr.countP FfiLabel.isInvoke := by
  have := run_work h
  simp only [FfiSys.init, FfiSys.work, List.map_nil, List.sum_nil] at this
  omega

theorem FfiRun.trans {s s' s'' : FfiSys F} {tr tr' : List (FfiLabel F)} (h : FfiRun s tr s') (h' : FfiRun s' tr' s'') :
    FfiRun s (tr ++ tr') s'' := by
  induction h' with
  | nil => simpa using h
  | snoc _ hs ih => rw [← List.append_assoc]; exact ih.snoc hs

/-- C83: from every state the calls that have been made can all return, unless one gets into code that panics. -/
theorem C83_all_return {tr : List (FfiLabel F)} {s : FfiSys F} (h : FfiRun .init tr s) :
    ∃ tr' s', FfiRun s tr' s' ∧ tr'.all FfiLabel.progress = true ∧ ((∀ k, ¬ s'.Open k) ∨ ∃ k, s'.Broken k) := by
  have main : ∀ n (s : FfiSys F) tr, FfiRun .init tr s → s.work ≤ n →
      ∃ tr' s', FfiRun s tr' s' ∧ tr'.all FfiLabel.progress = true ∧ ((∀ k, ¬ s'.Open k) ∨ ∃ k, s'.Broken k) := by
    intro n
    induction n with
    | zero =>
      intro s tr h hw
      refine ⟨[], s, .nil, rfl, ?_⟩
      by_cases ho : ∃ k, s.Open k
      · by_cases hb : ∃ k, s.Broken k
        · exact .inr hb
        · obtain ⟨k, ho⟩ := ho
          obtain ⟨j, l, s', hs, hl, _⟩ := C83_no_deadlock h ho fun k hk => hb ⟨k, hk⟩
          have := run_work (FfiRun.nil.snoc hs)
          rcases hl with rfl | ⟨c, o, rfl⟩ <;> simp [FfiLabel.progress, FfiLabel.isInvoke] at this <;> omega
      · exact .inl fun k hk => ho ⟨k, hk⟩
    | succ n ih =>
      intro s tr h hw
      by_cases ho : ∃ k, s.Open k
      · by_cases hb : ∃ k, s.Broken k
        · exact ⟨[], s, .nil, rfl, .inr hb⟩
        · obtain ⟨k, ho⟩ := ho
          obtain ⟨j, l, s', hs, hl, _⟩ := C83_no_deadlock h ho fun k hk => hb ⟨k, hk⟩
          have hwork := run_work (FfiRun.nil.snoc hs)
          have hp : l.progress = true ∧ l.isInvoke = false := by
            rcases hl with rfl | ⟨c, o, rfl⟩ <;> exact ⟨rfl, rfl⟩
          have hw' : s'.work ≤ n := by
            simp [hp.1, hp.2] at hwork
            omega
          obtain ⟨tr', s'', h1, h2, h3⟩ := ih s' _ (h.snoc hs) hw'
          exact ⟨[l] ++ tr', s'', (FfiRun.nil.snoc hs).trans h1, by simp [hp.1, h2], h3⟩
      · exact ⟨[], s, .nil, rfl, .inl fun k hk => ho ⟨k, hk⟩⟩
  exact main _ s tr h (Nat.le_refl _)

/-! ### C84: queries while other calls run -/

theorem slices_eq {m : Manager F} {h : Handle} {sl : Slot (Bvh F)} {a : Nat} (hd : DistinctAddrs m.slots)
    (hs : m.slots[h.id]? = some sl) (ha : sl.addr = some a) (hh : h.addr = some a)
    (hn : h.nodeCount = sl.val.nodes.length) (hx : h.indexCount = sl.val.primIndices.length) :
    m.slices h = some (sl.val.nodes, sl.val.primIndices) := by
  have hfind := find_slot hd hs ha
  simp only [Manager.slices, hh, hfind]
  rw [if_pos ⟨by omega, by omega⟩, hn, hx, List.take_length, List.take_length]

theorem History.split {m m' : Manager F} {es es' : List (Event F)} (h : History m (es ++ es') m') :
    ∃ m₁, History m es m₁ ∧ History m₁ es' m' := by
  induction es generalizing m with
  | nil => exact ⟨m, .nil, h⟩
  | cons e es ih =>
    cases h with
    | cons hc h =>
      obtain ⟨m₁, h1, h2⟩ := ih h
      exact ⟨m₁, .cons hc h1, h2⟩

/-- The entry of a handle that was not freed. -/
theorem created_slot {es₁ es₂ : List (Event F)} {m m₁ m₂ : Manager F} {nulls : Bool} {b : Bvh F}
    {c : ResultCode} {h : Handle} (h₁ : History .empty es₁ m) (hc : Calls m ⟨.create nulls (.ok b), c, some h⟩ m₁)
    (h₂ : History m₁ es₂ m₂) (hcount : (bvhHandles es₁).length < 2 ^ 32) (hf : ∀ e ∈ es₂, frees h.id e = false)
    (hn : b.nodes.length < 2 ^ 32) (hi : b.primIndices.length < 2 ^ 32) :
    ∃ (sl : Slot (Bvh F)) (a : Nat), m₂.slots[h.id]? = some sl ∧ sl.val = es₂.foldl (Event.after h.id) b ∧ sl.addr = some a ∧
      h.addr = some a ∧ h.nodeCount = sl.val.nodes.length ∧ h.indexCount = sl.val.primIndices.length := by
  obtain ⟨⟨hl, _⟩, _⟩ := h₁.lengths
  have hl : m.slots.length = (bvhHandles es₁).length := by simpa [Manager.empty] using hl
  have hcr : ∃ a, m₁.slots[m.slots.length]? = some ⟨b, some a⟩ ∧ c = .ok ∧ h.id = m.slots.length ∧ h.addr = some a ∧
      h.nodeCount = natAsU32 b.nodes.length ∧ h.indexCount = natAsU32 b.primIndices.length := by
    generalize he : (⟨.create nulls (.ok b), c, some h⟩ : Event F) = e at hc
    cases hc with
    | create nulls' r a hf =>
      simp only [Event.mk.injEq, Call.create.injEq] at he
      obtain ⟨⟨rfl, rfl⟩, rfl, he⟩ := he
      cases nulls with
      | true => simp [Manager.create] at he
      | false =>
        simp only [Manager.create, Manager.store, Option.some.injEq, Bool.false_eq_true, if_false] at he ⊢
        subst he
        exact ⟨a, by simp, trivial, asU32_of_lt (by omega), rfl, rfl, rfl⟩
    | createMbvh => simp at he
    | refit => simp at he
    | freeBvh => simp at he
    | freeMbvh => simp at he
  obtain ⟨a, hs, rfl, hid, ha, hnc, hic⟩ := hcr
  rw [← hid] at hs
  obtain ⟨s', hs', hv, hx⟩ := h₂.slot hs
  obtain ⟨x1, x2, x3⟩ := hx hf
  simp only at x1 x2 x3
  exact ⟨s', a, hs', hv, x1, ha, by rw [hnc, asU32_of_lt hn]; omega, by rw [hic, asU32_of_lt hi, x3]⟩

/-- C84 (state by state): at any moment, a query reads through a handle `h` that a creation of `b` returned exactly the
structure left by the calls so far, provided the handle is never freed and no refit of it is under way at that moment.
`lin` is the sequential explanation of C82; `l₂` are the calls after the creation.  Missing: without the provisos it is
false, see `C84_torn_read` and `C84_read_after_free`. -/
theorem C84_read_partial {tr : List (FfiLabel F)} {s : FfiSys F} (hrun : FfiRun .init tr s)
    (hcount : (s.calls.countP fun c => c.1.creates) ≤ 2 ^ 32) {j : Nat} {nulls : Bool} {b : Bvh F} {c : ResultCode} {h : Handle}
    (hinv : .invoke j (.manage (.create nulls (.ok b))) ∈ tr) (hret : .ret j c (some h) ∈ tr)
    (hn : b.nodes.length < 2 ^ 32) (hx : b.primIndices.length < 2 ^ 32)
    (hfree : ∀ k h', .invoke k (.manage (.freeBvh h')) ∈ tr → h'.id ≠ h.id)
    (hrefit : ∀ (k : Nat) op b', s.calls[k]? ≠ some (op, FfiPhase.refitting h.id b')) :
    ∃ lin m l₁ l₂, Linearizes tr lin m ∧ lin = l₁ ++ (j, ⟨.create nulls (.ok b), c, some h⟩) :: l₂ ∧
      s.mem.slices h = some (((l₂.map Prod.snd).foldl (Event.after h.id) b).nodes,
        ((l₂.map Prod.snd).foldl (Event.after h.id) b).primIndices) := by
  obtain ⟨lin, m, hi⟩ := hrun.inv
  have hlin := hi.linearizes
  obtain ⟨l₁, l₂, he⟩ := List.append_of_mem (hlin.returned _ _ _ _ hinv hret)
  refine ⟨lin, m, l₁, l₂, hlin, he, ?_⟩
  have hle := Nat.le_trans (handles_le_calls hi) hcount
  have hhist := hi.hist
  rw [he, List.map_append, List.map_cons] at hhist
  obtain ⟨m₀, hh1, hh2⟩ := hhist.split
  cases hh2 with
  | @cons _ _ m₁ _ _ hc hh2 =>
    have hcnt : (bvhHandles (l₁.map Prod.snd)).length < 2 ^ 32 := by
      have h1 : bvhHandles (lin.map Prod.snd) = bvhHandles (l₁.map Prod.snd) ++ h :: bvhHandles (l₂.map Prod.snd) := by
        rw [he, List.map_append, List.map_cons]
        unfold bvhHandles
        rw [List.filterMap_append]; rfl
      rw [h1] at hle
      simp only [List.length_append, List.length_cons] at hle
      omega
    have hnf : ∀ e ∈ l₂.map Prod.snd, frees h.id e = false := by
      intro e hm
      obtain ⟨⟨k, e'⟩, hk, rfl⟩ := List.mem_map.1 hm
      have hmade := hlin.made k e' (by rw [he]; exact List.mem_append.2 (.inr (List.mem_cons_of_mem _ hk)))
      unfold frees
      cases hcall : e'.call with
      | freeBvh h' => rw [hcall] at hmade; simp [hfree k h' hmade]
      | _ => rfl
    obtain ⟨sl, a, hs, hv, ha, hha, hnc, hic⟩ := created_slot hh1 hc hh2 hcnt hnf hn hx
    have hms : m.slots[h.id]? = s.mem.slots[h.id]? :=
      hi.settled.still _ fun b' hb => by obtain ⟨k, op, hk⟩ := hb; exact hrefit k op b' hk
    have hdm : DistinctAddrs m.slots := (hi.hist.inv inv_empty).slots
    have haddr : ∀ (i : Nat) sl, s.mem.slots[i]? = some sl → ∃ sl', m.slots[i]? = some sl' ∧ sl'.addr = sl.addr := by
      intro i sl hs
      by_cases hr : ∃ b, s.Refits i b
      · obtain ⟨b', hb⟩ := hr
        obtain ⟨sl', e1, e2⟩ := hi.settled.busy i b' hb
        rw [hs] at e1; cases e1
        exact ⟨_, e2, rfl⟩
      · exact ⟨sl, by rw [hi.settled.still i fun b' hb => hr ⟨b', hb⟩]; exact hs, rfl⟩
    have hds : DistinctAddrs s.mem.slots := by
      intro i i' a sl sl' h1 h2 ha ha'
      obtain ⟨x, hx1, hx2⟩ := haddr i sl h1
      obtain ⟨y, hy1, hy2⟩ := haddr i' sl' h2
      exact hdm i i' a x y hx1 hy1 (hx2.trans ha) (hy2.trans ha')
    rw [← hv]
    exact slices_eq hds (by rw [← hms]; exact hs) ha hha hnc hic

theorem foldl_fix {α β : Type} {f : β → α → β} {b : β} {l : List α} (h : ∀ e ∈ l, ∀ b', f b' e = b') : l.foldl f b = b := by
  induction l with
  | nil => rfl
  | cons e l ih => rw [List.foldl_cons, h e (by simp)]; exact ih fun e' he' => h e' (List.mem_cons_of_mem _ he')

/-- C84 (whole queries): if a creation of `b` returned `h` before query `k` was made, and no call ever refits or frees
this id, then everything the query reads through `h` is `b`, whatever other threads do at the same time. -/
theorem C84_query_partial {tr : List (FfiLabel F)} {s : FfiSys F} (hrun : FfiRun .init tr s)
    (hcount : (s.calls.countP fun c => c.1.creates) ≤ 2 ^ 32) {j k : Nat} {nulls : Bool} {b : Bvh F} {c : ResultCode} {h : Handle}
    (hinv : .invoke j (.manage (.create nulls (.ok b))) ∈ tr) (hret : .ret j c (some h) ∈ tr)
    (hbefore : ReturnedBefore tr j k) (hn : b.nodes.length < 2 ^ 32) (hx : b.primIndices.length < 2 ^ 32)
    (hfree : ∀ k h', .invoke k (.manage (.freeBvh h')) ∈ tr → h'.id ≠ h.id)
    (hrefit : ∀ k bs h', .invoke k (.manage (.refit bs h')) ∈ tr → h'.id ≠ h.id)
    {seen : List (Option (List (BvhNode F) × List Nat))} (hk : s.calls[k]? = some (.query h, .reading seen)) :
    ∀ x ∈ seen, x = some (b.nodes, b.primIndices) := by
  induction hrun generalizing seen with
  | nil => cases hinv
  | @snoc tr s' l s'' hr hs ih =>
    obtain ⟨lin, m, hi⟩ := hr.inv
    -- what was seen before the last step
    have hbefore' : s'.calls[k]? ≠ none → ReturnedBefore tr j k := by
      intro hsome
      rcases returnedBefore_snoc hbefore with h1 | ⟨_, op, rfl⟩
      · exact h1
      · cases hs with
        | invoke op => exact absurd (by simp) hsome
    have hearlier : ReturnedBefore tr j k → .invoke j (.manage (.create nulls (.ok b))) ∈ tr ∧ .ret j c (some h) ∈ tr := by
      rintro ⟨tr₁, tr₂, rfl, ⟨c', o', hr'⟩, _⟩
      obtain ⟨opj, hj⟩ := hi.rets j c' o' (List.mem_append.2 (.inl hr'))
      constructor
      · rcases List.mem_append.1 hinv with h1 | h1
        · exact h1
        · simp only [List.mem_singleton] at h1
          subst h1
          cases hs with
          | invoke op => have := lt_of_get hj; omega
      · rcases List.mem_append.1 hret with h1 | h1
        · exact h1
        · simp only [List.mem_singleton] at h1
          subst h1
          cases hs with
          | ret hkj hm =>
            rw [hj] at hkj
            cases hkj
            cases hm
    have hfree' : ∀ k h', .invoke k (.manage (.freeBvh h')) ∈ tr → h'.id ≠ h.id := fun k h' h1 =>
      hfree k h' (List.mem_append.2 (.inl h1))
    have hrefit' : ∀ k bs h', .invoke k (.manage (.refit bs h')) ∈ tr → h'.id ≠ h.id := fun k bs h' h1 =>
      hrefit k bs h' (List.mem_append.2 (.inl h1))
    have hset : ∀ {k' : Nat} {op : FfiOp F} {p' : FfiPhase F} {m'}, s'' = ⟨m', s'.calls.set k' (op, p')⟩ →
        (∃ p, s'.calls[k']? = some (op, p)) → (s'.calls.countP fun c => c.1.creates) ≤ 2 ^ 32 := by
      rintro k' op p' m' rfl ⟨p, hp⟩
      refine Nat.le_trans (Nat.le_of_eq ?_) hcount
      simp only
      have : (s'.calls.set k' (op, p')).map Prod.fst = s'.calls.map Prod.fst := by
        rw [List.map_set]
        apply List.ext_getElem?
        intro i
        by_cases hik : i = k'
        · subst hik
          rw [List.getElem?_set_self (by rw [List.length_map]; exact lt_of_get hp), List.getElem?_map, hp]; rfl
        · rw [List.getElem?_set_ne (Ne.symm hik)]
      have hcp : ∀ l : List (FfiOp F × FfiPhase F), (l.countP fun c => c.1.creates) = (l.map Prod.fst).countP FfiOp.creates := by
        intro l; rw [List.countP_map]; rfl
      rw [hcp, hcp, this]
    have old : ∀ seen', (s'.calls.countP fun c => c.1.creates) ≤ 2 ^ 32 →
        s'.calls[k]? = some (.query h, .reading seen') → ∀ x ∈ seen', x = some (b.nodes, b.primIndices) := by
      intro seen' hc' hk'
      have hb' := hbefore' (by rw [hk']; simp)
      obtain ⟨h1, h2⟩ := hearlier hb'
      exact ih hc' h1 h2 hb' hfree' hrefit' hk'
    cases hs with
    | invoke op =>
      have hc' : (s'.calls.countP fun c => c.1.creates) ≤ 2 ^ 32 := by
        simp only [List.countP_append] at hcount
        omega
      refine old seen hc' ?_
      simp only at hk
      rcases Nat.lt_or_ge k s'.calls.length with hlt | hge
      · rw [List.getElem?_append_left hlt] at hk; exact hk
      · rw [List.getElem?_append_right hge] at hk
        have := lt_of_get hk
        simp only [List.length_singleton] at this
        rw [show k - s'.calls.length = 0 by omega] at hk
        cases hk
    | step hk' hm hl hd =>
      have hc' := hset rfl ⟨_, hk'⟩
      rcases get_set hk (lt_of_get hk') with ⟨rfl, e⟩ | ⟨_, e⟩
      · cases e
        cases hm
        intro x hx; cases hx
      · exact old seen hc' e
    | ret hk' hm =>
      have hc' := hset rfl ⟨_, hk'⟩
      rcases get_set hk (lt_of_get hk') with ⟨rfl, e⟩ | ⟨_, e⟩
      · cases e
      · exact old seen hc' e
    | idle hk' hm =>
      have hc' := hset rfl ⟨_, hk'⟩
      rcases get_set hk (lt_of_get hk') with ⟨rfl, e⟩ | ⟨_, e⟩
      · cases e
        cases hm with
        | @read _ seen' =>
          intro x hx'
          rcases List.mem_append.1 hx' with hx' | hx'
          · exact old seen' hc' hk' x hx'
          · simp only [List.mem_singleton] at hx'
            subst hx'
            have hb' := hbefore' (by rw [hk']; simp)
            obtain ⟨h1, h2⟩ := hearlier hb'
            have hno : ∀ (k : Nat) op b', s'.calls[k]? ≠ some (op, FfiPhase.refitting h.id b') := by
              intro k op b' hkk
              obtain ⟨_, bs, h', rfl, _, hid, _⟩ := hi.phase k _ _ hkk
              exact hrefit' k _ h' ((hi.invoked _ _).2 ⟨_, hkk⟩) hid.symm
            obtain ⟨lin', m', l₁, l₂, hlin, he, hsl⟩ := C84_read_partial hr hc' h1 h2 hn hx hfree' hno
            have hmem : ∀ e ∈ l₂.map Prod.snd, ∀ b', Event.after h.id b' e = b' := by
              intro e hm b'
              obtain ⟨⟨k, e'⟩, hk, rfl⟩ := List.mem_map.1 hm
              have hmade := hlin.made k e' (by rw [he]; exact List.mem_append.2 (.inr (List.mem_cons_of_mem _ hk)))
              unfold Event.after
              cases hcall : e'.call with
              | freeBvh h' => rw [hcall] at hmade; simp [hfree' k h' hmade]
              | refit bs h' => rw [hcall] at hmade; cases bs <;> simp [hrefit' k _ h' hmade]
              | _ => rfl
            have hfold : (l₂.map Prod.snd).foldl (Event.after h.id) b = b := foldl_fix hmem
            rw [hsl, hfold]
      · exact old seen hc' e

/-! The provisos are needed, and the theorems apply to real uses. -/

omit [FloatOps F] in
/-- The locks a step takes are not held by any other call. -/
theorem lock_ok {s : FfiSys F} {k : Nat} {p p' : FfiPhase F}
    (h : ∀ c ∈ s.calls.eraseIdx k, ∀ x ∈ c.2.held, ∀ y ∈ p'.held, x.1 = y.1 → LockMode.conflict y.2 x.2 = false) :
    ∀ l mode, (l, mode) ∈ p'.held → (l, mode) ∉ p.held → ¬ s.Held k l mode := by
  rintro l mode h1 _ ⟨j, op, q, mode', hj, hc, hq, hcf⟩
  have hm : (op, q) ∈ s.calls.eraseIdx k := List.mem_eraseIdx_iff_getElem?.2 ⟨j, hj, hc⟩
  have := h _ hm (l, mode') hq (l, mode) h1 rfl
  simp only at this
  rw [this] at hcf
  cases hcf

/-- A step of a call while no lock it takes is held. -/
theorem FfiRun.go {s₀ s : FfiSys F} {tr : List (FfiLabel F)} {k : Nat} {op : FfiOp F} {p p' : FfiPhase F} {m' : Manager F}
    (h : FfiRun s₀ tr s) (hk : s.calls[k]? = some (op, p)) (hm : FfiMove s op p p' m')
    (hl : ∀ c ∈ s.calls.eraseIdx k, ∀ x ∈ c.2.held, ∀ y ∈ p'.held, x.1 = y.1 → LockMode.conflict y.2 x.2 = false) :
    FfiRun s₀ (tr ++ [moveLabel k p']) ⟨m', s.calls.set k (op, p')⟩ := by
  cases p' with
  | done c o => exact h.snoc (.ret hk hm)
  | _ => exact h.snoc (.step hk hm (lock_ok hl) (by intro c o e; cases e))

/-- Nobody holds a lock. -/
def FfiSys.Idle (s : FfiSys F) : Prop := ∀ c ∈ s.calls, c.2.held = []

theorem FfiRun.alone {s₀ s s₁ : FfiSys F} {tr : List (FfiLabel F)} {k : Nat} {op : FfiOp F} {p p' : FfiPhase F}
    {m' : Manager F} (h : FfiRun s₀ tr ⟨s₁.mem, s.calls ++ [(op, p)]⟩) (hs : s.Idle) (hk : k = s.calls.length)
    (hm : FfiMove ⟨s₁.mem, s.calls ++ [(op, p)]⟩ op p p' m') :
    FfiRun s₀ (tr ++ [moveLabel k p']) ⟨m', s.calls ++ [(op, p')]⟩ := by
  subst hk
  have := h.go (k := s.calls.length) (by simp) hm (by
    intro c hc x hx
    rw [List.eraseIdx_append_of_length_le (Nat.le_refl _)] at hc
    simp only [Nat.sub_self, List.eraseIdx_cons_zero, List.append_nil] at hc
    rw [hs c hc] at hx; cases hx)
  simpa using this

/-- A creation that nobody disturbs. -/
theorem create_alone {s : FfiSys F} (hs : s.Idle) (b : Bvh F) {a : Nat} (ha : s.Fresh a) :
    ∃ tr, FfiRun s tr ⟨{ s.mem with slots := s.mem.slots ++ [⟨b, some a⟩] },
        s.calls ++ [(.manage (.create false (.ok b)), .done .ok (some (Slot.handle ⟨b, some a⟩ s.mem.slots.length)))]⟩ ∧
      .invoke s.calls.length (.manage (.create false (.ok b))) ∈ tr ∧
      .ret s.calls.length .ok (some (Slot.handle ⟨b, some a⟩ s.mem.slots.length)) ∈ tr := by
  have r0 : FfiRun s _ _ := FfiRun.nil.snoc (.invoke (.manage (.create false (.ok b))))
  have r1 := FfiRun.alone (s₁ := s) r0 hs rfl (.createBuild (a := a) ⟨ha.1, fun c hc => by
    rcases List.mem_append.1 hc with hc | hc
    · exact ha.2 c hc
    · simp only [List.mem_singleton] at hc; subst hc; simp [FfiPhase.buffer]⟩)
  have r2 := FfiRun.alone (s₁ := s) r1 hs rfl .createLock
  have r3 := FfiRun.alone (s₁ := s) r2 hs rfl .createPush
  have r4 := FfiRun.alone (s₁ := ⟨_, s.calls⟩) r3 hs rfl .createRead
  have r5 := FfiRun.alone (s₁ := ⟨_, s.calls⟩) r4 hs rfl (.createHandle (sl := ⟨b, some a⟩) (by simp))
  have r6 := FfiRun.alone (s₁ := ⟨_, s.calls⟩) r5 hs rfl .unlock
  have r7 := FfiRun.alone (s₁ := ⟨_, s.calls⟩) r6 hs rfl .unlock
  have r8 := FfiRun.alone (s₁ := ⟨_, s.calls⟩) r7 hs rfl .leave
  refine ⟨_, r8, ?_, ?_⟩
  · simp
  · simp [moveLabel]

/-- New boxes for the two primitives of `twoBvh`. -/
def shiftedBoxes : List (Aabb F32) := [twoBoxes 1, twoBoxes 0]
/-- The handle of the first structure. -/
def firstHandle : Handle := ⟨0, 3, 2, some 64⟩
/-- What a creation of `twoBvh` leaves behind. -/
def oneCreated : FfiSys F32 :=
  ⟨⟨[⟨twoBvh, some 64⟩], []⟩, [(.manage (.create false (.ok twoBvh)), .done .ok (some firstHandle))]⟩

theorem oneCreated_run : ∃ tr, FfiRun .init tr oneCreated ∧ .invoke 0 (.manage (.create false (.ok twoBvh))) ∈ tr ∧
    .ret 0 .ok (some firstHandle) ∈ tr := by
  obtain ⟨tr, h1, h2, h3⟩ := create_alone (s := (.init : FfiSys F32)) (by intro c hc; cases hc) twoBvh (a := 64)
    ⟨⟨(by intro s hs; cases hs), (by intro s hs; cases hs)⟩, (by intro s hs; cases hs)⟩
  exact ⟨tr, h1, h2, h3⟩

/-- The nodes of `twoBvh` in the middle of a refit: `Bvh::refit` goes through the nodes backwards and has only done the
last one. -/
def halfRefitted : List (BvhNode F32) :=
  twoBvh.nodes.take 2 ++ ((twoBvh.refit shiftedBoxes).getD Bvh.default).nodes.drop 2

/-- C84 is false with a refit under way: the query functions take no lock, so while one thread is in `refit` a query reads
a half refitted structure, neither the old nor the new one. -/
theorem C84_torn_read : ∃ (b' : Bvh F32) (tr tr' : List (FfiLabel F32)) (s : FfiSys F32) (v : List (BvhNode F32) × List Nat),
    FfiRun .init tr oneCreated ∧ twoBvh.refit shiftedBoxes = some b' ∧ FfiRun oneCreated tr' s ∧
    s.calls[1]? = some (.query firstHandle, .reading [some (twoBvh.nodes, twoBvh.primIndices), some v]) ∧
    s.calls[2]? = some (.manage (.refit (some shiftedBoxes) firstHandle), .refitting 0 twoBvh) ∧
    v.1 ≠ twoBvh.nodes ∧ v.1 ≠ b'.nodes := by
  obtain ⟨tr, hrun, _⟩ := oneCreated_run
  have e : ∃ b', twoBvh.refit shiftedBoxes = some b' := Option.isSome_iff_exists.1 (by decide +kernel)
  obtain ⟨b', hb'⟩ := e
  have r1 : FfiRun oneCreated _ _ := FfiRun.nil.snoc (.invoke (.query firstHandle))
  have r2 := r1.go (k := 1) rfl .qStart (by decide)
  have r3 := r2.snoc (.idle (k := 1) rfl .read)
  have r4 := r3.snoc (.invoke (.manage (.refit (some shiftedBoxes) firstHandle)))
  have r5 := r4.go (k := 2) rfl (.rLook rfl) (by decide)
  have r6 := r5.go (k := 2) rfl (.rLock (sl := ⟨twoBvh, some 64⟩) rfl) (by decide)
  have r7 := r6.snoc (.idle (k := 2) rfl (.scribble (sl := ⟨twoBvh, some 64⟩) (nodes := halfRefitted) rfl (by decide +kernel)))
  have r8 := r7.snoc (.idle (k := 1) rfl .read)
  refine ⟨b', tr, _, _, (halfRefitted, twoBvh.primIndices), hrun, hb', r8, ?_, rfl, ?_, ?_⟩
  · rfl
  · unfold halfRefitted; decide +kernel
  · have : b'.nodes = ((twoBvh.refit shiftedBoxes).getD Bvh.default).nodes := by rw [hb']; rfl
    rw [this]
    unfold halfRefitted; decide +kernel

/-- C84 is false with a free under way: a query that began with a valid handle goes on reading after `free_bvh` has
returned on another thread, when the buffers are gone. -/
theorem C84_read_after_free : ∃ (tr tr' : List (FfiLabel F32)) (s : FfiSys F32),
    FfiRun .init tr oneCreated ∧ FfiRun oneCreated tr' s ∧
    s.calls[1]? = some (.query firstHandle, .reading [some (twoBvh.nodes, twoBvh.primIndices), none]) ∧
    s.calls[2]? = some (.manage (.freeBvh firstHandle), .done .ok none) := by
  obtain ⟨tr, hrun, _⟩ := oneCreated_run
  have r1 : FfiRun oneCreated _ _ := FfiRun.nil.snoc (.invoke (.query firstHandle))
  have r2 := r1.go (k := 1) rfl .qStart (by decide)
  have r3 := r2.snoc (.idle (k := 1) rfl .read)
  have r4 := r3.snoc (.invoke (.manage (.freeBvh firstHandle)))
  have r5 := r4.go (k := 2) rfl .fLock (by decide)
  have r6 := r5.go (k := 2) rfl .fFree (by decide)
  have r7 := r6.go (k := 2) rfl .unlock (by decide)
  have r8 := r7.go (k := 2) rfl .leave (by decide)
  have r9 := r8.snoc (.idle (k := 1) rfl .read)
  exact ⟨tr, _, _, hrun, r9, rfl, rfl⟩

/-- Non-vacuity of C82, C83 and C84: a creation; then a query, a second creation that interleaves with it and is in the
middle of `store`, and a third creation that must wait. -/
example : ∃ (tr : List (FfiLabel F32)) (s : FfiSys F32), FfiRun .init tr s ∧
    s.calls[1]? = some (.query firstHandle, .reading [some (twoBvh.nodes, twoBvh.primIndices)]) ∧
    (∃ b, s.calls[2]? = some (.manage (.create false (.ok b)), .stored 1 128)) ∧ s.Refused 3 .structures .write ∧
    ReturnedBefore tr 0 1 := by
  obtain ⟨tr, hrun, _, hret⟩ := oneCreated_run
  have r1 : FfiRun oneCreated _ _ := FfiRun.nil.snoc (.invoke (.query firstHandle))
  have r2 := r1.go (k := 1) rfl .qStart (by decide)
  have r3 := r2.snoc (.invoke (.manage (.create false (.ok (leafBvh 0)))))
  have r4 := r3.go (k := 2) rfl (.createBuild (a := 128) ⟨⟨by decide, by decide⟩, by decide⟩) (by decide)
  have r5 := r4.snoc (.invoke (.manage (.create false (.ok (leafBvh 7)))))
  have r6 := r5.go (k := 3) rfl (.createBuild (a := 256) ⟨⟨by decide, by decide⟩, by decide⟩) (by decide)
  have r7 := r6.go (k := 2) rfl .createLock (by decide)
  have r8 := r7.snoc (.idle (k := 1) rfl .read)
  have r9 := r8.go (k := 2) rfl .createPush (by decide)
  refine ⟨_, _, hrun.trans r9, rfl, ⟨_, rfl⟩, .inl ⟨2, _, _, .write, by decide, rfl, by decide, rfl⟩, tr, _, rfl, ⟨_, _, hret⟩, ?_⟩
  exact ⟨.query firstHandle, by simp [oneCreated]⟩

end Rtbvh
