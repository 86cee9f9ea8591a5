import Verif.Spec.Ffi
/- Lemmas on the structure manager and the callback loops. -/
namespace Rtbvh
variable {F : Type}

section loops
variable {σ T D : Type} {proj : σ → T × D} {cb : Nat → T → D → T × D × Bool} {body : σ → Nat → σ × Bool}

/-- A loop whose body hands `t` and the user's data to a callback makes a chain of callbacks. -/
theorem drive_chain (hb : ∀ s id, proj (body s id).1 = ((cb id (proj s).1 (proj s).2).1, (cb id (proj s).1 (proj s).2).2.1) ∧
      (body s id).2 = (cb id (proj s).1 (proj s).2).2.2)
    {step : Trav σ → Step σ Nat} (hc : ∀ t t', step t = .cont t' → t'.ray = t.ray)
    (hy : ∀ t x t', step t = .yield x t' → t'.ray = t.ray) (fuel : Nat) (t : Trav σ) :
    CallChain cb (drive step body fuel t).items (proj t.ray).1 (proj t.ray).2 (proj (drive step body fuel t).ray).1
      (proj (drive step body fuel t).ray).2 (decide ((drive step body fuel t).ending = .stopped)) := by
  induction fuel generalizing t with
  | zero => exact .nil
  | succ fuel ih =>
    cases e : step t with
    | done => simp only [drive, e]; exact .nil
    | panic => simp only [drive, e]; exact .nil
    | cont t' =>
      simp only [drive, e]
      have := ih t'
      rw [hc t t' e] at this
      exact this
    | yield x t' =>
      have hr := hy t x t' e
      obtain ⟨h1, h2⟩ := hb t'.ray x
      rw [hr] at h1 h2
      cases hbd : body t'.ray x with
      | mk r b =>
        rw [hr] at hbd
        rw [hbd] at h1 h2
        cases b with
        | true =>
          simp only [drive, e, hr, hbd]
          simp only at h1 h2
          have : CallChain cb [x] (proj t.ray).1 (proj t.ray).2 (proj r).1 (proj r).2 true := by
            refine .stop ?_
            rw [h1]
            exact Prod.ext rfl (Prod.ext rfl h2.symm)
          simpa using this
        | false =>
          simp only [drive, e, hr, hbd, Run.cons]
          refine .next ?_ (ih { t' with ray := r })
          simp only at h1 h2
          simp only [h1]
          exact Prod.ext rfl (Prod.ext rfl h2.symm)

theorem qdrive_chain (hb : ∀ s id, proj (body s id).1 = ((cb id (proj s).1 (proj s).2).1, (cb id (proj s).1 (proj s).2).2.1) ∧
      (body s id).2 = (cb id (proj s).1 (proj s).2).2.2)
    {step : QTrav σ → QStep σ Nat} (hc : ∀ t t', step t = .cont t' → t'.ray = t.ray)
    (hy : ∀ t x t', step t = .yield x t' → t'.ray = t.ray) (fuel : Nat) (t : QTrav σ) :
    CallChain cb (qdrive step body fuel t).items (proj t.ray).1 (proj t.ray).2 (proj (qdrive step body fuel t).ray).1
      (proj (qdrive step body fuel t).ray).2 (decide ((qdrive step body fuel t).ending = .stopped)) := by
  induction fuel generalizing t with
  | zero => exact .nil
  | succ fuel ih =>
    cases e : step t with
    | done => simp only [qdrive, e]; exact .nil
    | panic => simp only [qdrive, e]; exact .nil
    | cont t' =>
      simp only [qdrive, e]
      have := ih t'
      rw [hc t t' e] at this
      exact this
    | yield x t' =>
      have hr := hy t x t' e
      obtain ⟨h1, h2⟩ := hb t'.ray x
      rw [hr] at h1 h2
      cases hbd : body t'.ray x with
      | mk r b =>
        rw [hr] at hbd
        rw [hbd] at h1 h2
        cases b with
        | true =>
          simp only [qdrive, e, hr, hbd]
          simp only at h1 h2
          have : CallChain cb [x] (proj t.ray).1 (proj t.ray).2 (proj r).1 (proj r).2 true := by
            refine .stop ?_
            rw [h1]
            exact Prod.ext rfl (Prod.ext rfl h2.symm)
          simpa using this
        | false =>
          simp only [qdrive, e, hr, hbd, Run.cons]
          refine .next ?_ (ih { t' with ray := r })
          simp only at h1 h2
          simp only [h1]
          exact Prod.ext rfl (Prod.ext rfl h2.symm)
end loops

section steps
variable {σ τ : Type}

theorem bvhIndexStep_ray (nodes : List (BvhNode F)) (indices : List Nat) (hit : Aabb F → σ → Option τ)
    (closer : τ → τ → Bool) (t : Trav σ) :
    (∀ t', bvhIndexStep nodes indices hit closer t = .cont t' → t'.ray = t.ray) ∧
    (∀ x t', bvhIndexStep nodes indices hit closer t = .yield x t' → t'.ray = t.ray) := by
  unfold bvhIndexStep
  simp only
  split
  · simp
  · split
    · simp
    · split
      · split
        · split
          · simp
          · refine ⟨by simp, ?_⟩
            rintro x t' h
            simp only [Step.yield.injEq] at h
            rw [← h.2]
        · refine ⟨?_, by simp⟩
          rintro t' h
          simp only [Step.cont.injEq] at h
          rw [← h]
      · split
        · split
          · split
            · simp
            · refine ⟨?_, by simp⟩
              rintro t' h
              simp only [Step.cont.injEq] at h
              rw [← h]
          · simp
        · refine ⟨?_, by simp⟩
          rintro t' h
          simp only [Step.cont.injEq] at h
          rw [← h]

theorem quadStep_ray (nodes : List (MbvhNode F)) (indices : List Nat) (item : Nat → Option Nat)
    (hit : Vec4 (Aabb F) → σ → MbvhHit) (t : QTrav σ) :
    (∀ t', quadStep nodes indices item hit t = .cont t' → t'.ray = t.ray) ∧
    (∀ x t', quadStep nodes indices item hit t = .yield x t' → t'.ray = t.ray) := by
  have cont : ∀ u : QTrav σ, u.ray = t.ray →
      (∀ t', QStep.cont (ι := Nat) u = .cont t' → t'.ray = t.ray) ∧ (∀ x t', QStep.cont (ι := Nat) u = .yield x t' → t'.ray = t.ray) := by
    intro u hu
    refine ⟨fun t' h => ?_, fun x t' h => by simp at h⟩
    simp only [QStep.cont.injEq] at h
    rw [← h, hu]
  unfold quadStep
  simp only
  split
  · split
    · simp
    · split
      · simp
      · exact cont _ rfl
  · split
    · split
      · simp
      · split
        · split
          · split
            · simp
            · split
              · refine ⟨by simp, ?_⟩
                rintro x t' h
                simp only [QStep.yield.injEq] at h
                rw [← h.2]
              · exact cont _ rfl
          · exact cont _ rfl
        · split
          · split
            · simp
            · exact cont _ rfl
          · exact cont _ rfl
    · exact cont _ rfl
end steps

/-! ### Manager -/

theorem refit_lengths [FloatOps F] {b b' : Bvh F} {bs : List (Aabb F)} (h : b.refit bs = some b') :
    b'.nodes.length = b.nodes.length ∧ b'.primIndices = b.primIndices := by
  have loop : ∀ (i : Nat) (nodes nodes' : List (BvhNode F)), refitLoop b.primIndices bs i nodes = some nodes' →
      nodes'.length = nodes.length := by
    intro i
    induction i with
    | zero => intro nodes nodes' h; simp only [refitLoop, Option.some.injEq] at h; rw [h]
    | succ i ih =>
      intro nodes nodes' h
      simp only [refitLoop] at h
      split at h
      · simp at h
      · split at h
        · simp at h
        · have := ih _ _ h
          simpa using this
  unfold Bvh.refit at h
  obtain ⟨nodes, h1, rfl⟩ := Option.map_eq_some_iff.1 h
  exact ⟨loop _ _ _ h1, rfl⟩

/-- Different entries of the list have different addresses (if any). -/
def DistinctAddrs {S : Type} (l : List (Slot S)) : Prop :=
  ∀ (i j a : Nat) (s s' : Slot S), l[i]? = some s → l[j]? = some s' → s.addr = some a → s'.addr = some a → i = j

/-- Live structures have their buffers at different addresses. -/
structure Manager.Inv (m : Manager F) : Prop where
  slots : DistinctAddrs m.slots
  mslots : DistinctAddrs m.mslots

theorem inv_push {S : Type} {l : List (Slot S)} {x : S} {a : Nat}
    (h : DistinctAddrs l)
    (hf : ∀ s ∈ l, s.addr ≠ some a) :
    DistinctAddrs (l ++ [⟨x, some a⟩]) := by
  have case : ∀ (i : Nat) (s : Slot S), (l ++ [⟨x, some a⟩])[i]? = some s → l[i]? = some s ∨ (i = l.length ∧ s.addr = some a) := by
    intro i s hi
    rcases Nat.lt_trichotomy i l.length with hlt | heq | hgt
    · rw [List.getElem?_append_left hlt] at hi; exact .inl hi
    · subst heq; simp at hi; exact .inr ⟨rfl, by rw [← hi]⟩
    · rw [List.getElem?_eq_none (by simp; omega)] at hi; simp at hi
  intro i j a' s s' hi hj ha ha'
  rcases case i s hi with h1 | ⟨h1, h1'⟩ <;> rcases case j s' hj with h2 | ⟨h2, h2'⟩
  · exact h i j a' s s' h1 h2 ha ha'
  · rw [h2'] at ha'
    cases ha'
    exact absurd ha (hf s (List.mem_of_getElem? h1))
  · rw [h1'] at ha
    cases ha
    exact absurd ha' (hf s' (List.mem_of_getElem? h2))
  · omega

theorem inv_set {S : Type} {l : List (Slot S)} {k : Nat} {y : Slot S}
    (h : DistinctAddrs l)
    (hy : ∀ a, y.addr = some a → ∃ s, l[k]? = some s ∧ s.addr = some a) :
    DistinctAddrs (l.set k y) := by
  have case : ∀ (i : Nat) (s : Slot S) (a : Nat), (l.set k y)[i]? = some s → s.addr = some a →
      ∃ s', l[i]? = some s' ∧ s'.addr = some a := by
    intro i s a hi ha
    rw [List.getElem?_set] at hi
    split at hi
    · rename_i hik
      subst hik
      split at hi
      · cases hi; exact hy a ha
      · simp at hi
    · exact ⟨s, hi, ha⟩
  intro i j a s s' hi hj ha ha'
  obtain ⟨t, t1, t2⟩ := case i s a hi ha
  obtain ⟨t', t1', t2'⟩ := case j s' a hj ha'
  exact h i j a t t' t1 t1' t2 t2'

/-- What one call does to the lists. -/
theorem Calls.inv [FloatOps F] {m m' : Manager F} {e : Event F} (h : Calls m e m') (hi : m.Inv) : m'.Inv := by
  cases h with
  | create nulls r a hf =>
    unfold Manager.create
    split
    · exact hi
    · split
      · exact ⟨inv_push hi.slots hf.1, hi.mslots⟩
      · exact hi
  | createMbvh fuel h nulls a hf he =>
    unfold Manager.createMbvh at he
    split at he
    · simp only [Option.some.injEq, Prod.mk.injEq] at he; rw [← he.1]; exact hi
    · split at he
      · simp only [Option.some.injEq, Prod.mk.injEq] at he; rw [← he.1]; exact hi
      · obtain ⟨q, _, h2⟩ := Option.map_eq_some_iff.1 he
        simp only [Prod.mk.injEq] at h2
        rw [← h2.1]
        exact ⟨hi.slots, inv_push hi.mslots hf.2⟩
  | refit aabbs h he =>
    unfold Manager.refit at he
    split at he
    · simp only [Option.some.injEq, Prod.mk.injEq] at he; rw [← he.1]; exact hi
    · split at he
      · simp only [Option.some.injEq, Prod.mk.injEq] at he; rw [← he.1]; exact hi
      · split at he
        · simp only [Option.some.injEq, Prod.mk.injEq] at he; rw [← he.1]; exact hi
        · split at he
          · simp at he
          · rename_i s hs _
            obtain ⟨q, _, h2⟩ := Option.map_eq_some_iff.1 he
            simp only [Prod.mk.injEq] at h2
            rw [← h2.1]
            exact ⟨inv_set hi.slots fun a ha => ⟨s, hs, ha⟩, hi.mslots⟩
  | freeBvh h =>
    unfold Manager.freeBvh
    split
    · exact ⟨inv_set hi.slots fun a ha => by simp at ha, hi.mslots⟩
    · exact hi
  | freeMbvh h =>
    unfold Manager.freeMbvh
    split
    · exact ⟨hi.slots, inv_set hi.mslots fun a ha => by simp at ha⟩
    · exact hi

/-- The effect of one call on slot `id` of the BVH list. -/
theorem Calls.slot [FloatOps F] {m m' : Manager F} {e : Event F} (h : Calls m e m') {id : Nat} {s : Slot (Bvh F)}
    (hs : m.slots[id]? = some s) :
    ∃ s', m'.slots[id]? = some s' ∧ s'.val = e.after id s.val ∧
      (frees id e = false → s'.addr = s.addr ∧ s'.val.nodes.length = s.val.nodes.length ∧
        s'.val.primIndices = s.val.primIndices) := by
  have hlt : id < m.slots.length := (List.getElem?_eq_some_iff.1 hs).1
  cases h with
  | create nulls r a hf =>
    refine ⟨s, ?_, rfl, fun _ => ⟨rfl, rfl, rfl⟩⟩
    unfold Manager.create
    split
    · exact hs
    · split
      · simp only [Manager.store]; rw [List.getElem?_append_left hlt]; exact hs
      · exact hs
  | createMbvh fuel h nulls a hf he =>
    refine ⟨s, ?_, rfl, fun _ => ⟨rfl, rfl, rfl⟩⟩
    unfold Manager.createMbvh at he
    split at he
    · simp only [Option.some.injEq, Prod.mk.injEq] at he; rw [← he.1]; exact hs
    · split at he
      · simp only [Option.some.injEq, Prod.mk.injEq] at he; rw [← he.1]; exact hs
      · obtain ⟨q, _, h2⟩ := Option.map_eq_some_iff.1 he
        simp only [Prod.mk.injEq] at h2
        rw [← h2.1]
        exact hs
  | refit aabbs h he =>
    unfold Manager.refit at he
    split at he
    · simp only [Option.some.injEq, Prod.mk.injEq] at he; rw [← he.1]
      exact ⟨s, hs, rfl, fun _ => ⟨rfl, rfl, rfl⟩⟩
    · rename_i bs
      split at he
      · rename_i hn
        simp only [Option.some.injEq, Prod.mk.injEq] at he; rw [← he.1]
        refine ⟨s, hs, ?_, fun _ => ⟨rfl, rfl, rfl⟩⟩
        simp only [Event.after]
        rw [if_neg]
        rintro ⟨_, h2⟩
        rw [Option.isNone_iff_eq_none] at hn
        rw [hn] at h2; simp at h2
      · rename_i hn
        split at he
        · rename_i hnone
          simp only [Option.some.injEq, Prod.mk.injEq] at he; rw [← he.1]
          refine ⟨s, hs, ?_, fun _ => ⟨rfl, rfl, rfl⟩⟩
          simp only [Event.after]
          rw [if_neg]
          rintro ⟨h2, _⟩
          rw [h2, hs] at hnone; simp at hnone
        · rename_i s0 hs0
          split at he
          · simp at he
          · obtain ⟨b', hb', h2⟩ := Option.map_eq_some_iff.1 he
            simp only [Prod.mk.injEq] at h2
            rw [← h2.1]
            obtain ⟨l1, l2⟩ := refit_lengths hb'
            by_cases hid : h.id = id
            · subst hid
              rw [hs] at hs0
              cases hs0
              refine ⟨{ s with val := b' }, ?_, ?_, fun _ => ⟨rfl, l1, l2⟩⟩
              · simp [List.getElem?_set, hlt]
              · simp only [Event.after]
                rw [if_pos (by cases hq : h.addr <;> simp_all), show s.val.primIndices.length = s.val.primCount from rfl, hb']; rfl
            · refine ⟨s, ?_, ?_, fun _ => ⟨rfl, rfl, rfl⟩⟩
              · simp [List.getElem?_set, hid, hs]
              · simp only [Event.after]; rw [if_neg (fun h => hid h.1)]
  | freeBvh h =>
    unfold Manager.freeBvh
    by_cases hid : h.id = id
    · subst hid
      rw [if_pos hlt]
      refine ⟨⟨Bvh.default, none⟩, by simp [List.getElem?_set, hlt], ?_, ?_⟩
      · simp [Event.after]
      · simp [frees]
    · refine ⟨s, ?_, ?_, fun _ => ⟨rfl, rfl, rfl⟩⟩
      · split
        · simp [List.getElem?_set, hid, hs]
        · exact hs
      · simp [Event.after, hid]
  | freeMbvh h =>
    refine ⟨s, ?_, rfl, fun _ => ⟨rfl, rfl, rfl⟩⟩
    unfold Manager.freeMbvh
    split
    · exact hs
    · exact hs

/-- The effect of one call on slot `id` of the MBVH list. -/
theorem Calls.mslot [FloatOps F] {m m' : Manager F} {e : Event F} (h : Calls m e m') {id : Nat} {s : Slot (Mbvh F)}
    (hs : m.mslots[id]? = some s) :
    ∃ s', m'.mslots[id]? = some s' ∧ s'.val = e.afterM id s.val ∧ (freesM id e = false → s' = s) := by
  have hlt : id < m.mslots.length := (List.getElem?_eq_some_iff.1 hs).1
  cases h with
  | create nulls r a hf =>
    refine ⟨s, ?_, rfl, fun _ => rfl⟩
    unfold Manager.create
    split
    · exact hs
    · split
      · exact hs
      · exact hs
  | createMbvh fuel h nulls a hf he =>
    refine ⟨s, ?_, rfl, fun _ => rfl⟩
    unfold Manager.createMbvh at he
    split at he
    · simp only [Option.some.injEq, Prod.mk.injEq] at he; rw [← he.1]; exact hs
    · split at he
      · simp only [Option.some.injEq, Prod.mk.injEq] at he; rw [← he.1]; exact hs
      · obtain ⟨q, _, h2⟩ := Option.map_eq_some_iff.1 he
        simp only [Prod.mk.injEq] at h2
        rw [← h2.1]
        simp only [Manager.storeMbvh]; rw [List.getElem?_append_left hlt]; exact hs
  | refit aabbs h he =>
    refine ⟨s, ?_, rfl, fun _ => rfl⟩
    unfold Manager.refit at he
    split at he
    · simp only [Option.some.injEq, Prod.mk.injEq] at he; rw [← he.1]; exact hs
    · split at he
      · simp only [Option.some.injEq, Prod.mk.injEq] at he; rw [← he.1]; exact hs
      · split at he
        · simp only [Option.some.injEq, Prod.mk.injEq] at he; rw [← he.1]; exact hs
        · split at he
          · simp at he
          · obtain ⟨q, _, h2⟩ := Option.map_eq_some_iff.1 he
            simp only [Prod.mk.injEq] at h2
            rw [← h2.1]
            exact hs
  | freeBvh h =>
    refine ⟨s, ?_, rfl, fun _ => rfl⟩
    unfold Manager.freeBvh
    split
    · exact hs
    · exact hs
  | freeMbvh h =>
    unfold Manager.freeMbvh
    by_cases hid : h.id = id
    · subst hid
      rw [if_pos hlt]
      refine ⟨⟨Mbvh.default, none⟩, by simp [List.getElem?_set, hlt], ?_, ?_⟩
      · simp [Event.afterM]
      · simp [freesM]
    · refine ⟨s, ?_, ?_, fun _ => rfl⟩
      · split
        · simp [List.getElem?_set, hid, hs]
        · exact hs
      · simp [Event.afterM, hid]

/-- A call either leaves the two lengths or creates one structure, whose handle carries the old length as its id. -/
theorem Calls.lengths [FloatOps F] {m m' : Manager F} {e : Event F} (h : Calls m e m') :
    (m'.slots.length = m.slots.length + (bvhHandles [e]).length ∧
      (bvhHandles [e]).map Handle.id = (List.range' m.slots.length (bvhHandles [e]).length).map natAsU32) ∧
    (m'.mslots.length = m.mslots.length + (mbvhHandles [e]).length ∧
      (mbvhHandles [e]).map Handle.id = (List.range' m.mslots.length (mbvhHandles [e]).length).map natAsU32) := by
  cases h with
  | create nulls r a hf =>
    cases nulls <;> cases r <;> simp [Manager.create, Manager.store, bvhHandles, mbvhHandles, List.range']
  | createMbvh fuel h nulls a hf he =>
    unfold Manager.createMbvh at he
    split at he
    · simp only [Option.some.injEq, Prod.mk.injEq] at he
      obtain ⟨rfl, rfl, rfl⟩ := he
      simp [bvhHandles, mbvhHandles]
    · split at he
      · simp only [Option.some.injEq, Prod.mk.injEq] at he
        obtain ⟨rfl, rfl, rfl⟩ := he
        simp [bvhHandles, mbvhHandles]
      · obtain ⟨q, _, h2⟩ := Option.map_eq_some_iff.1 he
        simp only [Prod.mk.injEq] at h2
        obtain ⟨rfl, rfl, rfl⟩ := h2
        simp [bvhHandles, mbvhHandles, Manager.storeMbvh, List.range']
  | refit aabbs h he =>
    have : m'.slots.length = m.slots.length ∧ m'.mslots.length = m.mslots.length := by
      unfold Manager.refit at he
      split at he
      · simp only [Option.some.injEq, Prod.mk.injEq] at he; rw [← he.1]; exact ⟨rfl, rfl⟩
      · split at he
        · simp only [Option.some.injEq, Prod.mk.injEq] at he; rw [← he.1]; exact ⟨rfl, rfl⟩
        · split at he
          · simp only [Option.some.injEq, Prod.mk.injEq] at he; rw [← he.1]; exact ⟨rfl, rfl⟩
          · split at he
            · simp at he
            · obtain ⟨q, _, h2⟩ := Option.map_eq_some_iff.1 he
              simp only [Prod.mk.injEq] at h2
              rw [← h2.1]
              simp
    simp [bvhHandles, mbvhHandles, this]
  | freeBvh h =>
    have : (m.freeBvh h).slots.length = m.slots.length ∧ (m.freeBvh h).mslots.length = m.mslots.length := by
      unfold Manager.freeBvh; split <;> simp
    simp [bvhHandles, mbvhHandles, this]
  | freeMbvh h =>
    have : (m.freeMbvh h).slots.length = m.slots.length ∧ (m.freeMbvh h).mslots.length = m.mslots.length := by
      unfold Manager.freeMbvh; split <;> simp
    simp [bvhHandles, mbvhHandles, this]

theorem bvhHandles_cons (e : Event F) (es : List (Event F)) : bvhHandles (e :: es) = bvhHandles [e] ++ bvhHandles es := by
  simp only [bvhHandles, List.filterMap_cons, List.filterMap_nil]
  split <;> simp
theorem mbvhHandles_cons (e : Event F) (es : List (Event F)) : mbvhHandles (e :: es) = mbvhHandles [e] ++ mbvhHandles es := by
  simp only [mbvhHandles, List.filterMap_cons, List.filterMap_nil]
  split <;> simp

theorem History.lengths [FloatOps F] {m m' : Manager F} {es : List (Event F)} (h : History m es m') :
    (m'.slots.length = m.slots.length + (bvhHandles es).length ∧
      (bvhHandles es).map Handle.id = (List.range' m.slots.length (bvhHandles es).length).map natAsU32) ∧
    (m'.mslots.length = m.mslots.length + (mbvhHandles es).length ∧
      (mbvhHandles es).map Handle.id = (List.range' m.mslots.length (mbvhHandles es).length).map natAsU32) := by
  induction h with
  | nil => simp [bvhHandles, mbvhHandles]
  | @cons m e m1 es m2 hc _ ih =>
    obtain ⟨⟨a1, a2⟩, b1, b2⟩ := hc.lengths
    obtain ⟨⟨c1, c2⟩, d1, d2⟩ := ih
    rw [bvhHandles_cons, mbvhHandles_cons]
    simp only [List.length_append, List.map_append]
    refine ⟨⟨by omega, ?_⟩, by omega, ?_⟩
    · rw [a2, c2, a1, ← List.range'_append, List.map_append]; simp
    · rw [b2, d2, b1, ← List.range'_append, List.map_append]; simp

theorem History.inv [FloatOps F] {m m' : Manager F} {es : List (Event F)} (h : History m es m') (hi : m.Inv) : m'.Inv := by
  induction h with
  | nil => exact hi
  | cons hc _ ih => exact ih (hc.inv hi)

theorem History.slot [FloatOps F] {m m' : Manager F} {es : List (Event F)} (h : History m es m') {id : Nat} :
    ∀ {s : Slot (Bvh F)}, m.slots[id]? = some s →
    ∃ s', m'.slots[id]? = some s' ∧ s'.val = es.foldl (Event.after id) s.val ∧
      ((∀ e ∈ es, frees id e = false) → s'.addr = s.addr ∧ s'.val.nodes.length = s.val.nodes.length ∧
        s'.val.primIndices = s.val.primIndices) := by
  induction h with
  | nil => intro s hs; exact ⟨s, hs, rfl, fun _ => ⟨rfl, rfl, rfl⟩⟩
  | cons hc _ ih =>
    intro s hs
    obtain ⟨s1, h1, h2, h3⟩ := hc.slot hs
    obtain ⟨s2, k1, k2, k3⟩ := ih h1
    refine ⟨s2, k1, by rw [k2, h2]; rfl, fun hf => ?_⟩
    obtain ⟨x1, x2, x3⟩ := h3 (hf _ (by simp))
    obtain ⟨y1, y2, y3⟩ := k3 (fun e he => hf e (by simp [he]))
    exact ⟨y1.trans x1, y2.trans x2, y3.trans x3⟩

theorem History.mslot [FloatOps F] {m m' : Manager F} {es : List (Event F)} (h : History m es m') {id : Nat} :
    ∀ {s : Slot (Mbvh F)}, m.mslots[id]? = some s →
    ∃ s', m'.mslots[id]? = some s' ∧ s'.val = es.foldl (Event.afterM id) s.val ∧
      ((∀ e ∈ es, freesM id e = false) → s' = s) := by
  induction h with
  | nil => intro s hs; exact ⟨s, hs, rfl, fun _ => rfl⟩
  | cons hc _ ih =>
    intro s hs
    obtain ⟨s1, h1, h2, h3⟩ := hc.mslot hs
    obtain ⟨s2, k1, k2, k3⟩ := ih h1
    refine ⟨s2, k1, by rw [k2, h2]; rfl, fun hf => ?_⟩
    exact (k3 (fun e he => hf e (by simp [he]))).trans (h3 (hf _ (by simp)))

theorem find_slot {S : Type} {l : List (Slot S)} {i a : Nat} {s : Slot S}
    (h : DistinctAddrs l)
    (hi : l[i]? = some s) (ha : s.addr = some a) : l.find? (fun s => s.addr == some a) = some s := by
  cases e : l.find? (fun s => s.addr == some a) with
  | none =>
    rw [List.find?_eq_none] at e
    have := e s (List.mem_of_getElem? hi)
    simp [ha] at this
  | some s' =>
    have hm := List.mem_of_find?_eq_some e
    have hp := List.find?_some e
    obtain ⟨j, hj⟩ := List.getElem?_of_mem hm
    have hp : s'.addr = some a := by simpa using hp
    have := h i j a s s' hi hj ha hp
    subst this
    rw [hi] at hj
    exact hj.symm

end Rtbvh
