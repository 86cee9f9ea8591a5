import Verif.Props.FfiConc
/- C84 for the four-wide structures: queries on a handle from `create_mbvh` while other calls run.  Nothing but
`free_mbvh` changes a four-wide structure, so only that can disturb a query. -/
namespace Rtbvh
variable {F : Type} [FloatOps F]
open FloatOps

omit [FloatOps F] in
/-- A call that creates a four-wide structure. -/
def FfiOp.createsM : FfiOp F → Bool
  | .manage (.createMbvh _ _) => true
  | _ => false

omit [FloatOps F] in
theorem mbvhHandles_le (lin : List (Nat × Event F)) :
    (mbvhHandles (lin.map Prod.snd)).length ≤
      ((lin.filter fun x => (FfiOp.manage x.2.call).createsM).map Prod.fst).length := by
  rw [List.length_map]
  induction lin with
  | nil => simp [mbvhHandles]
  | cons x l ih =>
    obtain ⟨k, call, c, o⟩ := x
    unfold mbvhHandles at ih ⊢
    cases call <;> cases o <;> simp [FfiOp.createsM] at ih ⊢ <;> omega

theorem mhandles_le_calls {tr : List (FfiLabel F)} {s : FfiSys F} {lin : List (Nat × Event F)} {m : Manager F}
    (hi : FfiInv tr s lin m) : (mbvhHandles (lin.map Prod.snd)).length ≤ s.calls.countP fun c => c.1.createsM := by
  refine Nat.le_trans (mbvhHandles_le lin) (count_idx _ _ _ _ rfl ?_ ?_)
  · exact List.Nodup.sublist (List.Sublist.map _ List.filter_sublist) hi.nodup
  · intro k hk
    obtain ⟨⟨k', e⟩, he, rfl⟩ := List.mem_map.1 hk
    obtain ⟨he, hc⟩ := List.mem_filter.1 he
    obtain ⟨p, hp⟩ := hi.linCalls _ _ he
    exact ⟨_, hp, hc⟩

omit [FloatOps F] in
theorem mslices_eq {m : Manager F} {h : Handle} {sl : Slot (Mbvh F)} {a : Nat} (hd : DistinctAddrs m.mslots)
    (hs : m.mslots[h.id]? = some sl) (ha : sl.addr = some a) (hh : h.addr = some a) :
    m.mslices h = if h.nodeCount ≤ sl.val.mNodes.length ∧ h.indexCount ≤ sl.val.primIndices.length then
        some (sl.val.mNodes.take h.nodeCount, sl.val.primIndices.take h.indexCount) else none := by
  have hfind := find_slot hd hs ha
  simp only [Manager.mslices, hh, hfind]

/-- The entry of a four-wide handle that was not freed. -/
theorem created_mslot {es₁ es₂ : List (Event F)} {m m₁ m₂ : Manager F} {hb h : Handle} {nulls : Bool}
    {c : ResultCode} (h₁ : History .empty es₁ m) (hc : Calls m ⟨.createMbvh hb nulls, c, some h⟩ m₁)
    (h₂ : History m₁ es₂ m₂) (hcount : (mbvhHandles es₁).length < 2 ^ 32) (hf : ∀ e ∈ es₂, freesM h.id e = false) :
    ∃ (s : Slot (Bvh F)) (q : Mbvh F) (fuel a : Nat), m.slots[hb.id]? = some s ∧ Mbvh.construct fuel s.val = some q ∧
      m₂.mslots[h.id]? = some ⟨q, some a⟩ ∧ h.addr = some a ∧ h.nodeCount = natAsU32 q.mNodes.length ∧
      h.indexCount = natAsU32 q.primIndices.length := by
  obtain ⟨_, hl, _⟩ := h₁.lengths
  have hl : m.mslots.length = (mbvhHandles es₁).length := by simpa [Manager.empty] using hl
  have hcr : ∃ (s : Slot (Bvh F)) (q : Mbvh F) (fuel a : Nat), m.slots[hb.id]? = some s ∧
      Mbvh.construct fuel s.val = some q ∧
      m₁.mslots[m.mslots.length]? = some ⟨q, some a⟩ ∧ h.id = m.mslots.length ∧ h.addr = some a ∧
      h.nodeCount = natAsU32 q.mNodes.length ∧ h.indexCount = natAsU32 q.primIndices.length := by
    generalize he : (⟨.createMbvh hb nulls, c, some h⟩ : Event F) = e at hc
    cases hc with
    | create => simp at he
    | createMbvh fuel h' nulls' a hf hm =>
      simp only [Event.mk.injEq, Call.createMbvh.injEq] at he
      obtain ⟨⟨rfl, rfl⟩, rfl, rfl⟩ := he
      unfold Manager.createMbvh at hm
      split at hm
      · simp at hm
      · split at hm
        · simp at hm
        · rename_i s hs
          obtain ⟨q, hq, h2⟩ := Option.map_eq_some_iff.1 hm
          simp only [Prod.mk.injEq, Option.some.injEq] at h2
          obtain ⟨rfl, rfl, rfl⟩ := h2
          exact ⟨s, q, fuel, a, hs, hq, by simp [Manager.storeMbvh], asU32_of_lt (by omega), rfl, rfl, rfl⟩
    | refit => simp at he
    | freeBvh => simp at he
    | freeMbvh => simp at he
  obtain ⟨s, q, fuel, a, hs, hq, hm, hid, ha, hn, hx⟩ := hcr
  rw [← hid] at hm
  obtain ⟨s', hs', _, hx'⟩ := h₂.mslot hm
  rw [hx' hf] at hs'
  exact ⟨s, q, fuel, a, hs, hq, hs', ha, hn, hx⟩

/-- What stands behind a four-wide handle: `q` is the conversion of the structure that the handle `hb` names when
`create_mbvh` takes effect, in a sequential explanation of all calls so far. -/
structure ConvertedFrom (tr : List (FfiLabel F)) (j : Nat) (hb : Handle) (nulls : Bool) (c : ResultCode) (h : Handle)
    (q : Mbvh F) : Prop where
  explained : ∃ lin m l₁ l₂ m₀ sl fuel, Linearizes tr lin m ∧
    lin = l₁ ++ (j, ⟨.createMbvh hb nulls, c, some h⟩) :: l₂ ∧ History .empty (l₁.map Prod.snd) m₀ ∧
    m₀.slots[hb.id]? = some sl ∧ Mbvh.construct fuel sl.val = some q

theorem mslot_of_run {tr : List (FfiLabel F)} {s : FfiSys F} (hrun : FfiRun .init tr s)
    (hcount : (s.calls.countP fun c => c.1.createsM) ≤ 2 ^ 32) {j : Nat} {nulls : Bool} {hb : Handle} {c : ResultCode}
    {h : Handle} (hinv : .invoke j (.manage (.createMbvh hb nulls)) ∈ tr) (hret : .ret j c (some h) ∈ tr)
    (hfree : ∀ k h', .invoke k (.manage (.freeMbvh h')) ∈ tr → h'.id ≠ h.id) :
    ∃ (q : Mbvh F) (a : Nat), ConvertedFrom tr j hb nulls c h q ∧ s.mem.mslots[h.id]? = some ⟨q, some a⟩ ∧ h.addr = some a ∧
      h.nodeCount = natAsU32 q.mNodes.length ∧ h.indexCount = natAsU32 q.primIndices.length ∧
      DistinctAddrs s.mem.mslots := by
  obtain ⟨lin, m, hi⟩ := hrun.inv
  have hlin := hi.linearizes
  obtain ⟨l₁, l₂, he⟩ := List.append_of_mem (hlin.returned _ _ _ _ hinv hret)
  have hle := Nat.le_trans (mhandles_le_calls hi) hcount
  have hhist := hi.hist
  rw [he, List.map_append, List.map_cons] at hhist
  obtain ⟨m₀, hh1, hh2⟩ := hhist.split
  cases hh2 with
  | @cons _ _ m₁ _ _ hc hh2 =>
    have hcnt : (mbvhHandles (l₁.map Prod.snd)).length < 2 ^ 32 := by
      have h1 : mbvhHandles (lin.map Prod.snd) = mbvhHandles (l₁.map Prod.snd) ++ h :: mbvhHandles (l₂.map Prod.snd) := by
        rw [he, List.map_append, List.map_cons]
        unfold mbvhHandles
        rw [List.filterMap_append]; rfl
      rw [h1] at hle
      simp only [List.length_append, List.length_cons] at hle
      omega
    have hnf : ∀ e ∈ l₂.map Prod.snd, freesM h.id e = false := by
      intro e hm
      obtain ⟨⟨k, e'⟩, hk, rfl⟩ := List.mem_map.1 hm
      have hmade := hlin.made k e' (by rw [he]; exact List.mem_append.2 (.inr (List.mem_cons_of_mem _ hk)))
      unfold freesM
      cases hcall : e'.call with
      | freeMbvh h' => rw [hcall] at hmade; simp [hfree k h' hmade]
      | _ => rfl
    obtain ⟨sl, q, fuel, a, hs, hq, hm, ha, hn, hx⟩ := created_mslot hh1 hc hh2 hcnt hnf
    have hms : m.mslots = s.mem.mslots := hi.settled.mslots
    rw [hms] at hm
    refine ⟨q, a, ⟨lin, m, l₁, l₂, m₀, sl, fuel, hlin, he, hh1, hs, hq⟩, hm, ha, hn, hx, ?_⟩
    rw [← hms]
    exact (hi.hist.inv inv_empty).mslots

/-- C84 (four-wide, state by state): at any moment, a query reads through a handle that `create_mbvh` returned exactly the
structure that was converted, provided the handle is never freed; refits and frees of the two-wide structures do not
matter.  Missing: with a free under way it is false, see `C84_mbvh_read_after_free`. -/
theorem C84_mbvh_read_partial {tr : List (FfiLabel F)} {s : FfiSys F} (hrun : FfiRun .init tr s)
    (hcount : (s.calls.countP fun c => c.1.createsM) ≤ 2 ^ 32) {j : Nat} {nulls : Bool} {hb : Handle} {c : ResultCode}
    {h : Handle} (hinv : .invoke j (.manage (.createMbvh hb nulls)) ∈ tr) (hret : .ret j c (some h) ∈ tr)
    (hfree : ∀ k h', .invoke k (.manage (.freeMbvh h')) ∈ tr → h'.id ≠ h.id) :
    ∃ q : Mbvh F, ConvertedFrom tr j hb nulls c h q ∧ (q.mNodes.length < 2 ^ 32 → q.primIndices.length < 2 ^ 32 →
      s.mem.mslices h = some (q.mNodes, q.primIndices)) := by
  obtain ⟨q, a, hq, hs, ha, hn, hx, hd⟩ := mslot_of_run hrun hcount hinv hret hfree
  refine ⟨q, hq, fun h1 h2 => ?_⟩
  rw [mslices_eq hd hs rfl ha]
  simp only [hn, hx, asU32_of_lt h1, asU32_of_lt h2]
  rw [if_pos ⟨Nat.le_refl _, Nat.le_refl _⟩, List.take_length, List.take_length]

omit [FloatOps F] in
theorem free_mslot {m : Manager F} {h : Handle} {i : Nat} {sl : Slot (Mbvh F)} (hs : m.mslots[i]? = some sl)
    (hne : h.id ≠ i) : (m.freeMbvh h).mslots[i]? = some sl := by
  unfold Manager.freeMbvh
  split
  · simp only [List.getElem?_set_ne hne]; exact hs
  · exact hs

/-- A four-wide structure stays in memory as it is until it is freed. -/
theorem step_mslot {s s' : FfiSys F} {l : FfiLabel F} (hs : FfiStep s l s') {i : Nat} {sl : Slot (Mbvh F)}
    (h : s.mem.mslots[i]? = some sl)
    (hfree : ∀ (k : Nat) (h' : Handle) p, s.calls[k]? = some (FfiOp.manage (.freeMbvh h'), p) → h'.id ≠ i) : s'.mem.mslots[i]? = some sl := by
  have push : ∀ x : Slot (Mbvh F), (s.mem.mslots ++ [x])[i]? = some sl := fun x => by
    rw [List.getElem?_append_left (lt_of_get h)]; exact h
  have hfb : ∀ h' : Handle, (s.mem.freeBvh h').mslots = s.mem.mslots := by
    intro h'; unfold Manager.freeBvh; split <;> rfl
  have move : ∀ {k : Nat} {op p p' m'}, s.calls[k]? = some (op, p) → FfiMove s op p p' m' → m'.mslots[i]? = some sl := by
    intro k op p p' m' hk hm
    cases hm with
    | mPush => exact push _
    | fFree => rw [hfb]; exact h
    | mfFree => exact free_mslot h (hfree _ _ _ hk)
    | _ => exact h
  cases hs with
  | invoke op => exact h
  | step hk hm => exact move hk hm
  | ret hk hm => exact move hk hm
  | idle hk hm => cases hm <;> exact h

/-- C84 (four-wide, whole queries): if a `create_mbvh` returned `h` before query `k` was made, and no call ever frees
this id, then everything the query reads through `h` is one and the same conversion `q`, whatever other threads do. -/
theorem C84_mbvh_query_partial {tr : List (FfiLabel F)} {s : FfiSys F} (hrun : FfiRun .init tr s)
    (hcount : (s.calls.countP fun c => c.1.createsM) ≤ 2 ^ 32) {j k : Nat} {nulls : Bool} {hb : Handle} {c : ResultCode}
    {h : Handle} (hinv : .invoke j (.manage (.createMbvh hb nulls)) ∈ tr) (hret : .ret j c (some h) ∈ tr)
    (hbefore : ReturnedBefore tr j k)
    (hfree : ∀ k h', .invoke k (.manage (.freeMbvh h')) ∈ tr → h'.id ≠ h.id)
    {seen : List (Option (List (MbvhNode F) × List Nat))} (hk : s.calls[k]? = some (.queryMbvh h, .mreading seen)) :
    ∃ q : Mbvh F, ConvertedFrom tr j hb nulls c h q ∧ (q.mNodes.length < 2 ^ 32 → q.primIndices.length < 2 ^ 32 →
      ∀ x ∈ seen, x = some (q.mNodes, q.primIndices)) := by
  suffices hmain : ∀ x ∈ seen, x = s.mem.mslices h by
    obtain ⟨q, h1, h2⟩ := C84_mbvh_read_partial hrun hcount hinv hret hfree
    exact ⟨q, h1, fun a b x hx => (hmain x hx).trans (h2 a b)⟩
  induction hrun generalizing seen with
  | nil => cases hinv
  | @snoc tr s' l s'' hr hs ih =>
    obtain ⟨lin, m, hi⟩ := hr.inv
    have hbefore' : s'.calls[k]? ≠ none → ReturnedBefore tr j k := by
      intro hsome
      rcases returnedBefore_snoc hbefore with h1 | ⟨_, op, rfl⟩
      · exact h1
      · cases hs with
        | invoke op => exact absurd (by simp) hsome
    have hearlier : ReturnedBefore tr j k → .invoke j (.manage (.createMbvh hb nulls)) ∈ tr ∧ .ret j c (some h) ∈ tr := by
      rintro ⟨tr₁, tr₂, rfl, ⟨c', o', hr'⟩, _⟩
      obtain ⟨opj, hj⟩ := hi.rets j c' o' (List.mem_append.2 (.inl hr'))
      constructor
      · rcases List.mem_append.1 hinv with h1 | h1
        · exact h1
        · simp only [List.mem_singleton] at h1
          subst h1
          cases hs with
          | invoke op => have := lt_of_get hj; omega
      · rcases List.mem_append.1 hret with h1 | h1
        · exact h1
        · simp only [List.mem_singleton] at h1
          subst h1
          cases hs with
          | ret hkj hm =>
            rw [hj] at hkj
            cases hkj
            cases hm
    have hfree' : ∀ k h', .invoke k (.manage (.freeMbvh h')) ∈ tr → h'.id ≠ h.id := fun k h' h1 =>
      hfree k h' (List.mem_append.2 (.inl h1))
    have hset : ∀ {k' : Nat} {op : FfiOp F} {p' : FfiPhase F} {m'}, s'' = ⟨m', s'.calls.set k' (op, p')⟩ →
        (∃ p, s'.calls[k']? = some (op, p)) → (s'.calls.countP fun c => c.1.createsM) ≤ 2 ^ 32 := by
      rintro k' op p' m' rfl ⟨p, hp⟩
      refine Nat.le_trans (Nat.le_of_eq ?_) hcount
      simp only
      have : (s'.calls.set k' (op, p')).map Prod.fst = s'.calls.map Prod.fst := by
        rw [List.map_set]
        apply List.ext_getElem?
        intro i
        by_cases hik : i = k'
        · subst hik
          rw [List.getElem?_set_self (by rw [List.length_map]; exact lt_of_get hp), List.getElem?_map, hp]; rfl
        · rw [List.getElem?_set_ne (Ne.symm hik)]
      have hcp : ∀ l : List (FfiOp F × FfiPhase F), (l.countP fun c => c.1.createsM) = (l.map Prod.fst).countP FfiOp.createsM := by
        intro l; rw [List.countP_map]; rfl
      rw [hcp, hcp, this]
    -- memory behind the handle does not change
    have same : (s'.calls.countP fun c => c.1.createsM) ≤ 2 ^ 32 → s'.calls[k]? ≠ none →
        s''.mem.mslices h = s'.mem.mslices h := by
      intro hc' hsome
      obtain ⟨h1, h2⟩ := hearlier (hbefore' hsome)
      obtain ⟨q, a, _, hs1, ha1, _, _, hd1⟩ := mslot_of_run hr hc' h1 h2 hfree'
      have hs2 : s''.mem.mslots[h.id]? = some ⟨q, some a⟩ := step_mslot hs hs1 fun k h' p hk =>
        hfree' k h' ((hi.invoked _ _).2 ⟨_, hk⟩)
      obtain ⟨_, _, hi'⟩ := (hr.snoc hs).inv
      have hd2 : DistinctAddrs s''.mem.mslots := by
        rw [← hi'.settled.mslots]; exact (hi'.hist.inv inv_empty).mslots
      rw [mslices_eq hd1 hs1 rfl ha1, mslices_eq hd2 hs2 rfl ha1]
    have old : ∀ seen', (s'.calls.countP fun c => c.1.createsM) ≤ 2 ^ 32 →
        s'.calls[k]? = some (.queryMbvh h, .mreading seen') → ∀ x ∈ seen', x = s''.mem.mslices h := by
      intro seen' hc' hk' x hx
      have hsome : s'.calls[k]? ≠ none := by rw [hk']; simp
      obtain ⟨h1, h2⟩ := hearlier (hbefore' hsome)
      rw [same hc' hsome]
      exact ih hc' h1 h2 (hbefore' hsome) hfree' hk' x hx
    have hs0 := hs
    cases hs with
    | invoke op =>
      have hc' : (s'.calls.countP fun c => c.1.createsM) ≤ 2 ^ 32 := by
        simp only [List.countP_append] at hcount
        omega
      refine old seen hc' ?_
      simp only at hk
      rcases Nat.lt_or_ge k s'.calls.length with hlt | hge
      · rw [List.getElem?_append_left hlt] at hk; exact hk
      · rw [List.getElem?_append_right hge] at hk
        have := lt_of_get hk
        simp only [List.length_singleton] at this
        rw [show k - s'.calls.length = 0 by omega] at hk
        cases hk
    | step hk' hm hl hd =>
      have hc' := hset rfl ⟨_, hk'⟩
      rcases get_set hk (lt_of_get hk') with ⟨rfl, e⟩ | ⟨_, e⟩
      · cases e
        cases hm
        intro x hx; cases hx
      · exact old seen hc' e
    | ret hk' hm =>
      have hc' := hset rfl ⟨_, hk'⟩
      rcases get_set hk (lt_of_get hk') with ⟨rfl, e⟩ | ⟨_, e⟩
      · cases e
      · exact old seen hc' e
    | idle hk' hm =>
      have hc' := hset rfl ⟨_, hk'⟩
      rcases get_set hk (lt_of_get hk') with ⟨rfl, e⟩ | ⟨_, e⟩
      · cases e
        cases hm with
        | @mread _ seen' =>
          intro x hx'
          rcases List.mem_append.1 hx' with hx' | hx'
          · exact old seen' hc' hk' x hx'
          · simp only [List.mem_singleton] at hx'
            exact hx'
      · exact old seen hc' e

/-! The proviso is needed, and the theorems apply to real uses. -/

/-- The four-wide form of `twoBvh`. -/
def twoQuad : Mbvh F32 := (Mbvh.construct 64 twoBvh).getD Mbvh.default
theorem twoQuad_eq : Mbvh.construct 64 twoBvh = some twoQuad := by
  have : (Mbvh.construct 64 twoBvh).isSome = true := by decide +kernel
  unfold twoQuad
  cases e : Mbvh.construct 64 twoBvh with
  | none => rw [e] at this; cases this
  | some q => rfl
/-- The handle of the first four-wide structure. -/
def firstQuad : Handle := Slot.mhandle ⟨twoQuad, some 96⟩ 0
/-- What a creation of `twoBvh` and its conversion leave behind. -/
def oneConverted : FfiSys F32 :=
  ⟨⟨[⟨twoBvh, some 64⟩], [⟨twoQuad, some 96⟩]⟩, [(.manage (.create false (.ok twoBvh)), .done .ok (some firstHandle)),
    (.manage (.createMbvh firstHandle false), .done .ok (some firstQuad))]⟩

theorem oneConverted_run : ∃ tr, FfiRun .init tr oneConverted ∧ .invoke 1 (.manage (.createMbvh firstHandle false)) ∈ tr ∧
    .ret 1 .ok (some firstQuad) ∈ tr := by
  obtain ⟨tr, hrun, _⟩ := oneCreated_run
  have r1 := hrun.snoc (.invoke (.manage (.createMbvh firstHandle false)))
  have r2 := r1.go (k := 1) rfl (.mLook rfl) (by decide)
  have r3 := r2.go (k := 1) rfl (.mFound (sl := ⟨twoBvh, some 64⟩) rfl) (by decide)
  have r4 := r3.go (k := 1) rfl (.mConvert (sl := ⟨twoBvh, some 64⟩) (q := twoQuad) (fuel := 64) (a := 96) rfl twoQuad_eq
    ⟨⟨by decide, by decide⟩, by decide⟩) (by decide)
  have r5 := r4.go (k := 1) rfl .mLock (by decide)
  have r6 := r5.go (k := 1) rfl .mPush (by decide)
  have r7 := r6.go (k := 1) rfl .mRead (by decide)
  have r8 := r7.go (k := 1) rfl (.mHandle (sl := ⟨twoQuad, some 96⟩) rfl) (by decide)
  have r9 := r8.go (k := 1) rfl .unlock (by decide)
  have r10 := r9.go (k := 1) rfl .unlock (by decide)
  have r11 := r10.go (k := 1) rfl .unlock (by decide)
  have r12 := r11.go (k := 1) rfl .unlock (by decide)
  have r13 := r12.go (k := 1) rfl .leave (by decide)
  exact ⟨_, r13, by simp [oneCreated], by simp [moveLabel, firstQuad, oneCreated]⟩

theorem firstQuad_slices : oneConverted.mem.mslices firstQuad = some (twoQuad.mNodes, twoQuad.primIndices) := by
  have h1 : twoQuad.mNodes.length < 2 ^ 32 := by decide +kernel
  have h2 : twoQuad.primIndices.length < 2 ^ 32 := by decide +kernel
  have hd : DistinctAddrs oneConverted.mem.mslots := by
    intro i j a s s' hi hj _ _
    have := lt_of_get hi
    have := lt_of_get hj
    simp only [oneConverted, List.length_singleton] at *
    omega
  rw [mslices_eq (sl := ⟨twoQuad, some 96⟩) (a := 96) hd rfl rfl rfl]
  simp only [firstQuad, Slot.mhandle, asU32_of_lt h1, asU32_of_lt h2]
  rw [if_pos ⟨Nat.le_refl _, Nat.le_refl _⟩, List.take_length, List.take_length]

/-- C84 is false with a free under way: a query that began with a valid four-wide handle goes on reading after `free_mbvh`
has returned on another thread. -/
theorem C84_mbvh_read_after_free : ∃ (tr tr' : List (FfiLabel F32)) (s : FfiSys F32),
    FfiRun .init tr oneConverted ∧ FfiRun oneConverted tr' s ∧
    s.calls[2]? = some (.queryMbvh firstQuad, .mreading [some (twoQuad.mNodes, twoQuad.primIndices), none]) ∧
    s.calls[3]? = some (.manage (.freeMbvh firstQuad), .done .ok none) := by
  obtain ⟨tr, hrun, _⟩ := oneConverted_run
  have r1 : FfiRun oneConverted _ _ := FfiRun.nil.snoc (.invoke (.queryMbvh firstQuad))
  have r2 := r1.go (k := 2) rfl .mqStart (by decide)
  have r3 := r2.snoc (.idle (k := 2) rfl .mread)
  have r4 := r3.snoc (.invoke (.manage (.freeMbvh firstQuad)))
  have r5 := r4.go (k := 3) rfl .mfLock (by decide)
  have r6 := r5.go (k := 3) rfl .mfFree (by decide)
  have r7 := r6.go (k := 3) rfl .unlock (by decide)
  have r8 := r7.go (k := 3) rfl .leave (by decide)
  have r9 := r8.snoc (.idle (k := 2) rfl .mread)
  refine ⟨tr, _, _, hrun, r9, ?_, rfl⟩
  have := firstQuad_slices
  simp only [oneConverted] at this ⊢
  simp only [List.nil_append, List.cons_append, List.getElem?_set_self', this]
  rfl

/-- Non-vacuity of `C84_mbvh_read_partial` and `C84_mbvh_query_partial`: a structure is created and converted, a query on
the result reads, the two-wide original is freed meanwhile, and the query reads again. -/
example : ∃ (tr : List (FfiLabel F32)) (s : FfiSys F32) (seen : List (Option (List (MbvhNode F32) × List Nat))),
    FfiRun .init tr s ∧ s.calls[2]? = some (.queryMbvh firstQuad, .mreading seen) ∧ seen.length = 2 ∧
    s.calls[3]? = some (.manage (.freeBvh firstHandle), .done .ok none) ∧
    .invoke 1 (.manage (.createMbvh firstHandle false)) ∈ tr ∧ .ret 1 .ok (some firstQuad) ∈ tr ∧ ReturnedBefore tr 1 2 ∧
    (s.calls.countP fun c => c.1.createsM) ≤ 2 ^ 32 ∧
    (∀ k h', .invoke k (.manage (.freeMbvh h')) ∈ tr → h'.id ≠ firstQuad.id) := by
  obtain ⟨tr, hrun, hin, hret⟩ := oneConverted_run
  have r1 : FfiRun oneConverted _ _ := FfiRun.nil.snoc (.invoke (.queryMbvh firstQuad))
  have r2 := r1.go (k := 2) rfl .mqStart (by decide)
  have r3 := r2.snoc (.idle (k := 2) rfl .mread)
  have r4 := r3.snoc (.invoke (.manage (.freeBvh firstHandle)))
  have r5 := r4.go (k := 3) rfl .fLock (by decide)
  have r6 := r5.go (k := 3) rfl .fFree (by decide)
  have r7 := r6.go (k := 3) rfl .unlock (by decide)
  have r8 := r7.go (k := 3) rfl .leave (by decide)
  have r9 := r8.snoc (.idle (k := 2) rfl .mread)
  have rall := hrun.trans r9
  refine ⟨_, _, _, rall, rfl, rfl, rfl, List.mem_append.2 (.inl hin), List.mem_append.2 (.inl hret),
    ⟨tr, _, rfl, ⟨_, _, hret⟩, .queryMbvh firstQuad, by simp [oneConverted]⟩, ?_, ?_⟩
  · refine Nat.le_trans List.countP_le_length ?_
    simp [oneConverted]
  · intro k h' hk
    obtain ⟨_, _, hi⟩ := rall.inv
    obtain ⟨p, hp⟩ := (hi.invoked _ _).1 hk
    have hlt := lt_of_get hp
    simp only [oneConverted, List.length_set, List.length_append, List.length_cons, List.length_nil] at hlt
    have : k = 0 ∨ k = 1 ∨ k = 2 ∨ k = 3 := by omega
    rcases this with rfl | rfl | rfl | rfl <;> cases hp

end Rtbvh
