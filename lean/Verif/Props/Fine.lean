import Verif.Proofs.Fine
import Verif.Props.Race
/- Property C79: it makes no difference that the tasks of the concurrent builders work at the same time. -/
namespace Rtbvh
variable {F : Type} [FloatOps F]

omit [FloatOps F] in
theorem writeAt_length_eq {α : Type} {l l2 xs ys : List α} {b : Nat} (h : l.length = l2.length)
    (hx : xs.length = ys.length) : (writeAt l b xs).length = (writeAt l2 b ys).length := by
  unfold writeAt
  simp only [List.length_append, List.length_take, List.length_drop]
  omega

/-- A list with the entries of one of two lists of the same length, place by place. -/
theorem choose_list {α : Type} (l r : List α) (h : l.length = r.length) (D : Nat → Prop) :
    ∃ t : List α, t.length = l.length ∧ (∀ i, D i → r[i]? = t[i]?) ∧ ∀ i, ¬ D i → l[i]? = t[i]? := by
  classical
  refine ⟨List.ofFn fun i : Fin l.length => if D i then r[i.1]'(by have := i.2; omega) else l[i.1], by simp, ?_, ?_⟩
  · intro i hi
    by_cases hl : i < l.length
    · rw [List.getElem?_ofFn, dif_pos hl, if_pos hi, List.getElem?_eq_getElem (by omega)]
    · rw [List.getElem?_eq_none (by omega), List.getElem?_eq_none (by simp; omega)]
  · intro i hi
    by_cases hl : i < l.length
    · rw [List.getElem?_ofFn, dif_pos hl, if_neg hi, List.getElem?_eq_getElem (by omega)]
    · rw [List.getElem?_eq_none (by omega), List.getElem?_eq_none (by simp; omega)]

/-! ### Binned build -/

theorem taskStep_nodes_length {ctx : BinnedCtx F} {nodes nodes' : List (BvhNode F)} {counter c' : Nat} {slice sl : List Nat}
    {t : BinnedTask} {ph : TaskPhase} {new : List (BinnedTask × TaskPhase)}
    (h : taskStep ctx nodes counter slice t ph = some (nodes', c', sl, new)) : nodes'.length = nodes.length := by
  unfold taskStep at h
  simp only at h
  split at h
  · cases h
  · split at h
    · cases h
    · cases h; simp
    · split at h
      · split at h
        · cases h; rfl
        · cases h
      · split at h
        · cases h; simp
        · cases h

theorem binnedStep_inv {ctx : BinnedCtx F} {s s' : BinnedState F} {k : Nat} {x : BinnedTask × TaskPhase}
    (h : binnedStep ctx s k = some s') (hk : s.pending[k]? = some x) :
    ∃ nodes c sl new, taskStep ctx s.nodes s.counter (sliceOf s.prims x.1.begin x.1.stop) x.1 x.2 =
        some (nodes, c, sl, new) ∧ s' = ⟨nodes, c, writeAt s.prims x.1.begin sl, s.pending.eraseIdx k ++ new⟩ := by
  unfold binnedStep at h
  obtain ⟨t, ph⟩ := x
  simp only [hk] at h
  split at h
  · cases h
  · rename_i nodes c sl new e
    cases h
    exact ⟨nodes, c, sl, new, e, rfl⟩

theorem LegalSchedule.snoc {ctx : BinnedCtx F} {k : Nat} : ∀ {ks : List Nat} {s s' : BinnedState F},
    LegalSchedule ctx ks s → binnedExec ctx ks s = some s' → k < s'.pending.length → LegalSchedule ctx (ks ++ [k]) s
  | [], s, s', _, e, hk => by
    cases e
    exact ⟨hk, fun _ _ => trivial⟩
  | j :: ks, s, s', h, e, hk => by
    refine ⟨h.1, fun s₁ e₁ => ?_⟩
    unfold binnedExec at e
    rw [e₁] at e
    exact LegalSchedule.snoc (h.2 s₁ e₁) e hk

theorem binnedExec_snoc {ctx : BinnedCtx F} {k : Nat} : ∀ {ks : List Nat} {s s' s'' : BinnedState F},
    binnedExec ctx ks s = some s' → binnedStep ctx s' k = some s'' → binnedExec ctx (ks ++ [k]) s = some s''
  | [], s, s', s'', e, e' => by
    cases e
    show (binnedStep ctx s k).bind _ = _
    rw [e']; rfl
  | j :: ks, s, s', s'', e, e' => by
    have e : (binnedStep ctx s j).bind (binnedExec ctx ks) = some s' := e
    show (binnedStep ctx s j).bind (binnedExec ctx (ks ++ [k])) = _
    cases e₁ : binnedStep ctx s j with
    | none => rw [e₁] at e; cases e
    | some s₁ => rw [e₁] at e; exact binnedExec_snoc (ks := ks) e e'

theorem binned_system_apart {b : Builder F} {order : List Nat} (h : b.Legal order) :
    (binnedSystem (b.ctx order)).Apart fun s =>
      ∃ ks, b.Schedule order ks ∧ binnedExec (b.ctx order) ks (binnedInit (b.ctx order)) = some s where
  refl s c := by cases c <;> first | rfl | trivial
  symm s t c h := by cases c <;> first | exact Eq.symm h | trivial
  trans s t u c h1 h2 := by cases c <;> first | exact Eq.trans h1 h2 | trivial
  size_refl s := ⟨rfl, rfl⟩
  size_symm s t h := ⟨h.1.symm, h.2.symm⟩
  size_trans s t u h1 h2 := ⟨h1.1.trans h2.1, h1.2.trans h2.2⟩
  merge s r D p n hs := by
    obtain ⟨ns, n1, n2, n3⟩ := choose_list s.nodes r.nodes hs.1 fun i => D (.node i)
    obtain ⟨ps, p1, p2, p3⟩ := choose_list s.prims r.prims hs.2 fun i => D (.index i)
    refine ⟨⟨ns, n, ps, p⟩, rfl, rfl, ⟨n1.symm, p1.symm⟩, fun c hc => ?_, fun c hc => ?_⟩
    · cases c with
      | node i => exact n2 i hc
      | index i => exact p2 i hc
      | ref i => trivial
    · cases c with
      | node i => exact n3 i hc
      | index i => exact p3 i hc
      | ref i => trivial
  apart s hs i j x y hij hx hy c hc := by
    obtain ⟨ks, _, e⟩ := hs
    obtain ⟨s0, e0, h1, _⟩ := C73_binned_apart b order ks h
    rw [e] at e0; cases e0
    exact h1 i j x y hij hx hy c hc
  local_ok s hs k x m hk hm hsame := by
    obtain ⟨ks, hl, e⟩ := hs
    obtain ⟨s0, e0, _, _, h3⟩ := C73_binned_apart b order ks h
    rw [e] at e0; cases e0
    obtain ⟨s', new, e1, hnew, hfr, hloc⟩ := h3 k x hk
    obtain ⟨r, e2, hrp, hrc, hr⟩ := hloc { m with counter := s.counter, pending := [x] } 0 rfl rfl hm.1.symm
      (fun c hc => by have := hsame c hc; cases c <;> exact this)
    have hr' : r.pending = new := by rw [hrp]; rfl
    refine .inr ⟨s', r, ?_, ?_, ⟨ks ++ [k], hl.snoc e (List.getElem?_eq_some_iff.1 hk).1, binnedExec_snoc e e1⟩, ?_, ?_,
      by show s'.pending = s.pending.eraseIdx k ++ r.pending; rw [hr', hnew], hrc.symm, hfr, hr⟩
    · show (match binnedStep (b.ctx order) s k with | none => _ | some s' => _) = _
      rw [e1]
    · show (match binnedStep (b.ctx order) { m with counter := s.counter, pending := [x] } 0 with
        | none => _ | some s' => _) = _
      rw [e2]
    · have hsm := h.small
      obtain ⟨T, P, _, _, hI⟩ := binnedInit_inv (Builder.setting h) (by omega)
      obtain ⟨s1, r1, q1, hI1, _, _⟩ := hI.exec ks
      obtain ⟨s2, r2, q2, hI2, _, _⟩ := hI.exec (ks ++ [k])
      rw [e] at q1; cases q1
      rw [binnedExec_snoc e e1] at q2; cases q2
      exact ⟨hI1.len.trans hI2.len.symm, hI1.plen.trans hI2.plen.symm⟩
    · obtain ⟨n1, c1, sl1, w1, t1, rfl⟩ := binnedStep_inv e1 hk
      obtain ⟨n2, c2, sl2, w2, t2, rfl⟩ := binnedStep_inv e2 rfl
      obtain ⟨n3, t3, _⟩ := taskStep_reads (nodes2 := m.nodes) t1 hm.1.symm fun i hi => hsame (.node i) hi
      simp only at t2
      rw [sliceOf_congr (l := m.prims) (l' := s.prims) fun i a1 a2 => (hsame (.index i) ⟨a1, a2⟩).symm, t3] at t2
      cases t2
      exact ⟨by show n1.length = n2.length; rw [taskStep_nodes_length t1, taskStep_nodes_length t3]; exact hm.1,
        writeAt_length_eq hm.2 rfl⟩

/-- C79, binned build.  However the steps of the tasks overlap, and whatever their half-done work leaves in memory
meanwhile: the state is the one that some order of whole steps leads to, wherever no task is at work; a task at work can
always end its step; and when no task is left, the build returns what `construct_binned_sah` returns under that order. -/
theorem C79_binned_overlap (b : Builder F) (order : List Nat) (h : b.Legal order) (f : Fine (BinnedState F))
    (hf : FineReach (binnedSystem (b.ctx order)) (binnedInit (b.ctx order)) f) :
    (∃ ks s, b.Schedule order ks ∧ binnedExec (b.ctx order) ks (binnedInit (b.ctx order)) = some s ∧
      f.state.pending = s.pending ∧ f.state.counter = s.counter ∧ f.running.length = s.pending.length ∧
      (∀ c, (∀ k x m, f.Runs (binnedSystem (b.ctx order)) k x m → ¬ BinnedTask.Uses x c) → s.SameAt f.state c) ∧
      (f.state.pending = [] → f.state = s)) ∧
    (∀ e, ¬ f.Faults (binnedSystem (b.ctx order)) e) ∧
    (∀ k x m, f.Runs (binnedSystem (b.ctx order)) k x m → ∃ f', FineStep (binnedSystem (b.ctx order)) f f' ∧
      ∃ new, f'.state.pending = f.state.pending.eraseIdx k ++ new) ∧
    (f.state.pending = [] → ∃ ks, b.Schedule order ks ∧
      b.constructBinnedSah order ks = .ok (some (some (binnedFinish f.state)))) := by
  have hM := binned_system_apart h
  have hst : ∃ s, (∃ ks, b.Schedule order ks ∧ binnedExec (b.ctx order) ks (binnedInit (b.ctx order)) = some s) ∧
      Stands (binnedSystem (b.ctx order)) f s := by
    induction hf with
    | init => exact ⟨_, ⟨[], trivial, rfl⟩, Stands.init hM⟩
    | step _ hs ih =>
      obtain ⟨s, hP, hS⟩ := ih
      rcases hS.step hM hP hs with ⟨h', _⟩ | ⟨k, s', _, _, hP', h'⟩
      · exact ⟨s, hP, h'⟩
      · exact ⟨s', hP', h'⟩
  obtain ⟨s, ⟨ks, hks, e⟩, hS⟩ := hst
  have hfin : f.state.pending = [] → f.state = s := by
    intro hp
    have same : ∀ c, s.SameAt f.state c := fun c => hS.rest c fun k x m hr => by
      have := hr.1
      rw [show (binnedSystem (b.ctx order)).pending f.state = [] from hp] at this
      cases this
    obtain ⟨n, c, p, q⟩ := s
    obtain ⟨⟨n', c', p', q'⟩, run⟩ := f
    have h1 : n = n' := List.ext_getElem? fun i => same (.node i)
    have h2 : p = p' := List.ext_getElem? fun i => same (.index i)
    have h3 : c' = c := hS.counters
    have h4 : q' = q := hS.pending
    simp only [h1, h2, h3, h4]
  have hrun : ∀ k x m, f.Runs (binnedSystem (b.ctx order)) k x m →
      ∃ r f', (binnedSystem (b.ctx order)).step ((binnedSystem (b.ctx order)).alone m
        ((binnedSystem (b.ctx order)).counters f.state) x) 0 = .ok r ∧ FineStep (binnedSystem (b.ctx order)) f f' ∧
        f'.state.pending = f.state.pending.eraseIdx k ++ r.pending ∧ ¬ f.Quiet (binnedSystem (b.ctx order)) f' := by
    intro k x m hr
    rcases hS.progress hM ⟨ks, hks, e⟩ hr with ⟨_, e1, _⟩ | h2
    · have hk : s.pending[k]? = some x := by
        have := hr.1
        rw [hS.pending] at this
        exact this
      obtain ⟨s0, e0, _, _, h3⟩ := C73_binned_apart b order ks h
      rw [e] at e0; cases e0
      obtain ⟨s', _, e2, _⟩ := h3 k x hk
      simp only [binnedSystem, e2] at e1
      cases e1
    · exact h2
  refine ⟨⟨ks, s, hks, e, hS.pending, hS.counters, hS.length, hS.rest, hfin⟩, ?_, ?_, ?_⟩
  · rintro er ⟨k, x, m, hr, he⟩
    obtain ⟨r, _, e2, _⟩ := hrun k x m hr
    rw [e2] at he; cases he
  · intro k x m hr
    obtain ⟨r, f', _, h1, h2, _⟩ := hrun k x m hr
    exact ⟨f', h1, _, h2⟩
  · intro hp
    refine ⟨ks, hks, ?_⟩
    obtain ⟨T, P, _, hT, H⟩ := builder_main h
    obtain ⟨s1, q1, _, h3, _⟩ := H ks
    rw [e] at q1; cases q1
    have hfs := hfin hp
    rw [hfs] at hp ⊢
    exact (h3 hp).1

theorem fine_of_exec {b : Builder F} {order : List Nat} (h : b.Legal order) : ∀ (ks : List Nat) (s s' : BinnedState F),
    (∃ ks, b.Schedule order ks ∧ binnedExec (b.ctx order) ks (binnedInit (b.ctx order)) = some s) →
    FineReach (binnedSystem (b.ctx order)) (binnedInit (b.ctx order)) ⟨s, s.pending.map fun _ => none⟩ →
    LegalSchedule (b.ctx order) ks s → binnedExec (b.ctx order) ks s = some s' →
    FineReach (binnedSystem (b.ctx order)) (binnedInit (b.ctx order)) ⟨s', s'.pending.map fun _ => none⟩
  | [], s, s', _, hr, _, e => by cases e; exact hr
  | k :: ks, s, s', hP, hr, hl, e => by
    have e : (binnedStep (b.ctx order) s k).bind (binnedExec (b.ctx order) ks) = some s' := e
    cases e₁ : binnedStep (b.ctx order) s k with
    | none => rw [e₁] at e; cases e
    | some s₁ =>
      rw [e₁] at e
      obtain ⟨hP', hr'⟩ := FineReach.whole (binned_system_apart h) hP hl.1 hr (s' := s₁) (by simp [binnedSystem, e₁])
      exact fine_of_exec h ks s₁ s' hP' hr' (hl.2 s₁ e₁) e

/-- Whole steps one after the other are a special case of overlapping steps. -/
theorem C79_binned_whole (b : Builder F) (order ks : List Nat) (h : b.Legal order) (hk : b.Schedule order ks)
    (s : BinnedState F) (e : binnedExec (b.ctx order) ks (binnedInit (b.ctx order)) = some s) :
    FineReach (binnedSystem (b.ctx order)) (binnedInit (b.ctx order)) ⟨s, s.pending.map fun _ => none⟩ :=
  fine_of_exec h ks _ s ⟨[], trivial, rfl⟩ .init hk e

/-- Any two idle tasks can be at work at the same time. -/
theorem fine_two {S X K E : Type} {M : TaskSystem S X K E} {s₀ s : S} {x y : X}
    (h : FineReach M s₀ ⟨s, (M.pending s).map fun _ => none⟩) (hp : M.pending s = [x, y]) :
    ∃ f, FineReach M s₀ f ∧ f.Runs M 0 x s ∧ f.Runs M 1 y s := by
  rw [hp] at h
  have h1 := h.step (.start (k := 0) rfl)
  have h2 := h1.step (.start (k := 1) rfl)
  exact ⟨_, h2, ⟨by simp only [hp]; rfl, rfl⟩, ⟨by simp only [hp]; rfl, rfl⟩⟩

/-! ### Spatial build -/

theorem spatialTaskStep_length {ctx : SpatialCtx F} {thr : F} {nodes : List (BvhNode F)} {counter refCount : Nat}
    {prims : List Nat} {view : RefView F} {t : SpatialTask} {ph : SpatialPhase} {e : SpatialEffect F}
    (h : spatialTaskStep ctx thr nodes counter refCount prims view t ph = .ok e) :
    e.nodes.length = nodes.length ∧ e.prims.length = prims.length := by
  unfold spatialTaskStep at h
  simp only at h
  split at h
  · cases h
  · split at h
    · cases h
    · split at h
      · split at h
        · cases h
        · rename_i hfit
          cases h
          refine ⟨by simp, ?_⟩
          simp only [writeAt, List.length_append, List.length_take, List.length_drop]
          omega
      · cases h; exact ⟨rfl, rfl⟩
    · split at h
      · split at h
        · cases h; simp
        · cases h
      · split at h
        · cases h; exact ⟨rfl, rfl⟩
        · cases h
        · cases h

/-- A task that faults does so because of what it may use, and the counters. -/
theorem spatialTaskStep_reads_error {ctx : SpatialCtx F} {thr : F} {nodes nodes2 : List (BvhNode F)} {counter refCount : Nat}
    {prims prims2 : List Nat} {view : RefView F} {x : SpatialTask × SpatialPhase} {e : Fault}
    (h : spatialTaskStep ctx thr nodes counter refCount prims view x.1 x.2 = .error e)
    (hl : nodes2.length = nodes.length) (hp : prims2.length = prims.length)
    (hs : ∀ i, SpatialTask.Uses x (.node i) → nodes[i]? = nodes2[i]?)
    (hsp : ∀ i, SpatialTask.Uses x (.index i) → prims[i]? = prims2[i]?) :
    spatialTaskStep ctx thr nodes2 counter refCount prims2 view x.1 x.2 = .error e := by
  cases e2 : spatialTaskStep ctx thr nodes2 counter refCount prims2 view x.1 x.2 with
  | ok r =>
    obtain ⟨r', e3, _⟩ := spatialTaskStep_reads e2 hl.symm hp.symm (fun i hi => (hs i hi).symm) fun i hi => (hsp i hi).symm
    rw [h] at e3; cases e3
  | error e' =>
    obtain ⟨t, ph⟩ := x
    have h0 := hs t.node (.inl rfl)
    unfold spatialTaskStep at h e2
    simp only at h e2
    rw [← h0, hp] at e2
    split at h
    · rename_i en
      rw [en] at e2
      cases h; cases e2; rfl
    · rename_i nd en
      rw [en] at e2
      simp only at e2
      split at h
      · rename_i ed
        rw [ed] at e2
        cases h; cases e2; rfl
      · rename_i v' ed
        rw [ed] at e2
        simp only at e2
        split at h
        · split at h
          · rename_i hfit
            simp only at e2
            rw [if_pos hfit] at e2
            cases h; cases e2; rfl
          · cases h
        · cases h
      · rename_i r ed
        rw [ed] at e2
        simp only at e2
        split at h
        · rename_i left
          have h1 := hs left (.inr ⟨left, rfl, .inl rfl⟩)
          have h2 := hs (left + 1) (.inr ⟨left, rfl, .inr rfl⟩)
          simp only [← h1, ← h2] at e2
          split at h
          · cases h
          · rename_i hne
            cases h
            split at e2
            · rename_i ln rn e5 e6
              exact (hne ln rn e5 e6).elim
            · cases e2; rfl
        · rw [hl] at e2
          rename_i hph
          split at e2
          · rename_i left; exact (hph left rfl).elim
          · split at h
            · cases h
            · rename_i ea
              rw [ea] at e2
              cases h; cases e2; rfl
            · rename_i ea
              rw [ea] at e2
              cases h; cases e2; rfl

theorem spatialStep_inv {ctx : SpatialCtx F} {thr : F} {s s' : SpatialState F} {k : Nat} {x : SpatialTask × SpatialPhase}
    (h : spatialStep ctx thr s k = .ok s') (hk : s.pending[k]? = some x) :
    ∃ e, spatialTaskStep ctx thr s.nodes s.counter s.refCount s.prims (s.refs.slice x.1.begin x.1.splitEnd) x.1 x.2 =
        .ok e ∧ s' = ⟨e.nodes, e.counter, s.refs.write x.1.begin e.view, e.refCount, e.prims,
          s.pending.eraseIdx k ++ e.new⟩ := by
  unfold spatialStep at h
  obtain ⟨t, ph⟩ := x
  simp only [hk] at h
  split at h
  · cases h
  · rename_i e he
    cases h
    exact ⟨e, he, rfl⟩

theorem spatialLegal_snoc {ctx : SpatialCtx F} {thr : F} {k : Nat} : ∀ {ks : List Nat} {s s' : SpatialState F},
    SpatialLegal ctx thr ks s → spatialExec ctx thr ks s = .ok s' → k < s'.pending.length →
    SpatialLegal ctx thr (ks ++ [k]) s
  | [], s, s', _, e, hk => by
    cases e
    exact ⟨hk, fun _ _ => trivial⟩
  | j :: ks, s, s', h, e, hk => by
    refine ⟨h.1, fun s₁ e₁ => ?_⟩
    unfold spatialExec at e
    rw [e₁] at e
    exact spatialLegal_snoc (h.2 s₁ e₁) e hk

theorem spatialExec_snoc {ctx : SpatialCtx F} {thr : F} {k : Nat} : ∀ {ks : List Nat} {s s' : SpatialState F},
    spatialExec ctx thr ks s = .ok s' → spatialExec ctx thr (ks ++ [k]) s = spatialStep ctx thr s' k
  | [], s, s', e => by
    cases e
    simp only [List.nil_append, spatialExec]
    cases spatialStep ctx thr s k <;> rfl
  | j :: ks, s, s', e => by
    simp only [List.cons_append, spatialExec] at e ⊢
    cases e₁ : spatialStep ctx thr s j with
    | error f => rw [e₁] at e; cases e
    | ok s₁ => rw [e₁] at e; exact spatialExec_snoc (ks := ks) e

/-- The states of a spatial build that whole steps lead to. -/
def SpatialReached (b : Builder F) (split : Nat → Fin 3 → F → Aabb F × Aabb F)
    (sort : Fin 3 → List (Ref F) → Option (List (Ref F))) (order : List Nat) (s : SpatialState F) : Prop :=
  ∃ ks, b.SpatialSchedule split sort order ks ∧
    spatialExec (b.spatialCtx split sort order) (spatialThreshold (b.spatialCtx split sort order)) ks
      (spatialInit (b.spatialCtx split sort order)) = .ok s

theorem SpatialReached.size {b : Builder F} {split : Nat → Fin 3 → F → Aabb F × Aabb F}
    {sort : Fin 3 → List (Ref F) → Option (List (Ref F))} {order : List Nat} {s : SpatialState F}
    (h : b.LegalSpatial order sort) (hs : SpatialReached b split sort order s) :
    s.nodes.length = 2 * referenceLimit F b.primitives.length + 1 ∧ s.prims.length = referenceLimit F b.primitives.length ∧
      s.refs.Len (referenceLimit F b.primitives.length) := by
  obtain ⟨ks, hl, e⟩ := hs
  obtain ⟨hset, hmax, _⟩ := h.setting (split := split)
  rcases (spatialInit_inv hset).exec hset.sorts hset.prims ks with ⟨f, e', _⟩ | ⟨s0, r, e', hI, _⟩
  · rw [e] at e'; cases e'
  rw [e] at e'
  cases e'
  obtain ⟨⟨fp, rg, ts, w, hD, _⟩, hlen, hcnt, hpl⟩ := hI
  rw [← hmax]
  exact ⟨hlen, hpl, hD.viewLen⟩

theorem spatial_system_apart {b : Builder F} (split : Nat → Fin 3 → F → Aabb F × Aabb F)
    {sort : Fin 3 → List (Ref F) → Option (List (Ref F))} {order : List Nat} (h : b.LegalSpatial order sort) :
    (spatialSystem (b.spatialCtx split sort order)).Apart (SpatialReached b split sort order) where
  refl s c := by cases c <;> first | rfl | exact ⟨rfl, rfl, rfl⟩
  symm s t c h := by cases c <;> first | exact Eq.symm h | exact ⟨h.1.symm, h.2.1.symm, h.2.2.symm⟩
  trans s t u c h1 h2 := by
    cases c <;> first | exact Eq.trans h1 h2 | exact ⟨h1.1.trans h2.1, h1.2.1.trans h2.2.1, h1.2.2.trans h2.2.2⟩
  size_refl s := ⟨rfl, rfl, rfl, rfl, rfl⟩
  size_symm s t h := ⟨h.1.symm, h.2.1.symm, h.2.2.1.symm, h.2.2.2.1.symm, h.2.2.2.2.symm⟩
  size_trans s t u h1 h2 := ⟨h1.1.trans h2.1, h1.2.1.trans h2.2.1, h1.2.2.1.trans h2.2.2.1,
    h1.2.2.2.1.trans h2.2.2.2.1, h1.2.2.2.2.trans h2.2.2.2.2⟩
  merge s r D p n hs := by
    obtain ⟨ns, n1, n2, n3⟩ := choose_list s.nodes r.nodes hs.1 fun i => D (.node i)
    obtain ⟨ps, p1, p2, p3⟩ := choose_list s.prims r.prims hs.2.1 fun i => D (.index i)
    obtain ⟨xs, x1, x2, x3⟩ := choose_list s.refs.x r.refs.x hs.2.2.1 fun i => D (.ref i)
    obtain ⟨ys, y1, y2, y3⟩ := choose_list s.refs.y r.refs.y hs.2.2.2.1 fun i => D (.ref i)
    obtain ⟨zs, z1, z2, z3⟩ := choose_list s.refs.z r.refs.z hs.2.2.2.2 fun i => D (.ref i)
    refine ⟨⟨ns, n.1, ⟨xs, ys, zs⟩, n.2, ps, p⟩, rfl, rfl, ⟨n1.symm, p1.symm, x1.symm, y1.symm, z1.symm⟩,
      fun c hc => ?_, fun c hc => ?_⟩
    · cases c with
      | node i => exact n2 i hc
      | index i => exact p2 i hc
      | ref i => exact ⟨x2 i hc, y2 i hc, z2 i hc⟩
    · cases c with
      | node i => exact n3 i hc
      | index i => exact p3 i hc
      | ref i => exact ⟨x3 i hc, y3 i hc, z3 i hc⟩
  apart s hs i j x y hij hx hy c hc := by
    obtain ⟨ks, _, e⟩ := hs
    exact (C73_spatial_apart b split sort order ks h s e).1 i j x y hij hx hy c hc
  local_ok s hs k x m hk hm hsame := by
    have hsz := hs.size h
    obtain ⟨ks, hl, e⟩ := hs
    have hsl : m.refs.slice x.1.begin x.1.splitEnd = s.refs.slice x.1.begin x.1.splitEnd := by
      unfold RefView.slice
      rw [sliceOf_congr fun i h1 h2 => (hsame (.ref i) ⟨h1, h2⟩).1.symm,
        sliceOf_congr fun i h1 h2 => (hsame (.ref i) ⟨h1, h2⟩).2.1.symm,
        sliceOf_congr fun i h1 h2 => (hsame (.ref i) ⟨h1, h2⟩).2.2.symm]
    cases e1 : spatialStep (b.spatialCtx split sort order) (spatialThreshold (b.spatialCtx split sort order)) s k with
    | error er =>
      refine .inl ⟨er, e1, ?_⟩
      unfold spatialStep at e1
      simp only [show s.pending[k]? = some x from hk] at e1
      show spatialStep _ _ { m with counter := s.counter, refCount := s.refCount, pending := [x] } 0 = _
      unfold spatialStep
      simp only [List.getElem?_cons_zero, hsl]
      cases e2 : spatialTaskStep (b.spatialCtx split sort order) (spatialThreshold (b.spatialCtx split sort order))
          s.nodes s.counter s.refCount s.prims (s.refs.slice x.1.begin x.1.splitEnd) x.1 x.2 with
      | ok r => rw [e2] at e1; cases e1
      | error er' =>
        rw [e2] at e1
        cases e1
        rw [spatialTaskStep_reads_error e2 hm.1.symm hm.2.1.symm (fun i hi => hsame (.node i) hi)
          fun i hi => hsame (.index i) hi]
    | ok s' =>
      have hs' : SpatialReached b split sort order s' := ⟨ks ++ [k],
        spatialLegal_snoc hl e (List.getElem?_eq_some_iff.1 hk).1, by rw [spatialExec_snoc e, e1]⟩
      have hsz' := hs'.size h
      obtain ⟨_, _, h3⟩ := C73_spatial_apart b split sort order ks h s e
      obtain ⟨new, hnew, hfr, hloc⟩ := h3 k x s' hk e1
      obtain ⟨r, e2, hrp, hrc, hrc', hr⟩ := hloc { m with counter := s.counter, refCount := s.refCount, pending := [x] } 0
        rfl rfl rfl hm.1.symm hm.2.1.symm
        ⟨hm.2.2.1.symm, by rw [hsz.2.2.1, ← hsz.2.2.2.1]; exact hm.2.2.2.1.symm,
          by rw [hsz.2.2.1, ← hsz.2.2.2.2]; exact hm.2.2.2.2.symm⟩
        (fun c hc => by have := hsame c hc; cases c <;> exact this)
      have hr' : r.pending = new := by rw [hrp]; rfl
      refine .inr ⟨s', r, e1, e2, hs', ⟨hsz.1.trans hsz'.1.symm, hsz.2.1.trans hsz'.2.1.symm,
        hsz.2.2.1.trans hsz'.2.2.1.symm, hsz.2.2.2.1.trans hsz'.2.2.2.1.symm, hsz.2.2.2.2.trans hsz'.2.2.2.2.symm⟩, ?_,
        by show s'.pending = s.pending.eraseIdx k ++ r.pending; rw [hr', hnew],
        by show (s'.counter, s'.refCount) = (r.counter, r.refCount); rw [hrc, hrc'], hfr, hr⟩
      obtain ⟨q1, t1, rfl⟩ := spatialStep_inv e1 hk
      obtain ⟨q2, t2, rfl⟩ := spatialStep_inv e2 rfl
      obtain ⟨q3, t3, _, _, _, hv, _⟩ := spatialTaskStep_reads (nodes2 := m.nodes) (prims2 := m.prims) t1 hm.1.symm
        hm.2.1.symm (fun i hi => hsame (.node i) hi) fun i hi => hsame (.index i) hi
      simp only at t2
      rw [hsl, t3] at t2
      cases t2
      obtain ⟨l1, l2⟩ := spatialTaskStep_length t1
      obtain ⟨l3, l4⟩ := spatialTaskStep_length t3
      refine ⟨by show q1.nodes.length = q2.nodes.length; rw [l1, l3]; exact hm.1,
        by show q1.prims.length = q2.prims.length; rw [l2, l4]; exact hm.2.1, ?_, ?_, ?_⟩
      · exact writeAt_length_eq hm.2.2.1 (by rw [hv])
      · exact writeAt_length_eq hm.2.2.2.1 (by rw [hv])
      · exact writeAt_length_eq hm.2.2.2.2 (by rw [hv])

/-- C79, spatial build.  As for the binned build, with faults: a task faults in the middle of overlapping steps only if
some order of whole steps faults in the same way, and a task that does not fault can end its step. -/
theorem C79_spatial_overlap (b : Builder F) (split : Nat → Fin 3 → F → Aabb F × Aabb F)
    (sort : Fin 3 → List (Ref F) → Option (List (Ref F))) (order : List Nat) (h : b.LegalSpatial order sort)
    (f : Fine (SpatialState F))
    (hf : FineReach (spatialSystem (b.spatialCtx split sort order)) (spatialInit (b.spatialCtx split sort order)) f) :
    (∃ ks s, b.SpatialSchedule split sort order ks ∧
      spatialExec (b.spatialCtx split sort order) (spatialThreshold (b.spatialCtx split sort order)) ks
        (spatialInit (b.spatialCtx split sort order)) = .ok s ∧
      f.state.pending = s.pending ∧ f.state.counter = s.counter ∧ f.state.refCount = s.refCount ∧
      f.running.length = s.pending.length ∧
      (∀ c, (∀ k x m, f.Runs (spatialSystem (b.spatialCtx split sort order)) k x m → ¬ SpatialTask.Uses x c) →
        s.SameAt f.state c) ∧ (f.state.pending = [] → f.state = s)) ∧
    (∀ e, f.Faults (spatialSystem (b.spatialCtx split sort order)) e →
      ∃ ks, b.SpatialSchedule split sort order ks ∧ b.constructSpatialSah split sort order ks = .ok (.error e)) ∧
    (∀ k x m, f.Runs (spatialSystem (b.spatialCtx split sort order)) k x m →
      (∃ e, f.Faults (spatialSystem (b.spatialCtx split sort order)) e) ∨
      ∃ f', FineStep (spatialSystem (b.spatialCtx split sort order)) f f' ∧
        ∃ new, f'.state.pending = f.state.pending.eraseIdx k ++ new) ∧
    (f.state.pending = [] → ∃ ks, b.SpatialSchedule split sort order ks ∧
      b.constructSpatialSah split sort order ks = .ok (.ok (some (spatialFinish f.state)))) := by
  have hM := spatial_system_apart split h
  have hst : ∃ s, SpatialReached b split sort order s ∧ Stands (spatialSystem (b.spatialCtx split sort order)) f s := by
    induction hf with
    | init => exact ⟨_, ⟨[], trivial, rfl⟩, Stands.init hM⟩
    | step _ hs ih =>
      obtain ⟨s, hP, hS⟩ := ih
      rcases hS.step hM hP hs with ⟨h', _⟩ | ⟨k, s', _, _, hP', h'⟩
      · exact ⟨s, hP, h'⟩
      · exact ⟨s', hP', h'⟩
  obtain ⟨s, hP, hS⟩ := hst
  have hP0 := hP
  obtain ⟨ks, hks, e⟩ := hP0
  obtain ⟨hset, hmax, hc⟩ := h.setting (split := split)
  have hfin : f.state.pending = [] → f.state = s := by
    intro hp
    have same : ∀ c, s.SameAt f.state c := fun c => hS.rest c fun k x m hr => by
      have := hr.1
      rw [show (spatialSystem (b.spatialCtx split sort order)).pending f.state = [] from hp] at this
      cases this
    obtain ⟨n, c, ⟨rx, ry, rz⟩, rc, p, q⟩ := s
    obtain ⟨⟨n', c', ⟨rx', ry', rz'⟩, rc', p', q'⟩, run⟩ := f
    have h1 : n = n' := List.ext_getElem? fun i => same (.node i)
    have h2 : p = p' := List.ext_getElem? fun i => same (.index i)
    have h3 : rx = rx' := List.ext_getElem? fun i => (same (.ref i)).1
    have h4 : ry = ry' := List.ext_getElem? fun i => (same (.ref i)).2.1
    have h5 : rz = rz' := List.ext_getElem? fun i => (same (.ref i)).2.2
    have h6 : (c', rc') = (c, rc) := hS.counters
    have h7 : q' = q := hS.pending
    cases h6
    simp only [h1, h2, h3, h4, h5, h7]
  have hcnt : (f.state.counter, f.state.refCount) = (s.counter, s.refCount) := hS.counters
  refine ⟨⟨ks, s, hks, e, hS.pending, congrArg Prod.fst hcnt, congrArg Prod.snd hcnt, hS.length, hS.rest, hfin⟩, ?_, ?_, ?_⟩
  · rintro er ⟨k, x, m, hr, he⟩
    rcases hS.progress hM hP hr with ⟨e0, e1, e2⟩ | ⟨r, _, e2, _⟩
    · rw [e2] at he
      cases he
      have hk : s.pending[k]? = some x := by
        have := hr.1
        rw [hS.pending] at this
        exact this
      have e1 : spatialStep _ _ s k = .error er := e1
      refine ⟨ks ++ [k], spatialLegal_snoc hks e (List.getElem?_eq_some_iff.1 hk).1, ?_⟩
      have e3 := spatialExec_snoc (k := k) e
      rw [e1] at e3
      rw [hc, Except.ok.injEq]
      rcases spatial_main hset (ks ++ [k]) with ⟨f', e', _⟩ | ⟨s', e', _⟩
      · unfold spatialBuild at e' ⊢
        rw [e3] at e' ⊢
        split at e'
        · cases e'
        · rename_i hg
          rw [if_neg hg]
      · rw [e3] at e'; cases e'
    · rw [e2] at he; cases he
  · intro k x m hr
    rcases hS.progress hM hP hr with ⟨e0, _, e2⟩ | ⟨r, f', _, h1, h2, _⟩
    · exact .inl ⟨e0, k, x, m, hr, e2⟩
    · exact .inr ⟨f', h1, _, h2⟩
  · intro hp
    refine ⟨ks, hks, ?_⟩
    have hfs := hfin hp
    rw [hfs] at hp ⊢
    rw [hc, Except.ok.injEq]
    rcases spatial_main hset ks with ⟨f', e', _⟩ | ⟨s', e', _, _, h4⟩
    · unfold spatialBuild at e'
      rw [e] at e'
      simp only [hp] at e'
      split at e' <;> cases e'
    · rw [e] at e'; cases e'
      exact (h4 hp).1

theorem fineSpatial_of_exec {b : Builder F} {split : Nat → Fin 3 → F → Aabb F × Aabb F}
    {sort : Fin 3 → List (Ref F) → Option (List (Ref F))} {order : List Nat} (h : b.LegalSpatial order sort) :
    ∀ (ks : List Nat) (s s' : SpatialState F), SpatialReached b split sort order s →
    FineReach (spatialSystem (b.spatialCtx split sort order)) (spatialInit (b.spatialCtx split sort order))
      ⟨s, s.pending.map fun _ => none⟩ →
    SpatialLegal (b.spatialCtx split sort order) (spatialThreshold (b.spatialCtx split sort order)) ks s →
    spatialExec (b.spatialCtx split sort order) (spatialThreshold (b.spatialCtx split sort order)) ks s = .ok s' →
    FineReach (spatialSystem (b.spatialCtx split sort order)) (spatialInit (b.spatialCtx split sort order))
      ⟨s', s'.pending.map fun _ => none⟩
  | [], s, s', _, hr, _, e => by cases e; exact hr
  | k :: ks, s, s', hP, hr, hl, e => by
    simp only [spatialExec] at e
    cases e₁ : spatialStep (b.spatialCtx split sort order) (spatialThreshold (b.spatialCtx split sort order)) s k with
    | error f => rw [e₁] at e; cases e
    | ok s₁ =>
      rw [e₁] at e
      obtain ⟨hP', hr'⟩ := FineReach.whole (spatial_system_apart split h) hP hl.1 hr (s' := s₁) e₁
      exact fineSpatial_of_exec h ks s₁ s' hP' hr' (hl.2 s₁ e₁) e

/-- Whole steps one after the other are a special case of overlapping steps. -/
theorem C79_spatial_whole (b : Builder F) (split : Nat → Fin 3 → F → Aabb F × Aabb F)
    (sort : Fin 3 → List (Ref F) → Option (List (Ref F))) (order ks : List Nat) (h : b.LegalSpatial order sort)
    (hk : b.SpatialSchedule split sort order ks) (s : SpatialState F)
    (e : spatialExec (b.spatialCtx split sort order) (spatialThreshold (b.spatialCtx split sort order)) ks
      (spatialInit (b.spatialCtx split sort order)) = .ok s) :
    FineReach (spatialSystem (b.spatialCtx split sort order)) (spatialInit (b.spatialCtx split sort order))
      ⟨s, s.pending.map fun _ => none⟩ :=
  fineSpatial_of_exec h ks _ s ⟨[], trivial, rfl⟩ .init hk e

/-! ### The hypotheses are met: two tasks at work at the same time -/

example : demoBuilder.Legal [0, 1, 2, 3] ∧ ∃ f x y s,
    FineReach (binnedSystem (demoBuilder.ctx [0, 1, 2, 3])) (binnedInit (demoBuilder.ctx [0, 1, 2, 3])) f ∧
      f.Runs (binnedSystem (demoBuilder.ctx [0, 1, 2, 3])) 0 x s ∧
      f.Runs (binnedSystem (demoBuilder.ctx [0, 1, 2, 3])) 1 y s := by
  refine ⟨demo_legal, ?_⟩
  have hp : (binnedExec (demoBuilder.ctx [0, 1, 2, 3]) [0, 0] (binnedInit (demoBuilder.ctx [0, 1, 2, 3]))).map
      (fun s => s.pending.map fun x => (x.1.node, x.1.begin, x.1.stop)) = some [(1, 0, 2), (2, 2, 4)] := by
    decide +kernel
  obtain ⟨s, e, hs⟩ := Option.map_eq_some_iff.1 hp
  obtain ⟨x, y, hxy⟩ : ∃ x y, s.pending = [x, y] := by
    match hq : s.pending with
    | [] => rw [hq] at hs; simp at hs
    | [x] => rw [hq] at hs; simp at hs
    | [x, y] => exact ⟨x, y, rfl⟩
    | x :: y :: z :: w => rw [hq] at hs; simp at hs
  have hl : demoBuilder.Schedule [0, 1, 2, 3] [0, 0] := by
    refine ⟨by decide +kernel, fun s1 e1 => ⟨?_, fun _ _ => trivial⟩⟩
    have hq : (binnedStep (demoBuilder.ctx [0, 1, 2, 3]) (binnedInit (demoBuilder.ctx [0, 1, 2, 3])) 0).map
      (fun s => s.pending.length) = some 1 := by decide +kernel
    rw [e1] at hq
    have : s1.pending.length = 1 := by simpa using hq
    omega
  obtain ⟨f, h1, h2, h3⟩ := fine_two (C79_binned_whole _ _ _ demo_legal hl s e) hxy
  exact ⟨f, x, y, s, h1, h2, h3⟩

end Rtbvh
