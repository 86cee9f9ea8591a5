import Verif.Props.Impure
/- A build whose `center()` answers are the centers themselves is the pure build, history by history. -/
namespace Rtbvh
variable {F : Type}

theorem twinWrite_get {α : Type} (l xs : List α) (b i : Nat) (h : b + xs.length ≤ l.length) :
    (writeAt l b xs)[i]? = if b ≤ i ∧ i < b + xs.length then xs[i - b]? else l[i]? := by
  unfold writeAt
  by_cases h1 : i < b
  · rw [if_neg (by omega), List.append_assoc, List.getElem?_append_left (by simp; omega), List.getElem?_take_of_lt h1]
  · by_cases h2 : i < b + xs.length
    · rw [if_pos (by omega), List.getElem?_append_left (by simp; omega), List.getElem?_append_right (by simp; omega)]
      congr 1; simp; omega
    · rw [if_neg (by omega), List.getElem?_append_right (by simp; omega), List.getElem?_drop]
      congr 1; simp; omega

theorem twinSlice_get {α : Type} (l : List α) (b e j : Nat) :
    (sliceOf l b e)[j]? = if j < e - b then l[b + j]? else none := by
  unfold sliceOf
  split
  · rename_i h; rw [List.getElem?_take_of_lt h, List.getElem?_drop]
  · rename_i h; exact List.getElem?_eq_none (by simp; omega)

theorem twinSlice_congr {α : Type} {l l' : List α} {b e : Nat} (h : ∀ i, b ≤ i → i < e → l'[i]? = l[i]?) :
    sliceOf l' b e = sliceOf l b e := by
  apply List.ext_getElem?
  intro j
  rw [twinSlice_get, twinSlice_get]
  split
  · exact h _ (by omega) (by omega)
  · rfl

/-- The node indexes a pending task may write. -/
def taskFoot : BinnedTask × TaskPhase → List Nat
  | (t, .ready) => [t.node]
  | (t, .allocated left) => [t.node, left, left + 1]

/-- Two pending tasks have nothing in common. -/
def TasksApart (a b : BinnedTask × TaskPhase) : Prop :=
  (a.1.stop ≤ b.1.begin ∨ b.1.stop ≤ a.1.begin) ∧ ∀ i ∈ taskFoot a, i ∉ taskFoot b

theorem TasksApart.symm {a b : BinnedTask × TaskPhase} (h : TasksApart a b) : TasksApart b a :=
  ⟨h.1.symm, fun i hi hj => h.2 i hj hi⟩

theorem taskFoot_node (x : BinnedTask × TaskPhase) : x.1.node ∈ taskFoot x := by
  obtain ⟨t, ph⟩ := x
  cases ph <;> simp [taskFoot]

variable [FloatOps F]

/-- What holds of one pending task. -/
structure TaskFacts (ctx : BinnedCtx F) (nodes : List (BvhNode F)) (b : Nat) (sl fp : List Nat)
    (x : BinnedTask × TaskPhase) : Prop where
  foot : ∀ i ∈ taskFoot x, i ∈ fp
  lo : b ≤ x.1.begin
  mid : x.1.begin < x.1.stop
  hi : x.1.stop ≤ b + sl.length
  ids : InScene ctx (sliceOf sl (x.1.begin - b) (x.1.stop - b))
  nd : ∃ nd, nodes[x.1.node]? = some nd ∧ ∀ left, x.2 = .allocated left → ∃ sl' m lb rb,
    binnedDecide ctx nd.bounds (sliceOf sl (x.1.begin - b) (x.1.stop - b)) x.1.depth = some (.split sl' m lb rb)

theorem Den.tasksApart {ctx : BinnedCtx F} {nodes : List (BvhNode F)} {idx b d : Nat} {sl P fp : List Nat} {T : BTree F}
    {ts : List (BinnedTask × TaskPhase)} {r : Nat} (h : Den ctx nodes idx b d sl T P fp ts r) (hnd : fp.Nodup) :
    ts.Pairwise TasksApart ∧ ∀ x ∈ ts, TaskFacts ctx nodes b sl fp x := by
  induction h with
  | @ready idx b d sl T P nd hd h hne hs hb =>
    refine ⟨by simp, ?_⟩
    intro x hx
    simp only [List.mem_singleton] at hx
    subst hx
    have := List.length_pos_iff.2 hne
    refine ⟨by simp [taskFoot], by simp, by simp; omega, by simp, ?_, nd, h, by simp⟩
    simp only [Nat.sub_self, Nat.add_sub_cancel_left, sliceOf_full]; exact hs
  | @alloc idx b d sl T P nd left sl' mid lb rb r hd h hne hs hb hdec hr =>
    refine ⟨by simp, ?_⟩
    intro x hx
    simp only [List.mem_singleton] at hx
    subst hx
    have := List.length_pos_iff.2 hne
    refine ⟨by simp [taskFoot], by simp, by simp; omega, by simp, ?_, nd, h, ?_⟩
    · simp only [Nat.sub_self, Nat.add_sub_cancel_left, sliceOf_full]; exact hs
    · intro l _
      simp only [Nat.sub_self, Nat.add_sub_cancel_left, sliceOf_full]; exact ⟨_, _, _, _, hdec⟩
  | leaf => simp
  | @node idx b d slL slR nd left L R PL PR fpL fpR tsL tsR rL rR h h1 h2 hL hR ihL ihR =>
    rw [List.nodup_cons] at hnd
    obtain ⟨hni, hnd⟩ := hnd
    rw [List.nodup_append] at hnd
    obtain ⟨hndL, hndR, hdisj⟩ := hnd
    obtain ⟨pL, fL⟩ := ihL hndL
    obtain ⟨pR, fR⟩ := ihR hndR
    refine ⟨List.pairwise_append.2 ⟨pL, pR, fun x hx y hy => ?_⟩, fun x hx => ?_⟩
    · have a := fL x hx
      have c := fR y hy
      refine ⟨.inl (le_trans a.hi c.lo), fun i hi hj => hdisj i (a.foot i hi) i (c.foot i hj) rfl⟩
    · rcases List.mem_append.1 hx with hx | hx
      · have a := fL x hx
        have e : sliceOf (slL ++ slR) (x.1.begin - b) (x.1.stop - b) = sliceOf slL (x.1.begin - b) (x.1.stop - b) :=
          sliceOf_append_left _ _ _ _ (by have := a.hi; omega)
        refine ⟨fun i hi => by simp [a.foot i hi], a.lo, a.mid, by have := a.hi; simp; omega, by rw [e]; exact a.ids, ?_⟩
        rw [e]; exact a.nd
      · have a := fR x hx
        have e : sliceOf (slL ++ slR) (x.1.begin - b) (x.1.stop - b) =
            sliceOf slR (x.1.begin - (b + slL.length)) (x.1.stop - (b + slL.length)) := by
          rw [sliceOf_append_right _ _ _ _ (by have := a.lo; omega)]
          congr 1 <;> omega
        refine ⟨fun i hi => by simp [a.foot i hi], by have := a.lo; omega, a.mid, by have := a.hi; simp; omega,
          by rw [e]; exact a.ids, ?_⟩
        rw [e]; exact a.nd

/-- The facts about a reachable state. -/
theorem BInv.tasksApart {ctx : BinnedCtx F} {n : Nat} {s : BinnedState F} {T : BTree F} {P : List Nat} {r : Nat}
    (h : BInv ctx n s T P r) : s.pending.Pairwise TasksApart ∧
    (∀ x ∈ s.pending, TaskFacts ctx s.nodes 0 s.prims (List.range s.counter) x) ∧ s.prims.length = n := by
  obtain ⟨⟨fp, ts, hD, hnd, hfl, hfc, hts⟩, hlen, hpl⟩ := h
  obtain ⟨p, f⟩ := hD.tasksApart hnd
  refine ⟨(hts.pairwise_iff fun h => h.symm).1 p, fun x hx => ?_, hpl⟩
  have a := f x (hts.mem_iff.2 hx)
  exact ⟨fun i hi => List.mem_range.2 (hfc i (a.foot i hi)), a.lo, a.mid, a.hi, a.ids, a.nd⟩

/-- What a task of the pure build decides. -/
def decided (ctx : BinnedCtx F) (nodes : List (BvhNode F)) (prims : List Nat) (t : BinnedTask) :
    Option (BinnedOutcome F) :=
  (nodes[t.node]?).bind fun nd => binnedDecide ctx nd.bounds (sliceOf prims t.begin t.stop) t.depth

/-- The same task in the build with answers: after the allocation it remembers its decision. -/
def liftTask (ctx : BinnedCtx F) (nodes : List (BvhNode F)) (prims : List Nat) (x : BinnedTask × TaskPhase) :
    BinnedTask × WithPhase F :=
  match x.2 with
  | .ready => (x.1, .ready)
  | .allocated left =>
    match decided ctx nodes prims x.1 with
    | some (.split _ mid lb rb) => (x.1, .allocated left mid lb rb)
    | _ => (x.1, .ready)

/-- The two builds at the same moment: they differ only in the id slices of tasks between their two steps, which the build
with answers has reordered already. -/
structure Twin (ctx : BinnedCtx F) (s : BinnedState F) (w : WithState F) : Prop where
  nodes : w.nodes = s.nodes
  counter : w.counter = s.counter
  pending : w.pending = s.pending.map (liftTask ctx s.nodes s.prims)
  len : w.prims.length = s.prims.length
  same : ∀ i, (∀ x ∈ s.pending, x.2 ≠ .ready → ¬ (x.1.begin ≤ i ∧ i < x.1.stop)) → w.prims[i]? = s.prims[i]?
  done : ∀ t left, (t, TaskPhase.allocated left) ∈ s.pending → ∀ sl mid lb rb,
    decided ctx s.nodes s.prims t = some (.split sl mid lb rb) → sliceOf w.prims t.begin t.stop = sl

theorem liftTask_congr {ctx : BinnedCtx F} {nodes nodes' : List (BvhNode F)} {prims prims' : List Nat}
    {x : BinnedTask × TaskPhase} (h : decided ctx nodes' prims' x.1 = decided ctx nodes prims x.1) :
    liftTask ctx nodes' prims' x = liftTask ctx nodes prims x := by
  unfold liftTask
  rw [h]

/-- The answers are the centers. -/
def Answers.Pure (ctx : BinnedCtx F) (ans : Answers F) : Prop :=
  (∀ p c axis, ctx.centers[p]? = some c → ans.bin p axis = c) ∧ ∀ p c, ctx.centers[p]? = some c → ans.part p = c

theorem decide_len {ctx : BinnedCtx F} {bounds : Aabb F} {sl : List Nat} {depth : Nat} (h : InScene ctx sl) :
    (∀ sl', binnedDecide ctx bounds sl depth = some (.leaf sl') → sl'.length = sl.length) ∧
    (∀ sl' mid lb rb, binnedDecide ctx bounds sl depth = some (.split sl' mid lb rb) →
      sl'.length = sl.length ∧ mid < sl.length) := by
  rcases binnedDecide_total (bounds := bounds) depth h with ⟨_, e, p⟩ | ⟨_, _, _, _, e, p, _, hm, _⟩ <;> rw [e]
  · refine ⟨fun _ h => ?_, fun _ _ _ _ h => by cases h⟩
    cases h; exact p.length_eq
  · refine ⟨fun _ h => (by cases h), fun _ _ _ _ h => ?_⟩
    cases h; exact ⟨p.length_eq, hm⟩

theorem Twin.step {ctx : BinnedCtx F} {n : Nat} {s s' : BinnedState F} {T : BTree F} {P : List Nat} {r : Nat}
    {w : WithState F} {ans : Answers F} (hI : BInv ctx n s T P r) (hw : Twin ctx s w) (ha : ans.Pure ctx) {k : Nat}
    (hk : k < s.pending.length) (e : binnedStep ctx s k = some s') :
    ∃ w', withStep ctx w k ans = some w' ∧ Twin ctx s' w' := by
  obtain ⟨hpw, hfacts, hpl⟩ := hI.tasksApart
  obtain ⟨⟨t, ph⟩, hkk⟩ : ∃ x, s.pending[k] = x := ⟨_, rfl⟩
  have hk? : s.pending[k]? = some (t, ph) := by rw [List.getElem?_eq_getElem hk, hkk]
  have hmem : (t, ph) ∈ s.pending := hkk ▸ List.getElem_mem hk
  have hf := hfacts _ hmem
  have hperm : ((t, ph) :: s.pending.eraseIdx k).Perm s.pending := by
    have := List.getElem_cons_eraseIdx_perm hk
    rwa [hkk] at this
  have hoth : ∀ y ∈ s.pending.eraseIdx k, TasksApart (t, ph) y ∧ y ∈ s.pending := by
    have := (hperm.pairwise_iff fun h => TasksApart.symm h).2 hpw
    rw [List.pairwise_cons] at this
    exact fun y hy => ⟨this.1 y hy, hperm.mem_iff.1 (List.mem_cons_of_mem _ hy)⟩
  obtain ⟨nd, hnd, hall⟩ := hf.nd
  have hids := hf.ids
  have h1 := hf.mid
  have h2 := hf.hi
  simp only [Nat.sub_zero, Nat.zero_add] at hids h2 hall hnd h1
  have hslen : (sliceOf s.prims t.begin t.stop).length = t.stop - t.begin := by simp [sliceOf]; omega
  have hdl := fun bounds depth => decide_len (bounds := bounds) (depth := depth) hids
  have hpd : decided ctx s.nodes s.prims t = binnedDecide ctx nd.bounds (sliceOf s.prims t.begin t.stop) t.depth := by
    unfold decided; rw [hnd]; rfl
  have hdw : w.nodes[t.node]? = some nd := by rw [hw.nodes, hnd]
  -- other tasks see the same node and slice after a write of this one
  have hkeep : ∀ (nodes' : List (BvhNode F)) (xs : List Nat), xs.length = t.stop - t.begin →
      (∀ i, i ∉ taskFoot (t, ph) → nodes'[i]? = s.nodes[i]?) → ∀ y ∈ s.pending.eraseIdx k,
      decided ctx nodes' (writeAt s.prims t.begin xs) y.1 = decided ctx s.nodes s.prims y.1 := by
    intro nodes' xs hx hn y hy
    obtain ⟨hap, hyp⟩ := hoth y hy
    have e1 : nodes'[y.1.node]? = s.nodes[y.1.node]? := hn _ fun h => hap.2 _ h (taskFoot_node y)
    have e2 : sliceOf (writeAt s.prims t.begin xs) y.1.begin y.1.stop = sliceOf s.prims y.1.begin y.1.stop := by
      refine twinSlice_congr fun i hi hj => ?_
      rw [twinWrite_get _ _ _ _ (by omega), if_neg]
      have := hap.1
      simp only at this
      omega
    unfold decided
    rw [e1, e2]
  have hkeepW : ∀ xs : List Nat, xs.length = t.stop - t.begin → ∀ y ∈ s.pending.eraseIdx k,
      sliceOf (writeAt w.prims t.begin xs) y.1.begin y.1.stop = sliceOf w.prims y.1.begin y.1.stop := by
    intro xs hx y hy
    obtain ⟨hap, hyp⟩ := hoth y hy
    refine twinSlice_congr fun i hi hj => ?_
    rw [twinWrite_get _ _ _ _ (by rw [hw.len]; omega), if_neg]
    have := hap.1
    simp only at this
    omega
  unfold binnedStep at e
  rw [hk?] at e
  simp only at e
  unfold taskStep at e
  simp only [hnd] at e
  have hwk : w.pending[k]? = some (liftTask ctx s.nodes s.prims (t, ph)) := by
    rw [hw.pending, List.getElem?_map, hk?]; rfl
  cases ph with
  | ready =>
    have hsame : sliceOf w.prims t.begin t.stop = sliceOf s.prims t.begin t.stop := by
      refine twinSlice_congr fun i hi hj => hw.same i fun x hx hne => ?_
      rcases List.mem_cons.1 (hperm.mem_iff.2 hx) with rfl | hx
      · exact absurd rfl hne
      · have := (hoth x hx).1.1
        simp only at this
        omega
    have hdec : binnedDecideWith ctx ans nd.bounds (sliceOf w.prims t.begin t.stop) t.depth =
        binnedDecide ctx nd.bounds (sliceOf s.prims t.begin t.stop) t.depth := by
      rw [hsame]; exact C101_pure_decides ctx ans ha.1 ha.2 _ _ hids _
    cases hdd : binnedDecide ctx nd.bounds (sliceOf s.prims t.begin t.stop) t.depth with
    | none => simp only [hdd] at e; cases e
    | some out =>
      cases out with
      | leaf sl =>
        have hl := (hdl nd.bounds t.depth).1 _ hdd
        rw [hslen] at hl
        simp only [hdd, Option.some.injEq] at e
        subst e
        refine ⟨⟨w.nodes.set t.node (leafNode nd t.begin t.stop), w.counter, writeAt w.prims t.begin sl,
          w.pending.eraseIdx k ++ []⟩, ?_, ?_⟩
        · unfold withStep
          rw [hwk]
          simp only [liftTask, taskStepWith, hdw, hdec, hdd]
        · have hn : ∀ i, i ∉ taskFoot (t, TaskPhase.ready) →
              (s.nodes.set t.node (leafNode nd t.begin t.stop))[i]? = s.nodes[i]? := by
            intro i hi
            simp only [taskFoot, List.mem_singleton] at hi
            rw [List.getElem?_set_ne (by omega)]
          refine ⟨by rw [hw.nodes], hw.counter, ?_, ?_, ?_, ?_⟩
          · simp only [List.append_nil]
            rw [hw.pending, List.eraseIdx_map]
            exact (List.map_congr_left fun y hy => liftTask_congr (hkeep _ _ hl hn y hy)).symm
          · rw [length_writeAt _ _ _ (by rw [hw.len]; omega), length_writeAt _ _ _ (by omega), hw.len]
          · intro i hi
            simp only [List.append_nil] at hi
            rw [twinWrite_get _ _ _ _ (by rw [hw.len]; omega), twinWrite_get _ _ _ _ (by omega)]
            split
            · rfl
            · refine hw.same i fun x hx hne => ?_
              rcases List.mem_cons.1 (hperm.mem_iff.2 hx) with rfl | hx
              · exact absurd rfl hne
              · exact hi x hx hne
          · intro t' left' hm sl' mid lb rb hd
            simp only [List.append_nil] at hm
            have h3 := hkeep _ _ hl hn _ hm
            rw [h3] at hd
            have h4 := hkeepW _ hl _ hm
            rw [h4]
            exact hw.done t' left' (hoth _ hm).2 _ _ _ _ hd
      | split sl mid lb rb =>
        have hl := ((hdl nd.bounds t.depth).2 _ _ _ _ hdd).1
        rw [hslen] at hl
        simp only [hdd] at e
        have hself : writeAt s.prims t.begin (sliceOf s.prims t.begin t.stop) = s.prims := by
          apply List.ext_getElem?
          intro i
          rw [twinWrite_get _ _ _ _ (by omega)]
          split
          · rw [twinSlice_get, if_pos (by omega)]; congr 1; omega
          · rfl
        cases hal : allocate s.nodes.length s.counter with
        | mk a c =>
          cases a with
          | exhausted => simp only [hal] at e; cases e
          | outOfBounds => simp only [hal] at e; cases e
          | pair left =>
            simp only [hal, Option.some.injEq] at e
            subst e
            refine ⟨⟨w.nodes, c, writeAt w.prims t.begin sl,
              w.pending.eraseIdx k ++ [(t, .allocated left mid lb rb)]⟩, ?_, ?_⟩
            · unfold withStep
              rw [hwk]
              simp only [liftTask, taskStepWith, hdw, hdec, hdd]
              rw [hw.nodes, hw.counter, hal]
            · simp only [hself]
              refine ⟨hw.nodes, rfl, ?_, ?_, ?_, ?_⟩
              · rw [hw.pending, List.eraseIdx_map, List.map_append]
                simp only [List.map_cons, List.map_nil, liftTask, hpd, hdd]
              · rw [length_writeAt _ _ _ (by rw [hw.len]; omega), hw.len]
              · intro i hi
                have h5 := hi (t, .allocated left) (by simp) (by simp)
                rw [twinWrite_get _ _ _ _ (by rw [hw.len]; omega), if_neg (by simp only at h5; omega)]
                refine hw.same i fun x hx hne => ?_
                rcases List.mem_cons.1 (hperm.mem_iff.2 hx) with rfl | hx
                · exact absurd rfl hne
                · exact hi x (by simp [hx]) hne
              · intro t' left' hm sl' mid' lb' rb' hd
                rcases List.mem_append.1 hm with hm | hm
                · have h4 := hkeepW _ hl _ hm
                  rw [h4]
                  exact hw.done t' left' (hoth _ hm).2 _ _ _ _ hd
                · simp only [List.mem_singleton, Prod.mk.injEq] at hm
                  obtain ⟨rfl, _⟩ := hm
                  rw [hpd, hdd] at hd
                  simp only [Option.some.injEq, BinnedOutcome.split.injEq] at hd
                  obtain ⟨rfl, _⟩ := hd
                  apply List.ext_getElem?
                  intro j
                  rw [twinSlice_get]
                  split
                  · rw [twinWrite_get _ _ _ _ (by rw [hw.len]; omega), if_pos (by omega)]; congr 1; omega
                  · exact (List.getElem?_eq_none (by omega)).symm
  | allocated left =>
    obtain ⟨sl, mid, lb, rb, hdd⟩ := hall left rfl
    have hl := ((hdl nd.bounds t.depth).2 _ _ _ _ hdd).1
    rw [hslen] at hl
    have hwsl : sliceOf w.prims t.begin t.stop = sl := hw.done t left hmem _ _ _ _ (by rw [hpd, hdd])
    simp only [hdd] at e
    split at e
    · cases e
    rename_i nodes' counter' sl' new hm
    split at hm
    · rename_i ln rn hln hrn
      simp only [Option.some.injEq, Prod.mk.injEq] at hm
      obtain ⟨rfl, rfl, rfl, rfl⟩ := hm
      simp only [Option.some.injEq] at e
      subst e
      have hselfW : writeAt w.prims t.begin sl = w.prims := by
        apply List.ext_getElem?
        intro i
        rw [twinWrite_get _ _ _ _ (by rw [hw.len]; omega)]
        split
        · rw [← hwsl, twinSlice_get, if_pos (by omega)]; congr 1; omega
        · rfl
      have hln' : w.nodes[left]? = some ln := by rw [hw.nodes, hln]
      have hrn' : w.nodes[left + 1]? = some rn := by rw [hw.nodes, hrn]
      refine ⟨⟨((w.nodes.set t.node
            ((({ bounds := pad nd.bounds } : BvhNode F).setLeftFirst (some left)).setCount none)).set left
            { ln with bounds := lb }).set (left + 1) { rn with bounds := rb }, w.counter, writeAt w.prims t.begin sl,
          w.pending.eraseIdx k ++
          [({ node := left, begin := t.begin, stop := t.begin + mid, depth := t.depth + 1 }, .ready),
           ({ node := left + 1, begin := t.begin + mid, stop := t.stop, depth := t.depth + 1 }, .ready)]⟩, ?_, ?_⟩
      · unfold withStep
        rw [hwk]
        simp only [liftTask, hpd, hdd, taskStepWith, hdw, hln', hrn', hwsl]
      · have hn : ∀ i, i ∉ taskFoot (t, TaskPhase.allocated left) →
            (((s.nodes.set t.node
              ((({ bounds := pad nd.bounds } : BvhNode F).setLeftFirst (some left)).setCount none)).set left
              { ln with bounds := lb }).set (left + 1) { rn with bounds := rb })[i]? = s.nodes[i]? := by
          intro i hi
          simp only [taskFoot, List.mem_cons, List.not_mem_nil, or_false, not_or] at hi
          rw [List.getElem?_set_ne (by omega), List.getElem?_set_ne (by omega), List.getElem?_set_ne (by omega)]
        rw [hselfW]
        refine ⟨by rw [hw.nodes], hw.counter, ?_, ?_, ?_, ?_⟩
        · rw [hw.pending, List.eraseIdx_map, List.map_append]
          refine congrArg₂ (· ++ ·) ?_ rfl
          exact (List.map_congr_left fun y hy => liftTask_congr (hkeep _ _ hl hn y hy)).symm
        · rw [length_writeAt _ _ _ (by omega), hw.len]
        · intro i hi
          rw [twinWrite_get _ _ _ _ (by omega)]
          split
          · rename_i hin
            rw [← hwsl, twinSlice_get, if_pos (by omega)]
            congr 1; omega
          · rename_i hin
            refine hw.same i fun x hx hne => ?_
            rcases List.mem_cons.1 (hperm.mem_iff.2 hx) with rfl | hx
            · simp only; omega
            · exact hi x (by simp [hx]) hne
        · intro t' left' hm sl' mid' lb' rb' hd
          rcases List.mem_append.1 hm with hm | hm
          · have h3 := hkeep _ _ hl hn _ hm
            rw [h3] at hd
            exact hw.done t' left' (hoth _ hm).2 _ _ _ _ hd
          · simp at hm
    · cases hm

theorem Twin.exec {ctx : BinnedCtx F} {n : Nat} {T : BTree F} {P : List Nat} (es : List (Nat × Answers F))
    (ha : ∀ x ∈ es, x.2.Pure ctx) : ∀ {s : BinnedState F} {w : WithState F} {r : Nat}, BInv ctx n s T P r →
    Twin ctx s w → ∃ s' w', binnedExec ctx (es.map Prod.fst) s = some s' ∧ withExec ctx es w = some w' ∧ Twin ctx s' w' := by
  induction es with
  | nil => intro s w r _ h; exact ⟨s, w, rfl, rfl, h⟩
  | cons x es ih =>
    intro s w r hI h
    obtain ⟨k, ans⟩ := x
    have hes : ∀ y ∈ es, y.2.Pure ctx := fun y hy => ha y (by simp [hy])
    by_cases hk : k < s.pending.length
    · obtain ⟨s₁, r₁, e, hI₁, _⟩ := hI.step hk
      obtain ⟨w₁, ew, h₁⟩ := Twin.step hI h (ha (k, ans) (by simp)) hk e
      obtain ⟨s', w', e1, e2, h'⟩ := ih hes hI₁ h₁
      exact ⟨s', w', by simp [binnedExec, e, e1], by simp [withExec, ew, e2], h'⟩
    · obtain ⟨s', w', e1, e2, h'⟩ := ih hes hI h
      have ew : withStep ctx w k ans = some w := by
        unfold withStep
        rw [h.pending, List.getElem?_eq_none (by simpa using hk)]
      exact ⟨s', w', by simp [binnedExec, binnedStep_illegal hk, e1], by simp [withExec, ew, e2], h'⟩

theorem Twin.init (ctx : BinnedCtx F) : Twin ctx (binnedInit ctx) (withInit ctx) :=
  ⟨rfl, rfl, rfl, rfl, fun _ _ => rfl, fun _ _ h => by simp [binnedInit] at h⟩

end Rtbvh
