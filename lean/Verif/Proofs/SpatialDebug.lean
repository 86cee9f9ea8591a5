import Verif.Model.Debug
import Verif.Proofs.LocbDebug
import Verif.Proofs.SpatialMain
import Verif.Proofs.BinnedMain
/- Proofs for builds with debug assertions: the spatial and binned builders and the task spawner. -/
namespace Rtbvh
variable {F : Type} [FloatOps F]
open FloatOps

/-! ### The cost sweep -/

theorem csub_le {a b : Nat} (h : b ≤ a) : csub a b = some (a - b) := by simp [csub, h]

theorem spatialSweepD_eq (axis : Fin 3) (min binSize : F) : ∀ (l : List (SpatialBin F × Aabb F)) (i lc rc : Nat)
    (cur : Aabb F) (best : SpatialSplit F × Bool), (l.map fun p => p.1.exit).sum ≤ rc →
    spatialSweepD axis min binSize l i lc rc cur best = some (spatialSweep axis min binSize l i lc rc cur best)
  | [], _, _, _, _, _, _ => rfl
  | (b, nb) :: l, i, lc, rc, cur, best, h => by
    simp only [List.map_cons, List.sum_cons] at h
    simp only [spatialSweepD, spatialSweep, csub_le (show b.exit ≤ rc by omega), Option.bind_some]
    exact spatialSweepD_eq axis min binSize l _ _ _ _ _ (by omega)

/-- The sum of the exit counts. -/
def exits (bins : List (SpatialBin F)) : Nat := (bins.map SpatialBin.exit).sum

omit [FloatOps F] in
theorem exits_modify_keep (f : SpatialBin F → SpatialBin F) (hf : ∀ b, (f b).exit = b.exit) (bins : List (SpatialBin F))
    (j : Nat) : exits (bins.modify j f) = exits bins := by
  unfold exits
  induction bins generalizing j with
  | nil => simp
  | cons b bins ih => cases j <;> simp_all

omit [FloatOps F] in
theorem exits_modify_le (f : SpatialBin F → SpatialBin F) (hf : ∀ b, (f b).exit = b.exit + 1) (bins : List (SpatialBin F))
    (j : Nat) : exits (bins.modify j f) ≤ exits bins + 1 := by
  unfold exits
  induction bins generalizing j with
  | nil => simp
  | cons b bins ih =>
    cases j with
    | zero => simp [hf]; omega
    | succ j => have := ih j; simp at this ⊢; omega

theorem exits_clipLoop (split : Fin 3 → F → Aabb F × Aabb F) (axis : Fin 3) (min binSize : F) :
    ∀ (k j : Nat) (cur : Aabb F) (bins : List (SpatialBin F)),
    exits (clipLoop split axis min binSize k j cur bins).2 = exits bins
  | 0, _, _, _ => rfl
  | k + 1, j, cur, bins => by
    simp only [clipLoop]
    rw [exits_clipLoop split axis min binSize k]
    apply exits_modify_keep
    intro b; rfl

theorem exits_binRefs {ctx : SpatialCtx F} {axis : Fin 3} {min binSize invSize : F} : ∀ (refs : List (Ref F))
    {bins bins' : List (SpatialBin F)}, binRefs ctx axis min binSize invSize refs bins = some bins' →
    exits bins' ≤ exits bins + refs.length
  | [], _, _, h => by simp only [binRefs, Option.some.injEq] at h; subst h; simp
  | r :: rs, bins, bins', h => by
    unfold binRefs at h
    simp only at h
    split at h
    · simp only [Option.some.injEq] at h; subst h; simp
    · split at h
      · cases h
      · split at h
        · cases h
        · rename_i cur b1 hres
          have h1 := exits_binRefs rs h
          have h2 : exits b1 = exits bins := by
            split at hres
            · simp only [Option.some.injEq, Prod.mk.injEq] at hres; rw [← hres.2]
            · obtain ⟨p, _, hp⟩ := Option.map_eq_some_iff.1 hres
              have := congrArg Prod.snd hp
              simp only at this
              rw [← this, exits_clipLoop]
          refine Nat.le_trans h1 ?_
          refine Nat.le_trans (Nat.add_le_add_right (exits_modify_le _ (fun _ => rfl) _ _) _) ?_
          have h3 := exits_modify_keep (fun b => { b with aabb := b.aabb.growBB cur }) (fun _ => rfl) b1
            (spatialBinIndex ctx.binCount invSize min (r.aabb.max.get axis))
          rw [h3, h2, List.length_cons]
          omega

theorem accBoxes_length : ∀ l : List (Aabb F), (accBoxes l).length = l.length
  | [] => rfl
  | _ :: l => by simp [accBoxes, accBoxes_length l]

theorem sum_zip_le {α β : Type} (f : α → Nat) : ∀ (l : List α) (m : List β),
    ((l.zip m).map fun p => f p.1).sum ≤ (l.map f).sum
  | [], _ => by simp
  | _ :: _, [] => by simp
  | a :: l, b :: m => by have := sum_zip_le f l m; simp; omega

omit [FloatOps F] in
theorem sum_zipWith_le {β : Type} (g : SpatialBin F → β → SpatialBin F) (hg : ∀ b a, (g b a).exit = b.exit) :
    ∀ (l : List (SpatialBin F)) (m : List β), ((l.zipWith g m).map SpatialBin.exit).sum ≤ exits l
  | [], _ => by simp [exits]
  | _ :: _, [] => by simp [exits]
  | a :: l, b :: m => by
    have := sum_zipWith_le g hg l m
    simp only [exits, List.zipWith_cons_cons, List.map_cons, List.sum_cons, hg] at this ⊢; omega

theorem runBinningPassD_eq (ctx : SpatialCtx F) (refs : List (Ref F)) (split : SpatialSplit F) (axis : Fin 3) (min max : F) :
    runBinningPassD ctx refs split axis min max = runBinningPass ctx refs split axis min max := by
  unfold runBinningPassD runBinningPass
  simp only
  cases hb : binRefs ctx axis min ((max -. min) /. ofNat ctx.binCount) (one /. ((max -. min) /. ofNat ctx.binCount)) refs
      (List.replicate ctx.binCount ⟨Aabb.empty, 0, 0⟩) with
  | none => rfl
  | some bins =>
    simp only
    have h0 : exits (List.replicate ctx.binCount (⟨Aabb.empty, 0, 0⟩ : SpatialBin F)) = 0 := by simp [exits]
    have h1 := exits_binRefs refs hb
    rw [spatialSweepD_eq]
    · rfl
    · refine Nat.le_trans (sum_zip_le SpatialBin.exit _ _) (Nat.le_trans (sum_zipWith_le _ ?_ _ _) ?_)
      · intro b a; rfl
      · omega

theorem binningPassesD_eq (ctx : SpatialCtx F) (refs : List (Ref F)) (axis : Fin 3) : ∀ (k : Nat) (lo hi : F)
    (split : SpatialSplit F), binningPassesD ctx refs axis k lo hi split = binningPasses ctx refs axis k lo hi split
  | 0, _, _, _ => rfl
  | k + 1, lo, hi, split => by
    unfold binningPassesD binningPasses
    rw [runBinningPassD_eq]
    rcases runBinningPass ctx refs split axis lo hi with _ | ⟨sp, _ | ⟨lo', hi'⟩⟩
    · rfl
    · rfl
    · exact binningPassesD_eq ctx refs axis k _ _ _

theorem findSpatialSplitD_eq (ctx : SpatialCtx F) (bounds : Aabb F) (refs : List (Ref F)) :
    findSpatialSplitD ctx bounds refs = findSpatialSplit ctx bounds refs := by
  unfold findSpatialSplitD findSpatialSplit
  simp only [binningPassesD_eq]

/-! ### Applying a split -/

theorem straddleLoopD_eq (prims : List (SpatialPrim F)) (axis : Fin 3) (pos : F) : ∀ (k fuel : Nat) (s : Straddle F),
    s.rightEnd ≤ s.refs.length → k ≤ fuel →
    straddleLoopD prims axis pos fuel (s.leftEnd + k) s =
      (straddleLoop prims axis pos k s).map fun s' => (s', s'.leftEnd)
  | 0, fuel, s, _, _ => by
    cases fuel <;> simp [straddleLoopD, straddleLoop]
  | k + 1, fuel, s, hr, hf => by
    obtain ⟨fuel, rfl⟩ : ∃ f, fuel = f + 1 := ⟨fuel - 1, by omega⟩
    unfold straddleLoopD straddleLoop
    rw [if_pos (by omega)]
    cases hg : s.refs[s.leftEnd]? with
    | none => rfl
    | some r =>
      simp only [Option.bind_some]
      cases hp : prims[r.primId]? with
      | none => rfl
      | some p =>
        simp only [Option.bind_some, csub_le hr]
        by_cases hfree : s.rightEnd < s.refs.length
        · rw [if_pos (show 0 < s.refs.length - s.rightEnd by omega), if_pos hfree]
          rw [show s.leftEnd + (k + 1) = s.leftEnd + 1 + k by omega]
          refine straddleLoopD_eq prims axis pos k fuel ⟨s.leftEnd + 1, s.rightEnd + 1, s.leftCount + 1, s.rightCount + 1,
            _, _, _⟩ ?_ (by omega)
          show s.rightEnd + 1 ≤ ((s.refs.set _ _).set _ _).length
          rw [List.length_set, List.length_set]
          omega
        · rw [if_neg (show ¬ 0 < s.refs.length - s.rightEnd by omega), if_neg hfree]
          by_cases hc : s.leftCount < s.rightCount
          · rw [if_pos hc, if_pos hc]
            rw [show s.leftEnd + (k + 1) = s.leftEnd + 1 + k by omega]
            exact straddleLoopD_eq prims axis pos k fuel
              { s with leftEnd := s.leftEnd + 1, leftCount := s.leftCount + 1, leftBox := s.leftBox.growBB r.aabb }
              hr (by omega)
          · rw [if_neg hc, if_neg hc, csub_le (by omega)]
            simp only [Option.bind_some]
            rw [show s.leftEnd + (k + 1) - 1 = s.leftEnd + k by omega]
            cases hsw : swapAt s.refs (s.leftEnd + k) s.leftEnd with
            | none => rfl
            | some refs =>
              exact straddleLoopD_eq prims axis pos k fuel
                { s with rightCount := s.rightCount + 1, refs := refs, rightBox := s.rightBox.growBB r.aabb }
                (by simp only; rw [swapAt_length hsw]; exact hr) (by omega)

theorem straddleLoop_room {prims : List (SpatialPrim F)} {axis : Fin 3} {pos : F} : ∀ (k : Nat) {s s' : Straddle F},
    straddleLoop prims axis pos k s = some s' → s.rightEnd ≤ s.refs.length → s'.rightEnd ≤ s'.refs.length
  | 0, s, s', h, hr => by simp only [straddleLoop, Option.some.injEq] at h; subst h; exact hr
  | k + 1, s, s', h, hr => by
    unfold straddleLoop at h
    split at h
    · cases h
    · split at h
      · cases h
      · simp only at h
        split at h
        · exact straddleLoop_room k h (by simp; omega)
        · split at h
          · exact straddleLoop_room k h hr
          · split at h
            · cases h
            · rename_i hsw
              exact straddleLoop_room k h (by simp only; rw [swapAt_length hsw]; exact hr)

theorem applySpatialSplitD_eq {ctx : SpatialCtx F} {v : RefView F} {begin n : Nat} {sp : SpatialSplit F}
    (hn : n ≤ (v.get sp.axis).length) : applySpatialSplitD ctx v begin n sp = applySpatialSplit ctx v begin n sp := by
  unfold applySpatialSplitD applySpatialSplit
  cases hsides : sidesLoop sp.axis sp.position n 0 0 (v.get sp.axis) Aabb.empty Aabb.empty with
  | none => rfl
  | some q =>
    obtain ⟨le, rbg, refs, lb, rb⟩ := q
    obtain ⟨h1, h2, h3, h4, _⟩ := sidesLoop_ok n (Nat.le_refl 0) hsides
    have hlen : refs.length = (v.get sp.axis).length := h1
    simp only [Option.bind_some, csub_le (show rbg ≤ n by omega)]
    have main : ∀ (st : Straddle F) (k : Nat), st.refs = refs → st.rightEnd = n →
        ((straddleLoopD ctx.prims sp.axis sp.position (st.leftEnd + k) (st.leftEnd + k) st).bind fun (st, rightBegin) =>
          dbg (decide (st.leftEnd = rightBegin) && decide (st.rightEnd ≤ st.refs.length))
            (some (⟨.ofFn fun a => if a = sp.axis then st.refs else st.refs.take st.rightEnd ++ (v.get a).drop st.rightEnd,
              rightBegin, st.rightEnd, st.leftBox, st.rightBox, false⟩ : SplitResult F))) =
        match straddleLoop ctx.prims sp.axis sp.position k st with
        | none => none
        | some st =>
          some ⟨.ofFn fun a => if a = sp.axis then st.refs else st.refs.take st.rightEnd ++ (v.get a).drop st.rightEnd,
            st.leftEnd, st.rightEnd, st.leftBox, st.rightBox, false⟩ := by
      intro st k e1 e2
      have hroom : st.rightEnd ≤ st.refs.length := by rw [e1, e2]; omega
      rw [straddleLoopD_eq _ _ _ k _ st hroom (by omega)]
      cases hl : straddleLoop ctx.prims sp.axis sp.position k st with
      | none => rfl
      | some st' =>
        have := straddleLoop_room k hl hroom
        simp [dbg, this]
    split
    · split
      · rfl
      · exact main ⟨if 0 < le then le / 2 - begin else le + (n - rbg) / 2, n, le, n - rbg, refs, _, _⟩ 0 rfl rfl
    · simp only [Option.bind_some]
      have := main ⟨le, n, le, n - rbg, refs, lb, rb⟩ (rbg - le) rfl rfl
      simp only at this
      rwa [show le + (rbg - le) = rbg by omega] at this

theorem shiftRightD_eq {P : Ref F → Prop} {n m : Nat} {r : SplitResult F} (h : SplitOk P n m r) :
    shiftRightD r = some (shiftRight r) := by
  unfold shiftRightD
  rw [csub_le (by rw [h.len.1]; exact h.stop), csub_le h.mid]
  rfl

omit [FloatOps F] in
theorem sortViewD_eq {ctx : SpatialCtx F} {v : RefView F} {n len : Nat} {b : Bool} (hl : v.Len len) (hn : n ≤ len)
    (h0 : 0 < n) : sortViewD ctx v n b = sortView ctx v n b := by
  unfold sortViewD
  split
  · rename_i hb; simp [sortView, hb]
  · rename_i hb
    have hb : b = false := by simpa using hb
    subst hb
    simp [dbg, h0, hl.1, hl.2.1, hl.2.2, hn]

theorem spatialDecideD_eq {N M : Nat} {ctx : SpatialCtx F} (hsort : ctx.Sorts) (hN : ctx.prims.length = N) {thr : F}
    {bounds : Aabb F} {v : RefView F} {begin n len depth : Nat} {srt : Bool} (hl : v.Len len)
    (ha : v.All fun r => r.primId < N) (hn : n ≤ len) :
    spatialDecideD ctx thr M bounds v begin n depth srt = spatialDecide ctx thr M bounds v begin n depth srt := by
  unfold spatialDecideD spatialDecide
  split
  · rfl
  · rename_i hnd
    rw [sortViewD_eq hl hn (by omega)]
    cases hv : sortView ctx v n srt with
    | none => rfl
    | some v' =>
      obtain ⟨hl', ha'⟩ := sortView_ok hsort hl ha hv
      have fin : ∀ (r : Option (SplitResult F)), (∀ x, r = some x → SplitOk (fun r => r.primId < N) n len x) →
          (match r with
            | none => Except.error Fault.panic
            | some r => match shiftRightD r with
              | none => .error .panic
              | some none => .error .wildWrite
              | some (some view) => .ok (.split { r with view := view }) : Except Fault (SpatialOutcome F)) =
          match r with
            | none => Except.error Fault.panic
            | some r => match shiftRight r with
              | none => .error .wildWrite
              | some view => .ok (.split { r with view := view }) := by
        intro r hr
        cases r with
        | none => rfl
        | some r =>
          simp only
          rw [shiftRightD_eq (hr _ rfl)]
          cases shiftRight r <;> rfl
      simp only
      rw [findSpatialSplitD_eq]
      generalize (if (((findObjectSplit v' n).leftBox.shrink (findObjectSplit v' n).rightBox).area >. thr &&
        decide (n < v'.x.length)) = true then findSpatialSplit ctx bounds (v'.x.take n) else some SpatialSplit.default) = o
      cases o with
      | none => rfl
      | some sp =>
        simp only
        rw [applySpatialSplitD_eq (by rw [hl'.get]; exact hn)]
        split
        · split
          · exact fin _ fun x hx => (applyObjectSplit_ok hl' ha' hn hx).1
          · rfl
        · split
          · exact fin _ fun x hx => applySpatialSplit_ok hN hl' ha' hn hx
          · cases (findObjectSplit v' n).index with
            | some s => exact fin _ fun x hx => (applyObjectSplit_ok hl' ha' hn hx).1
            | none => rfl

/-! ### Executions -/

theorem SDen.task_facts {ctx : SpatialCtx F} {thr : F} {N : Nat} {nodes : List (BvhNode F)} {prims : List Nat}
    {idx b d len : Nat} {v : RefView F} {T : Except Fault (IdTree F)} {fp : List Nat} {rg : List (Nat × Nat)}
    {ts : List (SpatialTask × SpatialPhase)} {w r : Nat}
    (h : SDen ctx thr N nodes prims idx b d len v T fp rg ts w r) :
    ∀ x ∈ ts, x.1.depth ≤ ctx.maxDepth ∧ x.1.stop ≤ x.1.splitEnd ∧ b ≤ x.1.begin ∧ x.1.begin ≤ x.1.splitEnd ∧
      x.1.splitEnd ≤ b + len ∧ ((v.slice (x.1.begin - b) (x.1.splitEnd - b)).All fun r => r.primId < N) ∧
      (∀ first, x.2 = .leafAt first → (first, x.1.stop - x.1.begin) ∈ rg) := by
  induction h with
  | ready hd _ hl ha hn =>
    intro x hx
    simp only [List.mem_singleton] at hx; subst hx
    refine ⟨by simp, by simp; omega, by simp, by simp, by simp, ha.slice _ _, by simp⟩
  | leafAt hd _ hl ha hn =>
    intro x hx
    simp only [List.mem_singleton] at hx; subst hx
    refine ⟨by simp, by simp; omega, by simp, by simp, by simp, ha.slice _ _, fun f hf => ?_⟩
    simp only [SpatialPhase.leafAt.injEq] at hf
    simp [hf]
  | alloc hd _ hl ha hn =>
    intro x hx
    simp only [List.mem_singleton] at hx; subst hx
    refine ⟨by simp, by simp; omega, by simp, by simp, by simp, ha.slice _ _, by simp⟩
  | leaf => intro x hx; simp at hx
  | @node idx b d lenL lenR vL vR nd left L R fpL fpR rgL rgR tsL tsR wL wR rL rR h h1 h2 hL hR ihL ihR =>
    intro x hx
    rcases List.mem_append.1 hx with hx | hx
    · obtain ⟨q1, q2, q3, q4, q5, q6, q7⟩ := ihL x hx
      refine ⟨q1, q2, q3, q4, by omega, ?_, fun f hf => List.mem_append_left _ (q7 f hf)⟩
      rw [RefView.slice_append_left hL.viewLen (by omega)]
      exact q6
    · obtain ⟨q1, q2, q3, q4, q5, q6, q7⟩ := ihR x hx
      refine ⟨q1, q2, by omega, q4, by omega, ?_, fun f hf => List.mem_append_right _ (q7 f hf)⟩
      rw [RefView.slice_append_right hL.viewLen (by omega), Nat.sub_sub, Nat.sub_sub]
      exact q6

omit [FloatOps F] in
theorem RefView.slice_len {v : RefView F} {M b e : Nat} (h : v.Len M) (he : e ≤ M) : (v.slice b e).Len (e - b) := by
  obtain ⟨h1, h2, h3⟩ := h
  refine ⟨?_, ?_, ?_⟩ <;> simp [RefView.slice, sliceOf, *] <;> omega

/-- One step with assertions is one step without. -/
theorem spatialStepD_eq {ctx : SpatialCtx F} (hsort : ctx.Sorts) {thr : F} {N M : Nat} (hN : ctx.prims.length = N)
    (hdepth : ctx.maxDepth ≤ spawnerMaxDepth) {s : SpatialState F} {T : Except Fault (IdTree F)} {r : Nat}
    (h : SInv ctx thr N M s T r) (hodd : s.counter % 2 = 1) (k : Nat) :
    spatialStepD ctx thr s k = spatialStep ctx thr s k := by
  obtain ⟨⟨fp, rg, ts, w, hD, hnd, hfl, hfc, hdis, hrg, hsum, hts⟩, hlen, hcnt, hpl⟩ := h
  unfold spatialStepD spatialStep
  cases hk : s.pending[k]? with
  | none => rfl
  | some x =>
    obtain ⟨t, ph⟩ := x
    have hmem : (t, ph) ∈ ts := hts.mem_iff.2 (List.mem_of_getElem? hk)
    obtain ⟨q1, q2, _, q4, q5, q6, q7⟩ := hD.task_facts _ hmem
    simp only [Nat.sub_zero, Nat.zero_add] at q1 q2 q4 q5 q6 q7
    have hvl := RefView.slice_len (b := t.begin) hD.viewLen q5
    have hbud := hD.budget
    simp only
    rw [if_neg (by omega)]
    have : spatialTaskStepD ctx thr s.nodes s.counter s.refCount s.prims (s.refs.slice t.begin t.splitEnd) t ph =
        spatialTaskStep ctx thr s.nodes s.counter s.refCount s.prims (s.refs.slice t.begin t.splitEnd) t ph := by
      unfold spatialTaskStepD spatialTaskStep
      cases s.nodes[t.node]? with
      | none => rfl
      | some nd =>
        simp only
        rw [spatialDecideD_eq hsort hN hvl q6 (by omega)]
        rcases spatialDecide ctx thr s.prims.length nd.bounds (s.refs.slice t.begin t.splitEnd) t.begin (t.stop - t.begin)
          t.depth t.isSorted with f | v' | r
        · rfl
        · simp only
          cases ph with
          | ready => rfl
          | allocated l => rfl
          | leafAt first =>
            simp only
            have hr := hrg _ (q7 first rfl)
            simp only at hr
            have hl2 : ((v'.x.take (t.stop - t.begin)).map Ref.primId).length ≤ t.stop - t.begin := by simp
            have hle : ¬ s.prims.length < first + ((v'.x.take (t.stop - t.begin)).map Ref.primId).length := by omega
            rw [if_neg hle, if_neg hle]
        · have hal : ∀ x, allocate s.nodes.length s.counter ≠ (.outOfBounds, x) := by
            intro x hx
            unfold allocate at hx
            simp only [Prod.mk.injEq] at hx
            have := hx.1
            split at this
            · cases this
            · rw [if_pos (by omega)] at this
              cases this
          simp only
          cases ph with
          | allocated l => rfl
          | ready =>
            simp only
            rcases e : allocate s.nodes.length s.counter with ⟨_ | _ | _, c⟩
            all_goals first | rfl | exact absurd e (hal _)
          | leafAt l =>
            simp only
            rcases e : allocate s.nodes.length s.counter with ⟨_ | _ | _, c⟩
            all_goals first | rfl | exact absurd e (hal _)
    rw [this]
    cases spatialTaskStep ctx thr s.nodes s.counter s.refCount s.prims (s.refs.slice t.begin t.splitEnd) t ph <;> rfl

theorem spatialStep_counter {ctx : SpatialCtx F} {thr : F} {s s' : SpatialState F} {k : Nat}
    (h : spatialStep ctx thr s k = .ok s') : s'.counter % 2 = s.counter % 2 := by
  unfold spatialStep at h
  split at h
  · cases h; rfl
  · split at h
    · cases h
    · rename_i e he
      cases h
      simp only
      unfold spatialTaskStep at he
      repeat' split at he
      all_goals first
        | (cases he; done)
        | (injection he with he; subst he; rfl)
        | (simp only at he
           repeat' split at he
           all_goals first
             | (cases he; done)
             | (injection he with he; subst he; rfl)
             )
        | (rename_i ha; simp only [allocate, Prod.mk.injEq] at ha; injection he with he; subst he; simp only; omega)

theorem spatialExecD_eq {ctx : SpatialCtx F} (hsort : ctx.Sorts) {thr : F} {N M : Nat} (hN : ctx.prims.length = N)
    (hdepth : ctx.maxDepth ≤ spawnerMaxDepth) {T : Except Fault (IdTree F)} : ∀ (ks : List Nat) {s : SpatialState F} {r : Nat},
    SInv ctx thr N M s T r → s.counter % 2 = 1 → spatialExecD ctx thr ks s = spatialExec ctx thr ks s
  | [], _, _, _, _ => rfl
  | k :: ks, s, r, h, hodd => by
    unfold spatialExecD spatialExec
    rw [spatialStepD_eq hsort hN hdepth h hodd]
    cases hst : spatialStep ctx thr s k with
    | error f => rfl
    | ok s₁ =>
      simp only
      have hodd' := (spatialStep_counter hst).trans hodd
      by_cases hk : k < s.pending.length
      · rcases h.step hsort hN hk with ⟨f, e, _⟩ | ⟨s₂, r₂, e, h1, _⟩
        · rw [hst] at e; cases e
        · rw [hst] at e
          cases e
          exact spatialExecD_eq hsort hN hdepth ks h1 hodd'
      · rw [spatialStep_illegal hk] at hst
        cases hst
        exact spatialExecD_eq hsort hN hdepth ks h hodd

theorem Den.task_depth {ctx : BinnedCtx F} {nodes : List (BvhNode F)} {idx b d : Nat} {sl P fp : List Nat} {T : BTree F}
    {ts : List (BinnedTask × TaskPhase)} {r : Nat} (h : Den ctx nodes idx b d sl T P fp ts r) :
    ∀ x ∈ ts, x.1.depth ≤ ctx.maxDepth := by
  induction h with
  | ready => intro x hx; simp only [List.mem_singleton] at hx; subst hx; simp
  | alloc => intro x hx; simp only [List.mem_singleton] at hx; subst hx; simp
  | leaf => intro x hx; simp at hx
  | node _ _ _ _ _ ihL ihR =>
    intro x hx
    rcases List.mem_append.1 hx with hx | hx
    · exact ihL x hx
    · exact ihR x hx

theorem binnedExecD_eq {ctx : BinnedCtx F} (hdepth : ctx.maxDepth ≤ spawnerMaxDepth) {n : Nat} {T : BTree F} {P : List Nat} :
    ∀ (ks : List Nat) {s : BinnedState F} {r : Nat}, BInv ctx n s T P r → binnedExecD ctx ks s = binnedExec ctx ks s
  | [], _, _, _ => rfl
  | k :: ks, s, r, h => by
    unfold binnedExecD binnedExec
    by_cases hk : k < s.pending.length
    · obtain ⟨s', r', e, h', _⟩ := h.step hk
      obtain ⟨⟨fp, ts, hD, _, _, _, hts⟩, _, _⟩ := h
      have hd := hD.task_depth _ (hts.mem_iff.2 (List.getElem_mem hk))
      have : binnedStepD ctx s k = some s' := by
        unfold binnedStepD
        rw [List.getElem?_eq_getElem hk]
        simp only [e, dbg]
        rw [if_pos (by simp; omega)]
      rw [this, e]
      exact binnedExecD_eq hdepth ks h'
    · have e1 : binnedStepD ctx s k = some s := by unfold binnedStepD; rw [List.getElem?_eq_none (by omega)]
      have e2 : binnedStep ctx s k = some s := by unfold binnedStep; rw [List.getElem?_eq_none (by omega)]
      rw [e1, e2]
      exact binnedExecD_eq hdepth ks h

/-- A turn with the assertion is a turn without when every task on a stack is shallow enough. -/
theorem spawnTurnD_eq {S A : Type} {run : S → A → Option (S × Ran A)} {size depth : A → Nat} {thr maxDepth : Nat}
    {s : Spawn S A} (h : ∀ w ∈ s.workers, ∀ a ∈ w.stack, depth a ≤ maxDepth) (i : Nat) :
    spawnTurnD run size depth thr maxDepth s i = spawnTurn run size thr s i := by
  unfold spawnTurnD spawnTurn
  cases hw : s.workers[i]? with
  | none => rfl
  | some w =>
    simp only
    split
    · rfl
    · cases w.current with
      | some a =>
        rcases run s.shared a with _ | ⟨sh, _ | _ | _⟩ <;> rfl
      | none =>
        simp only
        cases hst : w.stack with
        | cons a st => simp only; rw [if_pos (h w (List.mem_of_getElem? hw) a (by rw [hst]; simp))]
        | nil => rfl

end Rtbvh
