import Verif.Proofs.SpatialRule
import Verif.Props.Race
import Verif.Spec.SpatialFault
/- Where a spatial build can fault. -/
namespace Rtbvh
open FloatOps
variable {F : Type} [FloatOps F]

theorem swapAt_total {α : Type} {l : List α} {i j : Nat} (hi : i < l.length) (hj : j < l.length) :
    ∃ l', swapAt l i j = some l' := by
  unfold swapAt
  rw [List.getElem?_eq_getElem hi, List.getElem?_eq_getElem hj]
  exact ⟨_, rfl⟩

theorem moveBackward_total {α : Type} : ∀ (k : Nat) {l : List α} {first d : Nat}, first + k ≤ l.length → d ≤ l.length →
    k ≤ d → ∃ l', moveBackward l first k d = some l'
  | 0, l, _, _, _, _, _ => ⟨l, rfl⟩
  | k + 1, l, first, d, h1, h2, h3 => by
    unfold moveBackward
    rw [List.getElem?_eq_getElem (by omega)]
    simp only
    rw [if_pos (by omega)]
    exact moveBackward_total k (by simp; omega) (by simp; omega) (by omega)

theorem sidesLoop_total {axis : Fin 3} {pos : F} : ∀ (k : Nat) {i le : Nat} {refs : List (Ref F)} {lb rb : Aabb F},
    le ≤ i → i + k ≤ refs.length → ∃ x, sidesLoop axis pos k i le refs lb rb = some x
  | 0, _, _, _, _, _, _, _ => ⟨_, rfl⟩
  | k + 1, i, le, refs, lb, rb, h1, h2 => by
    unfold sidesLoop
    rw [List.getElem?_eq_getElem (by omega)]
    simp only
    split
    · obtain ⟨l', e⟩ := swapAt_total (l := refs) (i := i) (j := le) (by omega) (by omega)
      rw [e]
      exact sidesLoop_total k (by omega) (by rw [swapAt_length e]; omega)
    · split
      · obtain ⟨l', e⟩ := swapAt_total (l := refs) (i := i) (j := i + k) (by omega) (by omega)
        rw [e]
        exact sidesLoop_total k h1 (by rw [swapAt_length e]; omega)
      · exact sidesLoop_total k (by omega) (by omega)

theorem straddleLoop_total {N : Nat} {prims : List (SpatialPrim F)} {axis : Fin 3} {pos : F} (hN : prims.length = N) :
    ∀ (k : Nat) {s : Straddle F}, (∀ r ∈ s.refs, r.primId < N) → s.leftEnd + k ≤ s.refs.length →
    ∃ x, straddleLoop prims axis pos k s = some x
  | 0, _, _, _ => ⟨_, rfl⟩
  | k + 1, s, hp, hl => by
    unfold straddleLoop
    rw [List.getElem?_eq_getElem (by omega)]
    have hr := hp _ (List.getElem_mem (l := s.refs) (n := s.leftEnd) (by omega))
    simp only
    rw [List.getElem?_eq_getElem (by omega)]
    simp only
    split
    · refine straddleLoop_total hN k (fun r hm => ?_) (by simp; omega)
      simp only at hm
      rcases List.mem_or_eq_of_mem_set hm with hm | rfl
      · rcases List.mem_or_eq_of_mem_set hm with hm | rfl
        · exact hp r hm
        · exact hr
      · exact hr
    · split
      · exact straddleLoop_total hN k hp (by simp only; omega)
      · obtain ⟨l', e⟩ := swapAt_total (l := s.refs) (i := s.leftEnd + k) (j := s.leftEnd) (by omega) (by omega)
        rw [e]
        exact straddleLoop_total hN k (fun r hm => hp r (swapAt_mem e r hm)) (by simp only [swapAt_length e]; omega)

/-- `apply_spatial_split` fails only for the wrong slice. -/
theorem applySpatialSplit_none {N : Nat} {ctx : SpatialCtx F} (hN : ctx.prims.length = N) {v : RefView F} {begin n len : Nat}
    {plane : SpatialSplit F} (hl : v.Len len) (ha : v.All fun r => r.primId < N) (hn : n ≤ len)
    (h : applySpatialSplit ctx v begin n plane = none) :
    (∀ y ∈ (v.get plane.axis).take n, (y.aabb.max.get plane.axis <=. plane.position) = true) ∧ n / 2 < begin := by
  unfold applySpatialSplit at h
  obtain ⟨⟨le, rbeg, refs, lb, rb⟩, hs⟩ := sidesLoop_total (axis := plane.axis) (pos := plane.position) n (i := 0) (le := 0)
    (refs := v.get plane.axis) (lb := Aabb.empty) (rb := Aabb.empty) (Nat.le_refl _) (by rw [hl.get]; omega)
  rw [hs] at h
  simp only at h
  obtain ⟨q1, q2, q3, q4, _⟩ := sidesLoop_ok n (Nat.le_refl _) hs
  rw [hl.get] at q1
  have hids : ∀ r ∈ refs, r.primId < N := fun r hr => ha.get plane.axis r (q2 r hr)
  by_cases hdeg : (le = 0 ∨ n - rbeg = 0) ∧ le = rbeg
  · rw [if_pos hdeg] at h
    by_cases hpan : 0 < le ∧ le / 2 < begin
    · have hU : ((v.get plane.axis).take n).length = n := by rw [List.length_take, hl.get]; omega
      obtain ⟨A, S, H, e1, e2, e3, hperm, hA, hS, hH, _, _⟩ := sidesLoop_spec (axis := plane.axis)
        (pos := plane.position) n (U := (v.get plane.axis).take n) (A := []) (S := []) (H := [])
        (tl := (v.get plane.axis).drop n) hU (by simpa [boxFront] using hs) (by simp) (by simp) (by simp) rfl rfl
      have hlen := hperm.length_eq
      simp only [List.length_append, List.length_nil, hU] at hlen
      have hS0 : S = [] := List.eq_nil_of_length_eq_zero (by omega)
      have hH0 : H = [] := List.eq_nil_of_length_eq_zero (by omega)
      subst hS0 hH0
      simp only [List.nil_append, List.append_nil, List.length_nil] at hperm hlen
      refine ⟨fun y hy => hA y (hperm.mem_iff.2 hy), ?_⟩
      have : A.length = n := by omega
      omega
    · rw [if_neg hpan] at h
      simp [straddleLoop] at h
  · rw [if_neg hdeg] at h
    simp only at h
    obtain ⟨x, e⟩ := straddleLoop_total (axis := plane.axis) (pos := plane.position) hN (rbeg - le)
      (s := ⟨le, n, le, n - rbeg, refs, lb, rb⟩) hids (by simp only; omega)
    rw [e] at h
    cases h

/-- Making room fails only if there is not enough. -/
theorem shiftRight_none {P : Ref F → Prop} {n len : Nat} {r : SplitResult F} (h : SplitOk P n len r)
    (hs : shiftRight r = none) :
    r.mid < r.stop ∧ len < r.stop + leftShare len r.mid r.stop r.leftBox r.rightBox := by
  have hx : r.view.x.length = len := h.len.get 0
  have h1 := h.mid
  have h2 := h.stop
  unfold shiftRight at hs
  simp only at hs
  rw [hx, leftSplitCount_eq _ _ h2] at hs
  generalize leftShare len r.mid r.stop r.leftBox r.rightBox = k at hs
  by_cases hk : k = 0
  · rw [if_pos hk] at hs; cases hs
  · rw [if_neg hk] at hs
    by_cases hms : r.mid < r.stop
    · refine ⟨hms, ?_⟩
      by_cases hlt : len < r.stop + k
      · exact hlt
      · obtain ⟨a, ea⟩ := moveBackward_total (r.stop - r.mid) (l := r.view.x) (first := r.mid) (d := r.stop + k)
          (by rw [h.len.1]; omega) (by rw [h.len.1]; omega) (by omega)
        obtain ⟨b, eb⟩ := moveBackward_total (r.stop - r.mid) (l := r.view.y) (first := r.mid) (d := r.stop + k)
          (by rw [h.len.2.1]; omega) (by rw [h.len.2.1]; omega) (by omega)
        obtain ⟨c, ec⟩ := moveBackward_total (r.stop - r.mid) (l := r.view.z) (first := r.mid) (d := r.stop + k)
          (by rw [h.len.2.2]; omega) (by rw [h.len.2.2]; omega) (by omega)
        rw [ea, eb, ec] at hs
        cases hs
    · rw [show r.stop - r.mid = 0 by omega] at hs
      simp [moveBackward] at hs

theorem sortView_none {ctx : SpatialCtx F} {v : RefView F} {n : Nat} {b : Bool} (h : sortView ctx v n b = none) :
    b = false ∧ ∃ a, ctx.sort a ((v.get a).take n) = none := by
  unfold sortView at h
  cases b with
  | true => simp at h
  | false =>
    refine ⟨rfl, ?_⟩
    simp only [Bool.false_eq_true, if_false] at h
    cases e0 : ctx.sort 0 (v.x.take n) with
    | none => exact ⟨0, e0⟩
    | some a =>
      cases e1 : ctx.sort 1 (v.y.take n) with
      | none => exact ⟨1, e1⟩
      | some b =>
        cases e2 : ctx.sort 2 (v.z.take n) with
        | none => exact ⟨2, e2⟩
        | some c => rw [e0, e1, e2] at h; cases h

/-- Object cuts never fail. -/
theorem applyObjectSplit_total {M N : Nat} {W : RefView F} {n s : Nat} {axis : Fin 3} {lb rb : Aabb F} (hs : s < n)
    (ha : W.All fun r => r.primId < N) (hM : N ≤ M) : applyObjectSplit M W n s axis lb rb ≠ none := by
  unfold applyObjectSplit
  rw [if_neg (by simpa using hs), if_neg]
  · simp
  · simp only [List.any_eq_true, not_exists, not_and, decide_eq_true_eq, Nat.not_le]
    intro a _ r hr
    have := ha.get a r (List.mem_of_mem_take hr)
    omega

variable [LawfulFloat F]

/-- Why a decision fails. -/
theorem spatialDecide_fault {N M : Nat} {ctx : SpatialCtx F} (hsort : ctx.Sorts) (hN : ctx.prims.length = N) (hM : N ≤ M)
    {thr : F} {bounds : Aabb F} {v : RefView F} {begin n len depth : Nat} {srt : Bool} {f : Fault} (hl : v.Len len)
    (ha : v.All fun r => r.primId < N) (hn : n ≤ len)
    (h : spatialDecide ctx thr M bounds v begin n depth srt = .error f) :
    FaultCause ctx thr ⟨depth, bounds, v, begin, n, srt⟩ f := by
  unfold spatialDecide at h
  split at h
  · cases h
  · rename_i hnd
    have hbusy : SpatialNode.Busy ctx ⟨depth, bounds, v, begin, n, srt⟩ := by
      constructor <;> simp only <;> omega
    split at h
    · rename_i hW
      obtain ⟨rfl, a, e⟩ := sortView_none hW
      cases h
      exact .sort hbusy rfl e
    · rename_i W hW
      obtain ⟨hl', ha'⟩ := sortView_ok hsort hl ha hW
      have hord := sortView_order hW
      simp only at h
      obtain ⟨b1, b2, b3⟩ := findObjectSplit_best hl' hn
      generalize findObjectSplit W n = object at h b1 b2 b3
      rw [b2] at h
      have hx : W.x.length = len := hl'.get 0
      split at h
      · rename_i hplane
        cases h
        split at hplane
        · rename_i hc
          rw [Bool.and_eq_true, decide_eq_true_eq] at hc
          exact .plane hbusy hord b1 hc.1 hc.2 (findSpatialSplit_panics hplane)
        · cases hplane
      · rename_i plane hplane
        have hcand : Candidates ctx thr bounds W n object.cut object.cost plane := by
          refine ⟨b1, fun h1 h2 => ?_, fun h1 => ?_⟩
          · simp only [h1, h2, decide_true, Bool.and_self, if_true] at hplane
            exact findSpatialSplit_spec hplane
          · have : (overlapOf (fun a => (W.get a).take n) object.cut >. thr && decide (n < W.x.length)) = false := by
              rcases h1 with h1 | h1
              · rw [h1]; rfl
              · rw [decide_eq_false (by omega), Bool.and_false]
            rw [this] at hplane
            simp only [Bool.false_eq_true, if_false, Option.some.injEq] at hplane
            rw [← hplane]; rfl
        have fin : ∀ {r : Option (SplitResult F)} {f : Fault},
            (∀ x, r = some x → SplitOk (fun r => r.primId < N) n len x ∧ SpatialCut ctx thr bounds W begin n x) →
            (match r with
              | none => Except.error Fault.panic
              | some r => match shiftRight r with
                | none => .error .wildWrite
                | some view => .ok (.split { r with view := view }) : Except Fault (SpatialOutcome F)) = .error f →
            r = none ∧ f = .panic ∨ FaultCause ctx thr ⟨depth, bounds, v, begin, n, srt⟩ f := by
          intro r f hr he
          split at he
          · cases he; exact .inl ⟨rfl, rfl⟩
          · rename_i r
            obtain ⟨ok, hc⟩ := hr r rfl
            split at he
            · rename_i hsh
              cases he
              obtain ⟨g1, g2⟩ := shiftRight_none ok hsh
              exact .inr (.share hbusy hord hc (by have := ok.stop; omega) g1 (by rw [hx]; exact g2))
            · cases he
        split at h
        · rename_i hgain
          split at h
          · rename_i hbig
            refine (fin (fun x hx => ?_) h).elim (fun e => absurd e.1 (applyObjectSplit_total (by omega) ha' hM)) id
            · obtain ⟨hc, e1, e2⟩ := applyObjectSplit_cut hx
              refine ⟨(applyObjectSplit_ok hl' ha' hn hx).1, object.cut, object.cost, plane, hcand, .inl ⟨hgain, hbig, hc, ?_, ?_⟩⟩
              · rw [e1, refsBox_eq, List.take_take, Nat.min_eq_left (by omega)]
              · rw [e2, refsBox_eq]
          · cases h
        · rename_i hgain
          split at h
          · rename_i hlt
            refine (fin (fun x hx => ?_) h).elim (fun e => ?_) id
            · exact ⟨applySpatialSplit_ok hN hl' ha' hn hx, object.cut, object.cost, plane, hcand,
                .inr (.inl ⟨hgain, hlt, applySpatialSplit_clip hl' hn hx⟩)⟩
            · obtain ⟨g1, g2⟩ := applySpatialSplit_none hN hl' ha' hn e.1
              rw [e.2]
              exact .slice hbusy hord hcand hgain hlt g1 g2
          · rename_i hlt
            have hlt : (FloatOps.min plane.cost object.cost <. object.cost) = false := by
              cases e : (FloatOps.min plane.cost object.cost <. object.cost) with
              | true => exact absurd e hlt
              | false => rfl
            split at h
            · rename_i k hk
              refine (fin (fun x hx => ?_) h).elim (fun e => ?_) id
              rotate_left
              · have : BestObject (fun a => (W.get a).take n) n (some (object.axis, k)) object.cost := by
                  simpa [ObjectSplit.cut, hk] using b1
                exact absurd e.1 (applyObjectSplit_total this.2.1 ha' hM)
              · obtain ⟨hc, e1, e2⟩ := applyObjectSplit_cut hx
                obtain ⟨e3, e4⟩ := b3 k hk
                refine ⟨(applyObjectSplit_ok hl' ha' hn hx).1, object.cut, object.cost, plane, hcand,
                  .inr (.inr ⟨hgain, hlt, object.axis, k, by simp [ObjectSplit.cut, hk], hc, ?_, ?_⟩)⟩
                · have := hc.lt
                  rw [e1, e3, List.take_take, Nat.min_eq_left (by omega)]
                · rw [e2, e4]
            · cases h


/-! ### Executions -/

omit [LawfulFloat F] in
theorem SDen.task_all {ctx : SpatialCtx F} {thr : F} {N : Nat} {nodes : List (BvhNode F)} {prims : List Nat}
    {idx b d len : Nat} {v : RefView F} {T : Except Fault (IdTree F)} {fp : List Nat} {rg : List (Nat × Nat)}
    {ts : List (SpatialTask × SpatialPhase)} {w r : Nat}
    (h : SDen ctx thr N nodes prims idx b d len v T fp rg ts w r) :
    ∀ x ∈ ts, (v.slice (x.1.begin - b) (x.1.splitEnd - b)).All fun r => r.primId < N := by
  induction h with
  | ready _ _ _ ha => intro x hx; exact ha.slice _ _
  | leafAt _ _ _ ha => intro x hx; exact ha.slice _ _
  | alloc _ _ _ ha => intro x hx; exact ha.slice _ _
  | leaf => intro x hx; simp at hx
  | @node idx b d lenL lenR vL vR nd left L R fpL fpR rgL rgR tsL tsR wL wR rL rR h h1 h2 hL hR ihL ihR =>
    intro x hx
    rcases List.mem_append.1 hx with hx | hx
    · obtain ⟨_, _, _, q3, q4, q5, q6⟩ := hL.uses x hx
      rw [RefView.slice_append_left hL.viewLen (by omega)]
      exact ihL x hx
    · obtain ⟨_, _, _, q3, q4, q5, q6⟩ := hR.uses x hx
      rw [RefView.slice_append_right hL.viewLen (by omega), Nat.sub_sub, Nat.sub_sub]
      exact ihR x hx

omit [LawfulFloat F] in
theorem SDen.alloc_decides {ctx : SpatialCtx F} {thr : F} {N : Nat} {nodes : List (BvhNode F)} {prims : List Nat}
    {idx b d len : Nat} {v : RefView F} {T : Except Fault (IdTree F)} {fp : List Nat} {rg : List (Nat × Nat)}
    {ts : List (SpatialTask × SpatialPhase)} {w r : Nat} {t : SpatialTask} {l : Nat}
    (hD : SDen ctx thr N nodes prims idx b d len v T fp rg ts w r) (hm : (t, SpatialPhase.allocated l) ∈ ts) :
    ∃ nd r, nodes[t.node]? = some nd ∧ spatialDecide ctx thr prims.length nd.bounds
      (v.slice (t.begin - b) (t.splitEnd - b)) t.begin (t.stop - t.begin) t.depth t.isSorted = .ok (.split r) := by
  induction hD with
  | ready => simp at hm
  | leafAt => simp at hm
  | leaf => simp at hm
  | alloc hd h hl ha hn hdec =>
    simp only [List.mem_singleton, Prod.mk.injEq] at hm
    obtain ⟨rfl, _⟩ := hm
    rename_i nd _ r _ _
    refine ⟨nd, r, h, ?_⟩
    simp only [Nat.sub_self, Nat.add_sub_cancel_left, RefView.slice_full hl]
    exact hdec
  | node h h1 h2 hL hR ihL ihR =>
    rcases List.mem_append.1 hm with hm | hm
    · obtain ⟨_, _, _, q3, q4, q5, q6⟩ := hL.uses _ hm
      simp only at q3 q4 q5 q6
      rw [RefView.slice_append_left hL.viewLen (by omega)]
      exact ihL hm
    · obtain ⟨_, _, _, q3, q4, q5, q6⟩ := hR.uses _ hm
      simp only at q3 q4 q5 q6
      rw [RefView.slice_append_right hL.viewLen (by omega), Nat.sub_sub, Nat.sub_sub]
      exact ihR hm

omit [LawfulFloat F] in
theorem SDen.leafAt_decides {ctx : SpatialCtx F} {thr : F} {N : Nat} {nodes : List (BvhNode F)} {prims : List Nat}
    {idx b d len : Nat} {v : RefView F} {T : Except Fault (IdTree F)} {fp : List Nat} {rg : List (Nat × Nat)}
    {ts : List (SpatialTask × SpatialPhase)} {w r : Nat} {t : SpatialTask} {l : Nat}
    (hD : SDen ctx thr N nodes prims idx b d len v T fp rg ts w r) (hm : (t, SpatialPhase.leafAt l) ∈ ts) :
    ∃ nd r, nodes[t.node]? = some nd ∧ spatialDecide ctx thr prims.length nd.bounds
      (v.slice (t.begin - b) (t.splitEnd - b)) t.begin (t.stop - t.begin) t.depth t.isSorted = .ok (.leaf r) := by
  induction hD with
  | ready => simp at hm
  | alloc => simp at hm
  | leaf => simp at hm
  | leafAt hd h hl ha hn hdec =>
    simp only [List.mem_singleton, Prod.mk.injEq] at hm
    obtain ⟨rfl, _⟩ := hm
    rename_i nd _ r _ _
    refine ⟨nd, r, h, ?_⟩
    simp only [Nat.sub_self, Nat.add_sub_cancel_left, RefView.slice_full hl]
    exact hdec
  | node h h1 h2 hL hR ihL ihR =>
    rcases List.mem_append.1 hm with hm | hm
    · obtain ⟨_, _, _, q3, q4, q5, q6⟩ := hL.uses _ hm
      simp only at q3 q4 q5 q6
      rw [RefView.slice_append_left hL.viewLen (by omega)]
      exact ihL hm
    · obtain ⟨_, _, _, q3, q4, q5, q6⟩ := hR.uses _ hm
      simp only at q3 q4 q5 q6
      rw [RefView.slice_append_right hL.viewLen (by omega), Nat.sub_sub, Nat.sub_sub]
      exact ihR hm

/-- Nodes a task accounts for, doubled. -/
def phaseWeight : SpatialPhase → Nat
  | .ready => 2
  | .leafAt _ => 0
  | .allocated _ => 4

/-- The same for a list of tasks. -/
def weight (ts : List (SpatialTask × SpatialPhase)) : Nat := (ts.map fun x => phaseWeight x.2).sum

theorem weight_perm {a b : List (SpatialTask × SpatialPhase)} (h : a.Perm b) : weight a = weight b :=
  (h.map _).sum_nat

theorem weight_append (a b : List (SpatialTask × SpatialPhase)) : weight (a ++ b) = weight a + weight b := by
  simp [weight]

/-- References a task accounts for. -/
def taskCost (x : SpatialTask × SpatialPhase) : Nat :=
  match x.2 with
  | .leafAt _ => 0
  | _ => x.1.stop - x.1.begin

/-- The same for a list of tasks. -/
def cost (ts : List (SpatialTask × SpatialPhase)) : Nat := (ts.map taskCost).sum

omit [LawfulFloat F] in
theorem SDen.waiting_eq {ctx : SpatialCtx F} {thr : F} {N : Nat} {nodes : List (BvhNode F)} {prims : List Nat}
    {idx b d len : Nat} {v : RefView F} {T : Except Fault (IdTree F)} {fp : List Nat} {rg : List (Nat × Nat)}
    {ts : List (SpatialTask × SpatialPhase)} {w r : Nat}
    (h : SDen ctx thr N nodes prims idx b d len v T fp rg ts w r) : cost ts = w := by
  induction h with
  | ready => simp [cost, taskCost]
  | leafAt => simp [cost, taskCost]
  | alloc => simp [cost, taskCost]
  | leaf => simp [cost]
  | node _ _ _ _ _ ihL ihR => rw [← ihL, ← ihR]; simp [cost]

theorem weight_le {ts : List (SpatialTask × SpatialPhase)} (h : ∀ x ∈ ts, phaseWeight x.2 ≤ 2 * taskCost x) :
    weight ts ≤ 2 * cost ts := by
  induction ts with
  | nil => simp [weight, cost]
  | cons x ts ih =>
    have h1 := ih fun y hy => h y (List.mem_cons_of_mem _ hy)
    have h2 := h x List.mem_cons_self
    simp only [weight, cost, List.map_cons, List.sum_cons] at *
    omega

theorem weight_even (ts : List (SpatialTask × SpatialPhase)) : weight ts % 2 = 0 := by
  induction ts with
  | nil => simp [weight]
  | cons x ts ih =>
    simp only [weight, List.map_cons, List.sum_cons] at *
    have : phaseWeight x.2 % 2 = 0 := by cases x.2 <;> simp [phaseWeight]
    omega

/-- The node a task works on. -/
def taskNode (s : SpatialState F) (t : SpatialTask) (nd : BvhNode F) : SpatialNode F :=
  ⟨t.depth, nd.bounds, s.refs.slice t.begin t.splitEnd, t.begin, t.stop - t.begin, t.isSorted⟩

/-- Proof device: every pending task works on a node the rule reaches; and the number of nodes handed out. -/
structure FInv (ctx : SpatialCtx F) (thr : F) (root : SpatialNode F) (s : SpatialState F) : Prop where
  node : ∀ x ∈ s.pending, ∃ nd, s.nodes[x.1.node]? = some nd ∧ Reached ctx thr root (taskNode s x.1 nd)
  split : ∀ x ∈ s.pending, ∀ l, x.2 = .allocated l → 1 < x.1.stop - x.1.begin
  count : ∃ L, s.counter + 1 = 2 * L + weight s.pending ∧
    ((∀ x, Reached ctx thr root x → 0 < x.n) → L ≤ s.refCount)

omit [FloatOps F] [LawfulFloat F] in
theorem slice_write {v w : RefView F} {M b e c d : Nat} (hv : v.Len M) (hw : w.Len (e - b)) (hbe : b ≤ e) (he : e ≤ M)
    (hc : b ≤ c) (hd : d ≤ e) : (v.write b w).slice c d = w.slice (c - b) (d - b) := by
  have key : ∀ {l m : List (Ref F)}, l.length = M → m.length = e - b →
      sliceOf (writeAt l b m) c d = sliceOf m (c - b) (d - b) := by
    intro l m hl hm
    apply List.ext_getElem?
    intro i
    rw [sliceOf_get, sliceOf_get, writeAt_get (by omega)]
    by_cases h : i < d - c
    · rw [if_pos h, if_neg (by omega), if_pos (by omega), if_pos (by omega)]
      congr 1; omega
    · rw [if_neg h, if_neg (by omega)]
  simp only [RefView.slice, RefView.write]
  rw [key hv.1 hw.1, key hv.2.1 hw.2.1, key hv.2.2 hw.2.2]

theorem FInv.step {ctx : SpatialCtx F} (hsort : ctx.Sorts) {thr : F} {N M : Nat} (hN : ctx.prims.length = N)
    {root : SpatialNode F} {s : SpatialState F} {T : Except Fault (IdTree F)} {rem : Nat} (h : SInv ctx thr N M s T rem)
    (hF : FInv ctx thr root s) {k : Nat} {s' : SpatialState F} (hstep : spatialStep ctx thr s k = .ok s') :
    FInv ctx thr root s' := by
  obtain ⟨⟨fp, rg, ts, w, hD, hnd, hfl, hfc, hdis, hrg, hsum, hts⟩, hlen, hcnt, hpl⟩ := h
  have hbud := hD.budget
  have hvl := hD.viewLen
  by_cases hk : k < s.pending.length
  swap
  · rw [spatialStep_illegal hk] at hstep; cases hstep; exact hF
  obtain ⟨⟨t, ph⟩, hkk⟩ : ∃ x, s.pending[k] = x := ⟨_, rfl⟩
  have hk' : s.pending[k]? = some (t, ph) := by rw [List.getElem?_eq_getElem hk, hkk]
  have hpm : (t, ph) ∈ s.pending := hkk ▸ List.getElem_mem hk
  have hmem : (t, ph) ∈ ts := hts.mem_iff.2 hpm
  obtain ⟨_, _, _, _, q4, q5, q6⟩ := hD.uses _ hmem
  have hall := hD.task_all _ hmem
  simp only [Nat.zero_add, Nat.sub_zero] at q4 q5 q6 hall
  have hst := hD.step hsort hN hnd (fun i hi => by have := hfc i hi; omega) hdis
    (fun q hq => by have := hrg q hq; omega) (counter := s.counter) (refCount := s.refCount) hmem
  simp only [Nat.sub_zero, Nat.zero_add] at hst
  unfold spatialStep at hstep
  simp only [hk'] at hstep
  rcases hst with ⟨f, e, _⟩ | ⟨e, fp', rg', ts', w', r', he, -, -, -, -, -, -, -, -, -, hvw, hb1, hb2, hb3⟩
  · simp only [e] at hstep; cases hstep
  simp only [he] at hstep
  cases hstep
  obtain ⟨w1, w2⟩ := spatialTaskStep_writes (x := (t, ph)) he
  have hsl : (s.refs.slice t.begin t.splitEnd).Len (t.splitEnd - t.begin) := by
    refine ⟨?_, ?_, ?_⟩ <;> simp only [RefView.slice, sliceOf, List.length_take, List.length_drop, hvl.1, hvl.2.1, hvl.2.2] <;> omega
  -- the other tasks
  have hother : ∀ x ∈ s.pending.eraseIdx k, ∃ nd, e.nodes[x.1.node]? = some nd ∧
      Reached ctx thr root ⟨x.1.depth, nd.bounds, (s.refs.write t.begin e.view).slice x.1.begin x.1.splitEnd, x.1.begin,
        x.1.stop - x.1.begin, x.1.isSorted⟩ := by
    intro x hx
    obtain ⟨j, hj⟩ := List.mem_iff_getElem?.1 hx
    have hj' : ∃ i, i ≠ k ∧ s.pending[i]? = some x := by
      rw [List.getElem?_eraseIdx] at hj
      split at hj
      · exact ⟨j, by omega, hj⟩
      · exact ⟨j + 1, by omega, hj⟩
    obtain ⟨i, hik, hi⟩ := hj'
    have hp := hts.pairwise_iff (R := fun x y => ∀ c, ¬ (SpatialTask.Uses x c ∧ SpatialTask.Uses y c))
      (fun h c hc => h c ⟨hc.2, hc.1⟩)
    have hap := pairwise_idx (hp.1 (hD.apart hnd hdis)) (fun x y h c hc => h c ⟨hc.2, hc.1⟩) hik hi hk'
    obtain ⟨nd, hnd', hR⟩ := hF.node x (List.mem_of_getElem? hi)
    refine ⟨nd, ?_, ?_⟩
    · rw [← w1 x.1.node (fun hu => hap (.node x.1.node) ⟨.inl rfl, hu⟩)]; exact hnd'
    · have : (s.refs.write t.begin e.view).slice x.1.begin x.1.splitEnd = s.refs.slice x.1.begin x.1.splitEnd := by
        simp only [RefView.slice, RefView.write]
        rw [sliceOf_congr fun i h1 h2 => (writeAt_same (by rw [hvl.1]; omega) hvw.1 hb2
            (fun hu => hap (.ref i) ⟨⟨h1, h2⟩, hu⟩)).symm,
          sliceOf_congr fun i h1 h2 => (writeAt_same (by rw [hvl.2.1]; omega) hvw.2.1 hb2
            (fun hu => hap (.ref i) ⟨⟨h1, h2⟩, hu⟩)).symm,
          sliceOf_congr fun i h1 h2 => (writeAt_same (by rw [hvl.2.2]; omega) hvw.2.2 hb2
            (fun hu => hap (.ref i) ⟨⟨h1, h2⟩, hu⟩)).symm]
      rw [this]
      exact hR
  obtain ⟨nd, hndt, hR⟩ := hF.node _ hpm
  simp only at hndt hR
  -- the task's own successors
  have hperm : ((t, ph) :: s.pending.eraseIdx k).Perm s.pending := by
    have := List.getElem_cons_eraseIdx_perm hk
    rwa [hkk] at this
  have hwt : weight s.pending = phaseWeight ph + weight (s.pending.eraseIdx k) := by
    rw [← weight_perm hperm]; simp [weight]
  obtain ⟨L, hL, hLr⟩ := hF.count
  have hold : ∀ x ∈ s.pending.eraseIdx k, x ∈ s.pending := fun x hx => List.mem_of_mem_eraseIdx hx
  suffices hnew : (∀ x ∈ e.new, ∃ nd, e.nodes[x.1.node]? = some nd ∧
      Reached ctx thr root ⟨x.1.depth, nd.bounds, (s.refs.write t.begin e.view).slice x.1.begin x.1.splitEnd, x.1.begin,
        x.1.stop - x.1.begin, x.1.isSorted⟩) ∧ (∀ x ∈ e.new, ∀ l, x.2 = .allocated l → 1 < x.1.stop - x.1.begin) ∧
      ∃ L', e.counter + 1 = 2 * L' + weight (s.pending.eraseIdx k) + weight e.new ∧
        ((∀ x, Reached ctx thr root x → 0 < x.n) → L' ≤ e.refCount) by
    obtain ⟨n1, n2, L', n3, n4⟩ := hnew
    refine ⟨fun x hx => ?_, fun x hx => ?_, L', ?_, n4⟩
    · rcases List.mem_append.1 hx with hx | hx
      · exact hother x hx
      · exact n1 x hx
    · rcases List.mem_append.1 hx with hx | hx
      · exact hF.split x (hold x hx)
      · exact n2 x hx
    · simp only [weight_append]; omega
  unfold spatialTaskStep at he
  simp only [hndt] at he
  have hself : ∀ {V : RefView F}, V = s.refs.slice t.begin t.splitEnd →
      (s.refs.write t.begin V).slice t.begin t.splitEnd = s.refs.slice t.begin t.splitEnd := by
    rintro V rfl
    rw [slice_write hvl hsl hb2 hb3 (Nat.le_refl _) (Nat.le_refl _), Nat.sub_self, RefView.slice_full hsl]
  split at he
  · cases he
  · rename_i v' hdec
    split at he
    · rename_i first
      split at he
      · cases he
      · cases he
        refine ⟨by simp, by simp, L, ?_, hLr⟩
        simp [phaseWeight] at hwt
        simp only [weight, List.map_nil, List.sum_nil] at *
        omega
    · rename_i hph
      cases he
      have hread : ph = .ready := by
        cases ph with
        | ready => rfl
        | leafAt f => exact absurd rfl (hph f)
        | allocated l =>
          exfalso
          have h1 := hF.split _ hpm l rfl
          obtain ⟨nd2, r2, g1, g2⟩ := hD.alloc_decides hmem
          rw [hndt] at g1
          cases g1
          simp only [Nat.sub_zero] at g2
          rw [hdec] at g2
          cases g2
      subst hread
      refine ⟨?_, ?_, L + 1, ?_, fun hp => ?_⟩
      · intro x hx
        simp only [List.mem_singleton] at hx
        subst hx
        exact ⟨nd, hndt, by rw [hself rfl]; exact hR⟩
      · intro x hx l hl
        simp only [List.mem_singleton] at hx
        subst hx
        cases hl
      · simp only [phaseWeight] at hwt
        simp only [weight, List.map_cons, List.map_nil, List.sum_cons, List.sum_nil, phaseWeight] at *
        omega
      · have := hLr hp
        have h0 := hp _ hR
        simp only [taskNode] at h0 ⊢
        omega
  · rename_i r hdec
    split at he
    · split at he
      · rename_i ln rn hln hrn
        cases he
        rcases spatialDecide_rule hsort hN hsl hall (by omega) hdec with ⟨_, h2⟩ | ⟨h1, h2, W, hW, ⟨h3, h4⟩ | ⟨r0, V', h3, h4, h5⟩⟩
        · cases h2
        · cases h3
        · cases h3
          have hcuts : CutsTo ctx thr (taskNode s t nd) W r0 V' := ⟨h1, h2, hW, h4, h5⟩
          simp only at hvw
          have hxl : V'.x.length = t.splitEnd - t.begin := hvw.1
          have hleft := (List.getElem?_eq_some_iff.1 hln).1
          have hright := (List.getElem?_eq_some_iff.1 hrn).1
          rcases spatialDecide_ok hsort hN hsl hall (by omega) hdec with ⟨_, h6, _⟩ | ⟨r', h6, ok, _⟩
          · cases h6
          cases h6
          have o1 := ok.mid
          have o2 := ok.stop
          simp only at o1 o2
          refine ⟨?_, ?_, L, ?_, hLr⟩
          · intro x hx
            simp only [List.mem_cons, List.not_mem_nil, or_false] at hx
            rcases hx with rfl | rfl
            · refine ⟨_, by rw [List.getElem?_set_ne (Nat.succ_ne_self _), List.getElem?_set_self (by simpa using hleft)], ?_⟩
              simp only
              rw [slice_write hvl hvw hb2 hb3 (Nat.le_refl _) (by omega), Nat.sub_self, Nat.add_sub_cancel_left]
              exact .left hR hcuts
            · refine ⟨_, by rw [List.getElem?_set_self (by simpa using hright)], ?_⟩
              simp only
              rw [slice_write hvl hvw hb2 hb3 (by omega) (Nat.le_refl _), Nat.add_sub_cancel_left, ← hxl,
                show t.begin + r0.stop - (t.begin + r0.mid) = r0.stop - r0.mid by omega]
              exact .right hR hcuts
          · intro x hx l hl
            simp only [List.mem_cons, List.not_mem_nil, or_false] at hx
            rcases hx with rfl | rfl <;> cases hl
          · simp only [phaseWeight] at hwt
            simp only [weight, List.map_cons, List.map_nil, List.sum_cons, List.sum_nil, phaseWeight] at *
            omega
      · cases he
    · rename_i hph
      split at he
      · rename_i l c hal
        cases he
        have hread : ph = .ready := by
          cases ph with
          | ready => rfl
          | allocated f => exact absurd rfl (hph f)
          | leafAt l =>
            exfalso
            obtain ⟨nd2, r2, g1, g2⟩ := hD.leafAt_decides hmem
            rw [hndt] at g1
            cases g1
            simp only [Nat.sub_zero] at g2
            rw [hdec] at g2
            cases g2
        subst hread
        rcases spatialDecide_ok hsort hN hsl hall (by omega) hdec with ⟨_, h6, _⟩ | ⟨r', h6, ok, _, hn1⟩
        · cases h6
        refine ⟨?_, ?_, L, ?_, hLr⟩
        · intro x hx
          simp only [List.mem_singleton] at hx
          subst hx
          exact ⟨nd, hndt, by rw [hself rfl]; exact hR⟩
        · intro x hx l hl
          simp only [List.mem_singleton] at hx
          subst hx
          exact hn1
        · have hc : c = s.counter + 2 := by
            unfold allocate at hal
            split at hal <;> simp_all
          simp only [phaseWeight] at hwt
          simp only [weight, List.map_cons, List.map_nil, List.sum_cons, List.sum_nil, phaseWeight] at *
          omega
      · cases he
      · cases he

/-- A step that faults does so because of a node the build works on. -/
theorem FInv.fault {ctx : SpatialCtx F} (hsort : ctx.Sorts) {thr : F} {N M : Nat} (hN : ctx.prims.length = N) (hM : N ≤ M)
    {root : SpatialNode F} {s : SpatialState F} {T : Except Fault (IdTree F)} {rem : Nat} (h : SInv ctx thr N M s T rem)
    (hF : FInv ctx thr root s) {k : Nat} {f : Fault} (hstep : spatialStep ctx thr s k = .error f) :
    ∃ x, Reached ctx thr root x ∧ FaultCause ctx thr x f := by
  obtain ⟨⟨fp, rg, ts, w, hD, hnd, hfl, hfc, hdis, hrg, hsum, hts⟩, hlen, hcnt, hpl⟩ := h
  have hbud := hD.budget
  have hvl := hD.viewLen
  by_cases hk : k < s.pending.length
  swap
  · rw [spatialStep_illegal hk] at hstep; cases hstep
  obtain ⟨⟨t, ph⟩, hkk⟩ : ∃ x, s.pending[k] = x := ⟨_, rfl⟩
  have hk' : s.pending[k]? = some (t, ph) := by rw [List.getElem?_eq_getElem hk, hkk]
  have hpm : (t, ph) ∈ s.pending := hkk ▸ List.getElem_mem hk
  have hmem : (t, ph) ∈ ts := hts.mem_iff.2 hpm
  obtain ⟨_, u1, u2, _, q4, q5, q6⟩ := hD.uses _ hmem
  have hall := hD.task_all _ hmem
  simp only [Nat.zero_add, Nat.sub_zero] at q4 q5 q6 hall
  have hsl : (s.refs.slice t.begin t.splitEnd).Len (t.splitEnd - t.begin) := by
    refine ⟨?_, ?_, ?_⟩ <;> simp only [RefView.slice, sliceOf, List.length_take, List.length_drop, hvl.1, hvl.2.1, hvl.2.2] <;> omega
  obtain ⟨nd, hndt, hR⟩ := hF.node _ hpm
  simp only at hndt hR
  unfold spatialStep at hstep
  simp only [hk'] at hstep
  split at hstep
  swap
  · cases hstep
  rename_i f' he
  cases hstep
  unfold spatialTaskStep at he
  simp only [hndt] at he
  split at he
  · rename_i f'' hdec
    cases he
    exact ⟨_, hR, spatialDecide_fault hsort hN (by omega) hsl hall (by omega) hdec⟩
  · rename_i v' hdec
    cases ph with
    | leafAt first =>
      exfalso
      have := hrg _ (u2 first rfl)
      simp only [List.length_map, List.length_take] at he
      split at he
      · simp only at this; omega
      · cases he
    | ready => cases he
    | allocated l => cases he
  · rename_i r hdec
    cases ph with
    | allocated l =>
      exfalso
      obtain ⟨g1, g2⟩ := u1 l rfl
      have g3 := hfc _ g1
      have g4 := hfc _ g2
      simp only [List.getElem?_eq_getElem (show l < s.nodes.length by omega),
        List.getElem?_eq_getElem (show l + 1 < s.nodes.length by omega)] at he
      cases he
    | leafAt l =>
      exfalso
      obtain ⟨nd2, r2, g1, g2⟩ := hD.leafAt_decides hmem
      rw [hndt] at g1
      cases g1
      simp only [Nat.sub_zero] at g2
      rw [hdec] at g2
      cases g2
    | ready =>
      rcases spatialDecide_ok hsort hN hsl hall (by omega) hdec with ⟨_, h6, _⟩ | ⟨r', h6, ok, _, hn1⟩
      · cases h6
      have hperm : ((t, SpatialPhase.ready) :: s.pending.eraseIdx k).Perm s.pending := by
        have := List.getElem_cons_eraseIdx_perm hk
        rwa [hkk] at this
      have hwt : weight s.pending = 2 + weight (s.pending.eraseIdx k) := by
        rw [← weight_perm hperm]; simp [weight, phaseWeight]
      have hwc : cost s.pending = (t.stop - t.begin) + cost (s.pending.eraseIdx k) := by
        have : cost ((t, SpatialPhase.ready) :: s.pending.eraseIdx k) = cost s.pending := (hperm.map _).sum_nat
        rw [← this]; simp [cost, taskCost]
      have hcw : cost s.pending = w := by
        rw [← hD.waiting_eq]; exact ((hts.symm).map _).sum_nat
      obtain ⟨L, hL, hLr⟩ := hF.count
      have hev := weight_even s.pending
      have hall' : allocate s.nodes.length s.counter = (.exhausted, s.counter + 2) ∨ s.counter + 1 < s.nodes.length := by
        unfold allocate
        by_cases hc : s.nodes.length ≤ s.counter
        · exact .inl (by rw [if_pos hc])
        · exact .inr (by omega)
      rcases hall' with ha | ha
      · rw [ha] at he
        cases he
        by_cases hp : ∀ x, Reached ctx thr root x → 0 < x.n
        · exfalso
          have h1 := hLr hp
          have h2 : weight (s.pending.eraseIdx k) ≤ 2 * cost (s.pending.eraseIdx k) := by
            refine weight_le fun x hx => ?_
            have hx' := List.mem_of_mem_eraseIdx hx
            obtain ⟨nd2, _, hR2⟩ := hF.node x hx'
            have h0 := hp _ hR2
            have h3 := hF.split x hx'
            simp only [taskNode] at h0
            obtain ⟨t', p'⟩ := x
            cases p' with
            | ready => simp only [phaseWeight, taskCost] at *; omega
            | leafAt l => simp [phaseWeight]
            | allocated l => have := h3 l rfl; simp only [phaseWeight, taskCost] at *; omega
          have : s.nodes.length ≤ s.counter := by
            unfold allocate at ha
            by_cases hc : s.nodes.length ≤ s.counter
            · exact hc
            · rw [if_neg hc] at ha
              split at ha <;> cases ha
          omega
        · obtain ⟨x, hx⟩ := Classical.not_forall.1 hp
          obtain ⟨hx1, hx2⟩ := Classical.not_imp.1 hx
          exact ⟨x, hx1, .empty (by omega)⟩
      · exfalso
        unfold allocate at he
        rw [if_neg (by omega), if_pos ha] at he
        cases he

/-- A schedule that faults does so because of a node the build works on. -/
theorem exec_fault {ctx : SpatialCtx F} (hsort : ctx.Sorts) {thr : F} {N M : Nat} (hN : ctx.prims.length = N) (hM : N ≤ M)
    {root : SpatialNode F} {T : Except Fault (IdTree F)} {f : Fault} (ks : List Nat) : ∀ {s : SpatialState F} {rem : Nat},
    SInv ctx thr N M s T rem → FInv ctx thr root s → spatialExec ctx thr ks s = .error f →
    ∃ x, Reached ctx thr root x ∧ FaultCause ctx thr x f := by
  induction ks with
  | nil => intro s rem _ _ he; cases he
  | cons k ks ih =>
    intro s rem h hF he
    unfold spatialExec at he
    cases hs : spatialStep ctx thr s k with
    | error f' =>
      rw [hs] at he
      cases he
      exact hF.fault hsort hN hM h hs
    | ok s' =>
      rw [hs] at he
      have hF' := hF.step hsort hN h hs
      by_cases hk : k < s.pending.length
      · rcases h.step hsort hN hk with ⟨f', e, _⟩ | ⟨s₁, r₁, e, h1, _⟩
        · rw [hs] at e; cases e
        · rw [hs] at e; cases e
          exact ih h1 hF' he
      · rw [spatialStep_illegal hk] at hs
        cases hs
        exact ih h hF he

theorem combine_error {b : Aabb F} {x y : Except Fault (IdTree F)} {f : Fault} (h : combine b x y = .error f) :
    x = .error f ∨ y = .error f := by
  unfold combine at h
  split at h
  · cases h
  · exact .inl h
  · exact .inr h

/-- A tree that is a fault has a node with the cause. -/
theorem spatialTree_fault {N M : Nat} {ctx : SpatialCtx F} (hsort : ctx.Sorts) (hN : ctx.prims.length = N) (hM : N ≤ M)
    {thr : F} {root : SpatialNode F} {f : Fault} :
    ∀ (d : Nat) {bounds : Aabb F} {v : RefView F} {begin n len : Nat} {srt : Bool}, d ≤ ctx.maxDepth →
    v.Len len → v.All (fun r => r.primId < N) → n ≤ len →
    Reached ctx thr root ⟨ctx.maxDepth - d, bounds, v, begin, n, srt⟩ →
    spatialTree ctx thr M d bounds v begin n srt = .error f → ∃ x, Reached ctx thr root x ∧ FaultCause ctx thr x f
  | 0, bounds, v, begin, n, len, srt, hd, hl, ha, hn, hR, h => by
    rw [spatialTree] at h
    split at h
    · rename_i f' hdec
      cases h
      exact ⟨_, hR, spatialDecide_fault hsort hN hM hl ha hn hdec⟩
    · cases h
    · rename_i r hdec
      rcases spatialDecide_ok hsort hN hl ha hn hdec with ⟨_, h6, _⟩ | ⟨r', h6, ok, h7, _⟩
      · cases h6
      · omega
  | d + 1, bounds, v, begin, n, len, srt, hd, hl, ha, hn, hR, h => by
    rw [spatialTree] at h
    split at h
    · rename_i f' hdec
      cases h
      exact ⟨_, hR, spatialDecide_fault hsort hN hM hl ha hn hdec⟩
    · cases h
    · rename_i r hdec
      rcases spatialDecide_rule hsort hN hl ha hn hdec with ⟨_, h2⟩ | ⟨h1, h2, W, hW, ⟨h3, h4⟩ | ⟨r0, V', h3, h4, h5⟩⟩
      · cases h2
      · cases h3
      · rcases spatialDecide_ok hsort hN hl ha hn hdec with ⟨_, h6, _⟩ | ⟨r', h6, ok, _⟩
        · cases h6
        cases h6
        cases h3
        have hx : V'.x.length = len := ok.len.get 0
        have hm : r0.mid ≤ len := Nat.le_trans ok.mid ok.stop
        obtain ⟨_, lenL, lenR⟩ := RefView.split_append ok.len hm
        have hc : CutsTo ctx thr ⟨ctx.maxDepth - (d + 1), bounds, v, begin, n, srt⟩ W r0 V' := ⟨h1, h2, hW, h4, h5⟩
        have rl := Reached.left hR hc
        have rr := Reached.right hR hc
        have e : ctx.maxDepth - (d + 1) + 1 = ctx.maxDepth - d := by omega
        simp only [e] at rl rr
        simp only at lenL lenR h
        rw [← hx] at lenR
        rcases combine_error h with h | h
        · exact spatialTree_fault hsort hN hM d (by omega) lenL (ok.all.slice _ _) (Nat.le_refl _) rl h
        · have := ok.stop
          exact spatialTree_fault hsort hN hM d (by omega) lenR (ok.all.slice _ _) (by simp only at *; omega) rr h

/-- The root node of a build. -/
def rootNode (ctx : SpatialCtx F) : SpatialNode F :=
  ⟨0, Aabb.unionOfList ctx.aabbs, .ofFn fun _ => initialRefs ctx, 0, ctx.aabbs.length, false⟩

theorem build_fault {ctx : SpatialCtx F} {N : Nat} (hs : SpatialSetting ctx N) {ks : List Nat} {f : Fault}
    (he : spatialBuild ctx ks = .error f) :
    ∃ x, Reached ctx (spatialThreshold ctx) (rootNode ctx) x ∧ FaultCause ctx (spatialThreshold ctx) x f := by
  have hI := spatialInit_inv hs
  unfold spatialBuild at he
  split at he
  · cases he
  split at he
  swap
  · split at he <;> cases he
  rename_i f' hx
  cases he
  refine exec_fault hs.sorts hs.prims (by unfold maxReferenceCount; rw [hs.aabbs]; omega) ks hI ?_ hx
  have hl := initialRefs_length (ctx := ctx) (by rw [hs.prims, hs.aabbs])
  have hlen : (RefView.ofFn fun _ => initialRefs ctx).Len (maxReferenceCount ctx) := by
    refine ⟨?_, ?_, ?_⟩ <;> simpa [RefView.ofFn] using hl
  refine ⟨fun x hx => ?_, fun x hx l hl => ?_, 0, by simp [spatialInit, weight, phaseWeight], fun _ => Nat.zero_le _⟩
  · simp only [spatialInit, List.mem_singleton] at hx
    subst hx
    refine ⟨{ bounds := Aabb.unionOfList ctx.aabbs }, by simp [spatialInit], ?_⟩
    have : taskNode (spatialInit ctx) ⟨0, 0, ctx.aabbs.length, maxReferenceCount ctx, 0, false⟩
        { bounds := Aabb.unionOfList ctx.aabbs } = rootNode ctx := by
      unfold taskNode rootNode
      simp only [spatialInit, RefView.slice_full hlen, Nat.sub_zero]
    rw [this]
    exact .root
  · simp only [spatialInit, List.mem_singleton] at hx
    subst hx
    cases hl

theorem rootTree_fault {ctx : SpatialCtx F} {N : Nat} (hs : SpatialSetting ctx N) {f : Fault}
    (he : spatialRootTree ctx = .error f) :
    ∃ x, Reached ctx (spatialThreshold ctx) (rootNode ctx) x ∧ FaultCause ctx (spatialThreshold ctx) x f := by
  have hM : N ≤ maxReferenceCount ctx := by unfold maxReferenceCount; rw [hs.aabbs]; omega
  have hl := initialRefs_length (ctx := ctx) (by rw [hs.prims, hs.aabbs])
  have hi := initialRefs_ids hs
  have hlen : (RefView.ofFn fun _ => initialRefs ctx).Len (maxReferenceCount ctx) := by
    refine ⟨?_, ?_, ?_⟩ <;> simpa [RefView.ofFn] using hl
  have hall : (RefView.ofFn fun _ => initialRefs ctx).All fun r => r.primId < N := by
    refine ⟨?_, ?_, ?_⟩ <;> simpa [RefView.ofFn] using hi
  refine spatialTree_fault hs.sorts hs.prims hM ctx.maxDepth (Nat.le_refl _) hlen hall (by rw [hs.aabbs]; exact hM) ?_ he
  rw [Nat.sub_self]
  exact .root

theorem SpatialLegal.snoc {ctx : SpatialCtx F} {thr : F} {k : Nat} : ∀ {ks : List Nat} {s s' : SpatialState F},
    SpatialLegal ctx thr ks s → spatialExec ctx thr ks s = .ok s' → k < s'.pending.length →
    SpatialLegal ctx thr (ks ++ [k]) s
  | [], s, s', _, e, hk => by
    cases e
    exact ⟨hk, fun _ _ => trivial⟩
  | j :: ks, s, s', h, e, hk => by
    refine ⟨h.1, fun s₁ e₁ => ?_⟩
    unfold spatialExec at e
    rw [e₁] at e
    exact SpatialLegal.snoc (h.2 s₁ e₁) e hk

end Rtbvh
