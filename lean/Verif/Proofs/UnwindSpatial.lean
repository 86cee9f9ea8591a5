import Verif.Proofs.UnwindBinned
import Verif.Props.SpatialSpawner
/- Proofs about spatial builds in which a panicking task leaves its own node and its own references in any state. -/
namespace Rtbvh
variable {F : Type}

/-- The node indexes a pending task may write. -/
def refTaskFoot : SpatialTask × SpatialPhase → List Nat
  | (t, .allocated left) => [t.node, left, left + 1]
  | (t, _) => [t.node]

theorem refTaskFoot_node (x : SpatialTask × SpatialPhase) : x.1.node ∈ refTaskFoot x := by
  obtain ⟨t, ph⟩ := x
  cases ph <;> simp [refTaskFoot]

/-- Two pending tasks have nothing in common. -/
def RefsApart (a b : SpatialTask × SpatialPhase) : Prop :=
  (a.1.splitEnd ≤ b.1.begin ∨ b.1.splitEnd ≤ a.1.begin) ∧ ∀ i ∈ refTaskFoot a, i ∉ refTaskFoot b

theorem RefsApart.symm {a b : SpatialTask × SpatialPhase} (h : RefsApart a b) : RefsApart b a :=
  ⟨h.1.symm, fun i hi hj => h.2 i hj hi⟩

variable [FloatOps F]

theorem SDen.refsApart {ctx : SpatialCtx F} {thr : F} {N : Nat} {nodes : List (BvhNode F)} {prims : List Nat}
    {idx b d len : Nat} {v : RefView F} {T : Except Fault (IdTree F)} {fp : List Nat} {rg : List (Nat × Nat)}
    {ts : List (SpatialTask × SpatialPhase)} {w r : Nat}
    (h : SDen ctx thr N nodes prims idx b d len v T fp rg ts w r) (hnd : fp.Nodup) :
    ts.Pairwise RefsApart ∧ ∀ x ∈ ts, (∀ i ∈ refTaskFoot x, i ∈ fp) ∧ b ≤ x.1.begin ∧ x.1.begin ≤ x.1.splitEnd ∧
      x.1.splitEnd ≤ b + len := by
  induction h with
  | ready => exact ⟨by simp, fun x hx => by simp at hx; subst hx; simp [refTaskFoot]⟩
  | leafAt => exact ⟨by simp, fun x hx => by simp at hx; subst hx; simp [refTaskFoot]⟩
  | alloc => exact ⟨by simp, fun x hx => by simp at hx; subst hx; simp [refTaskFoot]⟩
  | leaf => simp
  | node _ _ _ _ _ ihL ihR =>
    rw [List.nodup_cons] at hnd
    obtain ⟨hni, hnd⟩ := hnd
    rw [List.nodup_append] at hnd
    obtain ⟨hndL, hndR, hdisj⟩ := hnd
    obtain ⟨pL, fL⟩ := ihL hndL
    obtain ⟨pR, fR⟩ := ihR hndR
    refine ⟨List.pairwise_append.2 ⟨pL, pR, fun x hx y hy => ?_⟩, fun x hx => ?_⟩
    · obtain ⟨a1, a2, a3, a4⟩ := fL x hx
      obtain ⟨c1, c2, c3, c4⟩ := fR y hy
      exact ⟨.inl (le_trans a4 c2), fun i hi hj => hdisj i (a1 i hi) i (c1 i hj) rfl⟩
    · rcases List.mem_append.1 hx with hx | hx
      · obtain ⟨a1, a2, a3, a4⟩ := fL x hx
        exact ⟨fun i hi => by simp [a1 i hi], a2, a3, by omega⟩
      · obtain ⟨a1, a2, a3, a4⟩ := fR x hx
        exact ⟨fun i hi => by simp [a1 i hi], by omega, a3, by omega⟩

/-- `y` is `x` except for what the lost tasks `D` own. -/
structure RefSpoiled (D : List (SpatialTask × SpatialPhase)) (x y : SpatialShared F) : Prop where
  nlen : y.nodes.length = x.nodes.length
  nodes : ∀ i, (∀ d ∈ D, i ∉ refTaskFoot d) → y.nodes[i]? = x.nodes[i]?
  counter : y.counter = x.counter
  refCount : y.refCount = x.refCount
  prims : y.prims = x.prims
  rlen : y.refs.x.length = x.refs.x.length ∧ y.refs.y.length = x.refs.y.length ∧ y.refs.z.length = x.refs.z.length
  refs : ∀ i, (∀ d ∈ D, i < d.1.begin ∨ d.1.splitEnd ≤ i) →
    y.refs.x[i]? = x.refs.x[i]? ∧ y.refs.y[i]? = x.refs.y[i]? ∧ y.refs.z[i]? = x.refs.z[i]?

omit [FloatOps F] in
theorem RefSpoiled.refl (x : SpatialShared F) : RefSpoiled [] x x :=
  ⟨rfl, fun _ _ => rfl, rfl, rfl, rfl, ⟨rfl, rfl, rfl⟩, fun _ _ => ⟨rfl, rfl, rfl⟩⟩

omit [FloatOps F] in
theorem RefSpoiled.mono {D D' : List (SpatialTask × SpatialPhase)} {x y : SpatialShared F} (h : RefSpoiled D x y)
    (hs : ∀ d ∈ D, d ∈ D') : RefSpoiled D' x y :=
  ⟨h.nlen, fun i hi => h.nodes i fun d hd => hi d (hs d hd), h.counter, h.refCount, h.prims, h.rlen,
    fun i hi => h.refs i fun d hd => hi d (hs d hd)⟩

omit [FloatOps F] in
theorem RefSpoiled.spoil {D : List (SpatialTask × SpatialPhase)} {x y z : SpatialShared F} (h : RefSpoiled D x y)
    {a : SpatialTask × SpatialPhase} (ha : a ∈ D) (hz : SpatialSpoils a y z) : RefSpoiled D x z := by
  obtain ⟨h1, h2, h3, h4, h5, h6, h7⟩ := hz
  refine ⟨by rw [h1, h.nlen], fun i hi => ?_, by rw [h3, h.counter], by rw [h4, h.refCount], by rw [h5, h.prims],
    ⟨by rw [h6.1, h.rlen.1], by rw [h6.2.1, h.rlen.2.1], by rw [h6.2.2, h.rlen.2.2]⟩, fun i hi => ?_⟩
  · rw [h2 i, h.nodes i hi]
    · intro e; exact hi a ha (e ▸ refTaskFoot_node a)
    · intro left hl
      obtain ⟨t, ph⟩ := a
      cases hl
      have := hi _ ha
      simp only [refTaskFoot, List.mem_cons, not_or] at this
      exact ⟨this.2.1, this.2.2.1⟩
  · obtain ⟨a1, a2, a3⟩ := h7 i (hi a ha)
    obtain ⟨b1, b2, b3⟩ := h.refs i hi
    exact ⟨a1.trans b1, a2.trans b2, a3.trans b3⟩

/-- A step reads of the nodes only the task's own and the two it has allocated. -/
theorem spatialTaskStep_nodes {ctx : SpatialCtx F} {thr : F} {nodes nodes' : List (BvhNode F)} {counter refCount : Nat}
    {prims : List Nat} {view : RefView F} {t : SpatialTask} {ph : SpatialPhase} (hl : nodes'.length = nodes.length)
    (hf : ∀ i ∈ refTaskFoot (t, ph), nodes'[i]? = nodes[i]?) :
    (∀ f, spatialTaskStep ctx thr nodes' counter refCount prims view t ph = .error f →
      spatialTaskStep ctx thr nodes counter refCount prims view t ph = .error f) ∧
    ∀ e', spatialTaskStep ctx thr nodes' counter refCount prims view t ph = .ok e' →
      ∃ e, spatialTaskStep ctx thr nodes counter refCount prims view t ph = .ok e ∧
        e'.nodes.length = e.nodes.length ∧ (∀ i : Nat, nodes'[i]? = nodes[i]? → e'.nodes[i]? = e.nodes[i]?) ∧
        e'.counter = e.counter ∧ e'.refCount = e.refCount ∧ e'.prims = e.prims ∧ e'.view = e.view ∧ e'.new = e.new := by
  unfold spatialTaskStep
  rw [hf _ (refTaskFoot_node (t, ph))]
  cases hnd : nodes[t.node]? with
  | none => simp
  | some nd =>
    dsimp only
    cases hdd : spatialDecide ctx thr prims.length nd.bounds view t.begin (t.stop - t.begin) t.depth t.isSorted with
    | error f => simp
    | ok out =>
      cases out with
      | leaf view' =>
        cases ph with
        | leafAt first =>
          dsimp only
          split
          · simp
          · refine ⟨by simp, fun e' h => ?_⟩
            cases h
            exact ⟨_, rfl, by simp [hl], fun i hi => twin_set hl hi, rfl, rfl, rfl, rfl, rfl⟩
        | ready =>
          refine ⟨by simp, fun e' h => ?_⟩
          cases h
          exact ⟨_, rfl, hl, fun i hi => hi, rfl, rfl, rfl, rfl, rfl⟩
        | allocated left =>
          refine ⟨by simp, fun e' h => ?_⟩
          cases h
          exact ⟨_, rfl, hl, fun i hi => hi, rfl, rfl, rfl, rfl, rfl⟩
      | split r =>
        have hal : ∀ e'' : Except Fault (SpatialEffect F),
            e'' = (match allocate nodes.length counter with
              | (.pair left, c) => .ok ⟨nodes', c, refCount, prims, view, [(t, .allocated left)]⟩
              | (.exhausted, _) => .error .panic
              | (.outOfBounds, _) => .error .wildWrite) →
            (∀ f, e'' = .error f → (match allocate nodes.length counter with
              | (.pair left, c) => .ok ⟨nodes, c, refCount, prims, view, [(t, .allocated left)]⟩
              | (.exhausted, _) => .error .panic
              | (.outOfBounds, _) => .error .wildWrite : Except Fault (SpatialEffect F)) = .error f) ∧
            ∀ e', e'' = .ok e' → ∃ e, (match allocate nodes.length counter with
              | (.pair left, c) => .ok ⟨nodes, c, refCount, prims, view, [(t, .allocated left)]⟩
              | (.exhausted, _) => .error .panic
              | (.outOfBounds, _) => .error .wildWrite : Except Fault (SpatialEffect F)) = .ok e ∧
                e'.nodes.length = e.nodes.length ∧ (∀ i : Nat, nodes'[i]? = nodes[i]? → e'.nodes[i]? = e.nodes[i]?) ∧
                e'.counter = e.counter ∧ e'.refCount = e.refCount ∧ e'.prims = e.prims ∧ e'.view = e.view ∧ e'.new = e.new := by
          rintro e'' rfl
          cases allocate nodes.length counter with
          | mk al c =>
            cases al with
            | exhausted => simp
            | outOfBounds => simp
            | pair left =>
              refine ⟨by simp, fun e' h => ?_⟩
              cases h
              exact ⟨_, rfl, hl, fun i hi => hi, rfl, rfl, rfl, rfl, rfl⟩
        cases ph with
        | leafAt first => dsimp only; rw [hl]; exact hal _ rfl
        | ready => dsimp only; rw [hl]; exact hal _ rfl
        | allocated left =>
          have e1 := hf left (by simp [refTaskFoot])
          have e2 := hf (left + 1) (by simp [refTaskFoot])
          simp only [e1, e2]
          cases hln : nodes[left]? with
          | none => simp
          | some ln =>
            cases hrn : nodes[left + 1]? with
            | none => simp
            | some rn =>
              refine ⟨by simp, fun e' h => ?_⟩
              cases h
              refine ⟨_, rfl, by simp [hl], fun i hi => ?_, rfl, rfl, rfl, rfl, rfl⟩
              exact twin_set (by simp [hl]) (twin_set (by simp [hl]) (twin_set hl hi))

/-- A task that has nothing in common with the lost ones does the same on both memories. -/
theorem RefSpoiled.step {ctx : SpatialCtx F} {thr : F} {D : List (SpatialTask × SpatialPhase)} {x y : SpatialShared F}
    (h : RefSpoiled D x y) {a : SpatialTask × SpatialPhase} (hap : ∀ d ∈ D, RefsApart a d) {M : Nat} (hM : x.refs.Len M)
    (h1 : a.1.begin ≤ a.1.splitEnd) (h2 : a.1.splitEnd ≤ M)
    (hv : ∀ e, spatialTaskStep ctx thr x.nodes x.counter x.refCount x.prims (x.refs.slice a.1.begin a.1.splitEnd) a.1 a.2 = .ok e →
      e.view.Len (a.1.splitEnd - a.1.begin)) :
    (spatialRun ctx thr y a = none → spatialRun ctx thr x a = none) ∧
    ∀ y' r, spatialRun ctx thr y a = some (y', r) → ∃ x', spatialRun ctx thr x a = some (x', r) ∧ RefSpoiled D x' y' := by
  obtain ⟨nlen, hnodes, hcount, hrc, hpr, hrl, hrefs⟩ := h
  have hslice : y.refs.slice a.1.begin a.1.splitEnd = x.refs.slice a.1.begin a.1.splitEnd := by
    have hk : ∀ i, a.1.begin ≤ i → i < a.1.splitEnd → ∀ d ∈ D, i < d.1.begin ∨ d.1.splitEnd ≤ i := by
      intro i hi hj d hd
      have := (hap d hd).1
      omega
    unfold RefView.slice
    congr 1
    · exact twinSlice_congr fun i hi hj => (hrefs i (hk i hi hj)).1
    · exact twinSlice_congr fun i hi hj => (hrefs i (hk i hi hj)).2.1
    · exact twinSlice_congr fun i hi hj => (hrefs i (hk i hi hj)).2.2
  obtain ⟨n1, n2⟩ := spatialTaskStep_nodes (ctx := ctx) (thr := thr) (counter := x.counter) (refCount := x.refCount)
    (prims := x.prims) (view := x.refs.slice a.1.begin a.1.splitEnd) (t := a.1) (ph := a.2) nlen
    fun i hi => hnodes i fun d hd => (hap d hd).2 i hi
  unfold spatialRun
  rw [hslice, hcount, hrc, hpr]
  cases hy : spatialTaskStep ctx thr y.nodes x.counter x.refCount x.prims (x.refs.slice a.1.begin a.1.splitEnd) a.1 a.2 with
  | error f =>
    rw [n1 f hy]
    exact ⟨fun _ => rfl, fun y' r h => by cases h⟩
  | ok e' =>
    obtain ⟨e, he, q1, q2, q3, q4, q5, q6, q7⟩ := n2 e' hy
    have hvl := hv e he
    rw [he]
    dsimp only
    rw [q3, q4, q5, q6, q7]
    have hsp : RefSpoiled D (⟨e.nodes, e.counter, x.refs.write a.1.begin e.view, e.refCount, e.prims⟩ : SpatialShared F)
        ⟨e'.nodes, e.counter, y.refs.write a.1.begin e.view, e.refCount, e.prims⟩ := by
      obtain ⟨m1, m2, m3⟩ := hM
      obtain ⟨v1, v2, v3⟩ := hvl
      obtain ⟨l1, l2, l3⟩ := hrl
      refine ⟨q1, fun i hi => q2 i (hnodes i hi), rfl, rfl, rfl, ⟨?_, ?_, ?_⟩, fun i hi => ?_⟩
      · simp only [RefView.write]; rw [length_writeAt _ _ _ (by omega), length_writeAt _ _ _ (by omega), l1]
      · simp only [RefView.write]; rw [length_writeAt _ _ _ (by omega), length_writeAt _ _ _ (by omega), l2]
      · simp only [RefView.write]; rw [length_writeAt _ _ _ (by omega), length_writeAt _ _ _ (by omega), l3]
      · obtain ⟨r1, r2, r3⟩ := hrefs i hi
        simp only [RefView.write]
        refine ⟨?_, ?_, ?_⟩
        · rw [twinWrite_get _ _ _ _ (by omega), twinWrite_get _ _ _ _ (by omega), r1]
        · rw [twinWrite_get _ _ _ _ (by omega), twinWrite_get _ _ _ _ (by omega), r2]
        · rw [twinWrite_get _ _ _ _ (by omega), twinWrite_get _ _ _ _ (by omega), r3]
    split
    · exact ⟨fun h => (by cases h), fun y' r h => by cases h; exact ⟨_, rfl, hsp⟩⟩
    · exact ⟨fun h => (by cases h), fun y' r h => by cases h; exact ⟨_, rfl, hsp⟩⟩
    · exact ⟨fun h => (by cases h), fun y' r h => by cases h; exact ⟨_, rfl, hsp⟩⟩

/-- What a pool reached from the start of a build consists of. -/
theorem spatial_pool_facts {ctx : SpatialCtx F} {N : Nat} (hs : SpatialSetting ctx N) {m : Nat} {x : SpatialShared F}
    {l : List (SpatialTask × SpatialPhase)}
    (h : PoolRun (spatialRun ctx (spatialThreshold ctx)) m (spatialSpawn ctx).shared (poolOf (spatialSpawn ctx).workers) x l) :
    x.refs.Len (maxReferenceCount ctx) ∧ l.Pairwise RefsApart ∧ ∀ a ∈ l, a.1.begin ≤ a.1.splitEnd ∧
      a.1.splitEnd ≤ maxReferenceCount ctx ∧
      ∀ e, spatialTaskStep ctx (spatialThreshold ctx) x.nodes x.counter x.refCount x.prims
        (x.refs.slice a.1.begin a.1.splitEnd) a.1 a.2 = .ok e → e.view.Len (a.1.splitEnd - a.1.begin) := by
  obtain ⟨ks, u, e1, e2, e3, e4, e5⟩ := spatial_pool h (spatialInit ctx) rfl (by
    simp [spatialSpawn, Spawn.init, poolOf, Worker.start, Worker.items, spatialInit])
  rcases (spatialInit_inv hs).exec hs.sorts hs.prims ks with ⟨f, e, -⟩ | ⟨s', r', e3', hB', -⟩
  · rw [e3] at e; cases e
  rw [e3] at e3'
  cases e3'
  obtain ⟨⟨fp, rg, ts, w, hD, hnd, hfl, hfc, hdis, hrg, hsum, hts⟩, hlen, hcnt, hpl⟩ := hB'
  obtain ⟨hp, hf⟩ := hD.refsApart hnd
  have hbud := hD.budget
  have hpm := e5.trans hts.symm
  subst e4
  refine ⟨hD.viewLen, (hpm.pairwise_iff fun h => RefsApart.symm h).2 hp, fun a ha => ?_⟩
  have ha' := hpm.mem_iff.1 ha
  obtain ⟨-, f2, f3, f4⟩ := hf a ha'
  refine ⟨f3, by omega, fun e he => ?_⟩
  have hst := hD.step hs.sorts hs.prims hnd (fun i hi => by have := hfc i hi; omega) hdis
    (fun q hq => by have := hrg q hq; omega) (counter := u.counter) (refCount := u.refCount) (t := a.1) (ph := a.2) ha'
  simp only [Nat.sub_zero] at hst
  rcases hst with ⟨f, e', -⟩ | ⟨e', -, -, -, -, -, he', -, -, -, -, -, -, -, -, -, hvl, -⟩
  · rw [he] at e'; cases e'
  · rw [he] at he'; cases he'; exact hvl

/-- The remaining tasks of a build with panics do what they would do if the lost tasks were merely never given a turn,
whatever the lost tasks have left in the memory they own. -/
theorem spatial_spoiled_pool {ctx : SpatialCtx F} {N : Nat} (hs : SpatialSetting ctx N) {thr k c : Nat}
    {s₀ s : Unwind (SpatialShared F) (SpatialTask × SpatialPhase)} (h0 : s₀.shared = (spatialSpawn ctx).shared)
    (h0' : s₀.toSpawn.workers = (spatialSpawn ctx).workers)
    (h : UnwindRun (spatialRun ctx (spatialThreshold ctx)) spatialSize thr SpatialSpoils k c s₀ s) :
    ∃ m D x, PoolRun (spatialRun ctx (spatialThreshold ctx)) m (spatialSpawn ctx).shared (poolOf (spatialSpawn ctx).workers) x
        (poolOf s.toSpawn.workers ++ D) ∧ RefSpoiled D x s.shared ∧
      k + todoOf s.toSpawn.workers ≤ todoOf (spatialSpawn ctx).workers + 5 * m := by
  induction h with
  | refl => exact ⟨0, [], _, .refl (by rw [h0']; simp), by rw [h0]; exact .refl _, by rw [h0']; omega⟩
  | @step k c s₀ s' s'' crash p i h ha ht ih =>
    obtain ⟨m, D, x, h1, h2, h3⟩ := ih h0 h0'
    obtain ⟨hlen, hpw, hfa⟩ := spatial_pool_facts hs h1
    rcases uturn_pool ht with ⟨e, hp, hk⟩ | ⟨a, R, r, e, hp, hp', hk⟩ | ⟨D', hp, hk, hsh⟩
    · refine ⟨m, D, x, h1.perm (hp.append_right D), by rw [e]; exact h2, by omega⟩
    · have hpa : (poolOf s'.toSpawn.workers ++ D).Perm (a :: (R ++ D)) := hp.append_right D
      have hap := (hpa.pairwise_iff fun h => RefsApart.symm h).1 hpw
      rw [List.pairwise_cons] at hap
      obtain ⟨f1, f2, f3⟩ := hfa a (hpa.mem_iff.2 (by simp))
      obtain ⟨x', ex, hx'⟩ := (h2.step (fun d hd => hap.1 d (List.mem_append_right _ hd)) hlen f1 f2 f3).2 _ _ e
      refine ⟨m + 1, D, x', .step h1 hpa ex ?_, hx', by omega⟩
      have := hp'.append_right D
      rwa [List.append_assoc] at this
    · refine ⟨m, D' ++ D, x, h1.perm ?_, ?_, by omega⟩
      · refine ((hp.append_right D).trans ?_).symm
        rw [← List.append_assoc]
        exact List.perm_append_comm.append_right D
      · have hm : RefSpoiled (D' ++ D) x s'.shared := h2.mono fun d hd => List.mem_append_right _ hd
        rcases hsh with ⟨sh, w, a, hc, e, hw, hcur, had⟩ | e
        · rw [e]
          exact hm.spoil (List.mem_append_left _ had) (ha sh w a hc hw hcur)
        · rw [e]; exact hm

end Rtbvh
