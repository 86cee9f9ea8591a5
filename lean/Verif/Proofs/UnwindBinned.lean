import Verif.Proofs.Unwind
import Verif.Proofs.ImpurePure
import Verif.Props.Spawner
/- Proofs about binned builds in which a panicking task leaves its own node and its own ids in any state. -/
namespace Rtbvh
variable {F : Type} [FloatOps F]

/-- `y` is `x` except for what the lost tasks `D` own. -/
structure Spoiled (D : List (BinnedTask × TaskPhase)) (x y : BinnedShared F) : Prop where
  nlen : y.1.length = x.1.length
  nodes : ∀ i, (∀ d ∈ D, i ∉ taskFoot d) → y.1[i]? = x.1[i]?
  counter : y.2.1 = x.2.1
  plen : y.2.2.length = x.2.2.length
  prims : ∀ i, (∀ d ∈ D, i < d.1.begin ∨ d.1.stop ≤ i) → y.2.2[i]? = x.2.2[i]?

omit [FloatOps F] in
theorem Spoiled.refl (x : BinnedShared F) : Spoiled [] x x := ⟨rfl, fun _ _ => rfl, rfl, rfl, fun _ _ => rfl⟩

omit [FloatOps F] in
theorem Spoiled.mono {D D' : List (BinnedTask × TaskPhase)} {x y : BinnedShared F} (h : Spoiled D x y)
    (hs : ∀ d ∈ D, d ∈ D') : Spoiled D' x y :=
  ⟨h.nlen, fun i hi => h.nodes i fun d hd => hi d (hs d hd), h.counter, h.plen,
    fun i hi => h.prims i fun d hd => hi d (hs d hd)⟩

omit [FloatOps F] in
theorem Spoiled.spoil {D : List (BinnedTask × TaskPhase)} {x y z : BinnedShared F} (h : Spoiled D x y)
    {a : BinnedTask × TaskPhase} (ha : a ∈ D) (hz : BinnedSpoils a y z) : Spoiled D x z := by
  obtain ⟨h1, h2, h3, h4, h5⟩ := hz
  refine ⟨by rw [h1, h.nlen], fun i hi => ?_, by rw [h3, h.counter], by rw [h4, h.plen], fun i hi => ?_⟩
  · rw [h2 i, h.nodes i hi]
    · intro e; exact hi a ha (e ▸ taskFoot_node a)
    · intro left hl
      obtain ⟨t, ph⟩ := a
      cases hl
      have := hi _ ha
      simp only [taskFoot, List.mem_cons, not_or] at this
      exact ⟨this.2.1, this.2.2.1⟩
  · rw [h5 i (hi a ha), h.prims i hi]

theorem twin_set {α : Type} {l l' : List α} {i j : Nat} {v : α} (hl : l'.length = l.length) (h : l'[i]? = l[i]?) :
    (l'.set j v)[i]? = (l.set j v)[i]? := by
  rw [List.getElem?_set, List.getElem?_set, h, hl]

/-- A task that has nothing in common with the lost ones does the same on both memories. -/
theorem Spoiled.step {ctx : BinnedCtx F} {D : List (BinnedTask × TaskPhase)} {x y : BinnedShared F} (h : Spoiled D x y)
    {a : BinnedTask × TaskPhase} (hap : ∀ d ∈ D, TasksApart a d) {fp : List Nat} (hf : TaskFacts ctx x.1 0 x.2.2 fp a) :
    (binnedRun ctx y a = none → binnedRun ctx x a = none) ∧
    ∀ y' r, binnedRun ctx y a = some (y', r) → ∃ x', binnedRun ctx x a = some (x', r) ∧ Spoiled D x' y' := by
  obtain ⟨xn, xc, xp⟩ := x
  obtain ⟨yn, yc, yp⟩ := y
  obtain ⟨t, ph⟩ := a
  obtain ⟨nlen, hnodes, hcount, plen, hprims⟩ := h
  obtain ⟨nd, hnd, -⟩ := hf.nd
  have hids := hf.ids
  have h1 := hf.mid
  have h2 := hf.hi
  dsimp only at *
  simp only [Nat.sub_zero, Nat.zero_add] at hids h2
  subst hcount
  have hfoot : ∀ i ∈ taskFoot (t, ph), yn[i]? = xn[i]? := fun i hi => hnodes i fun d hd => (hap d hd).2 i hi
  have hndy : yn[t.node]? = some nd := by rw [hfoot _ (taskFoot_node (t, ph)), hnd]
  have hsl : sliceOf yp t.begin t.stop = sliceOf xp t.begin t.stop := twinSlice_congr fun i hi hj => hprims i fun d hd => by
    have := (hap d hd).1
    simp only at this
    omega
  have hslen : (sliceOf xp t.begin t.stop).length = t.stop - t.begin := by simp [sliceOf]; omega
  have hdl := decide_len (bounds := nd.bounds) (depth := t.depth) hids
  have hpr : ∀ xs : List Nat, xs.length = t.stop - t.begin → (writeAt yp t.begin xs).length = (writeAt xp t.begin xs).length ∧
      ∀ i, (∀ d ∈ D, i < d.1.begin ∨ d.1.stop ≤ i) → (writeAt yp t.begin xs)[i]? = (writeAt xp t.begin xs)[i]? := by
    intro xs hx
    refine ⟨by rw [length_writeAt _ _ _ (by omega), length_writeAt _ _ _ (by omega), plen], fun i hi => ?_⟩
    rw [twinWrite_get _ _ _ _ (by omega), twinWrite_get _ _ _ _ (by omega), hprims i hi]
  unfold binnedRun taskStep
  simp only [hndy, hnd, hsl]
  cases hdd : binnedDecide ctx nd.bounds (sliceOf xp t.begin t.stop) t.depth with
  | none => simp
  | some out =>
    cases out with
    | leaf sl =>
      have hl := hdl.1 _ hdd
      rw [hslen] at hl
      refine ⟨by simp, ?_⟩
      intro y' r e
      simp only [Option.some.injEq, Prod.mk.injEq] at e
      obtain ⟨rfl, rfl⟩ := e
      exact ⟨_, rfl, by simp [nlen], fun i hi => twin_set nlen (hnodes i hi), rfl, (hpr sl hl).1, (hpr sl hl).2⟩
    | split sl mid lb rb =>
      have hl := (hdl.2 _ _ _ _ hdd).1
      rw [hslen] at hl
      cases ph with
      | ready =>
        simp only [nlen]
        cases hal : allocate xn.length yc with
        | mk al c =>
          cases al with
          | exhausted => simp
          | outOfBounds => simp
          | pair left =>
            refine ⟨by simp, ?_⟩
            intro y' r e
            simp only [Option.some.injEq, Prod.mk.injEq] at e
            obtain ⟨rfl, rfl⟩ := e
            have := hpr _ hslen
            exact ⟨_, rfl, nlen, hnodes, rfl, this.1, this.2⟩
      | allocated left =>
        have e1 := hfoot left (by simp [taskFoot])
        have e2 := hfoot (left + 1) (by simp [taskFoot])
        simp only [e1, e2]
        cases hln : xn[left]? with
        | none => simp
        | some ln =>
          cases hrn : xn[left + 1]? with
          | none => simp
          | some rn =>
            refine ⟨by simp, ?_⟩
            intro y' r e
            simp only [Option.some.injEq, Prod.mk.injEq] at e
            obtain ⟨rfl, rfl⟩ := e
            refine ⟨_, rfl, by simp [nlen], fun i hi => ?_, rfl, (hpr sl hl).1, (hpr sl hl).2⟩
            exact twin_set (by simp [nlen]) (twin_set (by simp [nlen]) (twin_set nlen (hnodes i hi)))

/-- What a pool reached from the start of a build consists of. -/
theorem pool_facts {ctx : BinnedCtx F} {n : Nat} (hs : BinnedSetting ctx n) (hn : n ≤ 2 ^ 32) {m : Nat} {x : BinnedShared F}
    {l : List (BinnedTask × TaskPhase)}
    (h : PoolRun (binnedRun ctx) m (binnedSpawn ctx).shared (poolOf (binnedSpawn ctx).workers) x l) :
    l.Pairwise TasksApart ∧ ∀ a ∈ l, ∃ fp, TaskFacts ctx x.1 0 x.2.2 fp a := by
  obtain ⟨ks, u, e1, e2, e3, e4, e5⟩ := binned_pool h (binnedInit ctx) rfl (by
    simp [binnedSpawn, Spawn.init, poolOf, Worker.start, Worker.items, binnedInit])
  obtain ⟨T, P, -, -, hB⟩ := binnedInit_inv hs hn
  obtain ⟨s', r', e3', hB', -⟩ := hB.exec ks
  rw [e3] at e3'
  cases e3'
  obtain ⟨hp, hfa, -⟩ := hB'.tasksApart
  subst e4
  exact ⟨(e5.pairwise_iff fun h => TasksApart.symm h).2 hp, fun a ha => ⟨_, hfa a (e5.mem_iff.1 ha)⟩⟩

/-- The remaining tasks of a build with panics do what they would do if the lost tasks were merely never given a turn,
whatever the lost tasks have left in the memory they own. -/
theorem binned_spoiled_pool {ctx : BinnedCtx F} {n : Nat} (hs : BinnedSetting ctx n) (hn : n ≤ 2 ^ 32) {thr k c : Nat}
    {s₀ s : Unwind (BinnedShared F) (BinnedTask × TaskPhase)} (h0 : s₀.shared = (binnedSpawn ctx).shared)
    (h0' : s₀.toSpawn.workers = (binnedSpawn ctx).workers)
    (h : UnwindRun (binnedRun ctx) binnedSize thr BinnedSpoils k c s₀ s) :
    ∃ m D x, PoolRun (binnedRun ctx) m (binnedSpawn ctx).shared (poolOf (binnedSpawn ctx).workers) x
        (poolOf s.toSpawn.workers ++ D) ∧ Spoiled D x s.shared ∧
      k + todoOf s.toSpawn.workers ≤ todoOf (binnedSpawn ctx).workers + 5 * m := by
  induction h with
  | refl => exact ⟨0, [], _, .refl (by rw [h0']; simp), by rw [h0]; exact .refl _, by rw [h0']; omega⟩
  | @step k c s₀ s' s'' crash p i h ha ht ih =>
    obtain ⟨m, D, x, h1, h2, h3⟩ := ih h0 h0'
    obtain ⟨hpw, hfa⟩ := pool_facts hs hn h1
    rcases uturn_pool ht with ⟨e, hp, hk⟩ | ⟨a, R, r, e, hp, hp', hk⟩ | ⟨D', hp, hk, hsh⟩
    · refine ⟨m, D, x, h1.perm (hp.append_right D), by rw [e]; exact h2, by omega⟩
    · have hpa : (poolOf s'.toSpawn.workers ++ D).Perm (a :: (R ++ D)) := hp.append_right D
      have hap := (hpa.pairwise_iff fun h => TasksApart.symm h).1 hpw
      rw [List.pairwise_cons] at hap
      obtain ⟨fp, hf⟩ := hfa a (hpa.mem_iff.2 (by simp))
      obtain ⟨x', ex, hx'⟩ := (h2.step (fun d hd => hap.1 d (List.mem_append_right _ hd)) hf).2 _ _ e
      refine ⟨m + 1, D, x', .step h1 hpa ex ?_, hx', by omega⟩
      have := hp'.append_right D
      rwa [List.append_assoc] at this
    · refine ⟨m, D' ++ D, x, h1.perm ?_, ?_, by omega⟩
      · refine ((hp.append_right D).trans ?_).symm
        rw [← List.append_assoc]
        exact List.perm_append_comm.append_right D
      · have hm : Spoiled (D' ++ D) x s'.shared := h2.mono fun d hd => List.mem_append_right _ hd
        rcases hsh with ⟨sh, w, a, hc, e, hw, hcur, had⟩ | e
        · rw [e]
          exact hm.spoil (List.mem_append_left _ had) (ha sh w a hc hw hcur)
        · rw [e]; exact hm

end Rtbvh
