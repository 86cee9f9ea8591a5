import Verif.Proofs.SpatialStep
import Verif.Proofs.BuilderMain
/- Every execution of the spatial build. -/
namespace Rtbvh
variable {F : Type} [FloatOps F]

/-- Proof device: the state leads to `T` after `r` more steps. -/
structure SInv (ctx : SpatialCtx F) (thr : F) (N M : Nat) (s : SpatialState F) (T : Except Fault (IdTree F)) (r : Nat) :
    Prop where
  ex : ∃ fp rg ts w, SDen ctx thr N s.nodes s.prims 0 0 ctx.maxDepth M s.refs T fp rg ts w r ∧ fp.Nodup ∧
    fp.length = s.counter ∧ (∀ i ∈ fp, i < s.counter) ∧ rg.Pairwise Disjoint2 ∧ (∀ q ∈ rg, q.1 + q.2 ≤ s.refCount) ∧
    rangeSum rg = s.refCount ∧ ts.Perm s.pending
  len : s.nodes.length = 2 * M + 1
  cnt : s.counter ≤ s.nodes.length
  plen : s.prims.length = M

omit [FloatOps F] in
theorem rangeSum_perm {a b : List (Nat × Nat)} (h : a.Perm b) : rangeSum a = rangeSum b := by
  unfold rangeSum
  induction h with
  | nil => rfl
  | cons x _ ih => simp [ih]
  | swap x y l => simp; omega
  | trans _ _ ih1 ih2 => omega

theorem Disjoint2.symm {a b : Nat × Nat} (h : Disjoint2 a b) : Disjoint2 b a := Or.symm h

theorem SInv.step {ctx : SpatialCtx F} (hsort : ctx.Sorts) {thr : F} {N M : Nat} (hN : ctx.prims.length = N)
    {s : SpatialState F} {T : Except Fault (IdTree F)} {r : Nat} (h : SInv ctx thr N M s T r) {k : Nat}
    (hk : k < s.pending.length) :
    (∃ f, spatialStep ctx thr s k = .error f ∧ ∀ T0, T = .ok T0 → 2 * M + 1 < T0.size) ∨
    ∃ s' r', spatialStep ctx thr s k = .ok s' ∧ SInv ctx thr N M s' T r' ∧ ∀ T0, T = .ok T0 → r = r' + 1 := by
  obtain ⟨⟨fp, rg, ts, w, hD, hnd, hfl, hfc, hdis, hrg, hsum, hts⟩, hlen, hcnt, hpl⟩ := h
  have hbud := hD.budget
  obtain ⟨⟨t, ph⟩, hkk⟩ : ∃ x, s.pending[k] = x := ⟨_, rfl⟩
  have hmem : (t, ph) ∈ ts := hts.mem_iff.2 (hkk ▸ List.getElem_mem hk)
  have hstep := hD.step hsort hN hnd (fun i hi => by have := hfc i hi; omega) hdis
    (fun q hq => by have := hrg q hq; omega) (counter := s.counter) (refCount := s.refCount) hmem
  simp only [Nat.sub_zero, Nat.zero_add] at hstep
  rcases hstep with ⟨f, e, hf⟩ | ⟨e, fp', rg', ts', w', r', he, hD', hts', hr, hl1, hl2, -, -, hc, hq, -⟩
  · left
    refine ⟨f, ?_, ?_⟩
    · unfold spatialStep
      rw [List.getElem?_eq_getElem hk, hkk]
      simp only [e]
    · rintro T0 rfl
      rcases hf with hf | ⟨hf, hf2⟩
      · exact absurd rfl (hf T0)
      · have := hf2 T0 rfl; omega
  · right
    refine ⟨⟨e.nodes, e.counter, s.refs.write t.begin e.view, e.refCount, e.prims, s.pending.eraseIdx k ++ e.new⟩, r', ?_,
      ⟨⟨fp', rg', ts', w', hD', ?_, ?_, ?_, ?_, ?_, ?_, ?_⟩, ?_, ?_, ?_⟩, hr⟩
    · unfold spatialStep
      rw [List.getElem?_eq_getElem hk, hkk]
      simp only [he]
    · rcases hc with ⟨_, hp⟩ | ⟨_, hp, _⟩
      · exact hp.nodup_iff.2 hnd
      · rw [hp.nodup_iff, List.nodup_append]
        refine ⟨hnd, by simp, ?_⟩
        intro a ha b hb
        have := hfc a ha
        simp at hb; omega
    · rcases hc with ⟨e, hp⟩ | ⟨e, hp, _⟩
      · simp [hp.length_eq, hfl, e]
      · simp [hp.length_eq, hfl, e]
    · intro i hi
      rcases hc with ⟨e, hp⟩ | ⟨e, hp, _⟩
      · have := hfc i (hp.mem_iff.1 hi); simp [e]; omega
      · have := hp.mem_iff.1 hi
        simp only [List.mem_append, List.mem_cons, List.not_mem_nil, or_false] at this
        simp only [e]
        rcases this with h | h | h
        · have := hfc i h; omega
        · omega
        · omega
    · rcases hq with ⟨_, hp⟩ | ⟨n, _, hp⟩
      · exact (hp.pairwise_iff Disjoint2.symm).2 hdis
      · rw [hp.pairwise_iff Disjoint2.symm, List.pairwise_append]
        refine ⟨hdis, by simp, ?_⟩
        intro a ha b hb
        have := hrg a ha
        simp at hb; subst hb; exact .inl this
    · intro q hqm
      rcases hq with ⟨e, hp⟩ | ⟨n, e, hp⟩
      · have := hrg q (hp.mem_iff.1 hqm); simp only [e]; exact this
      · simp only [e]
        rcases List.mem_append.1 (hp.mem_iff.1 hqm) with h | h
        · have := hrg q h; omega
        · simp at h; subst h; exact Nat.le_refl _
    · rcases hq with ⟨e, hp⟩ | ⟨n, e, hp⟩
      · rw [rangeSum_perm hp, hsum]; exact e.symm
      · rw [rangeSum_perm hp, rangeSum_append, hsum]; simp [rangeSum, e]
    · refine hts'.trans (List.Perm.append_right e.new ?_)
      have h1 : ((t, ph) :: ts.erase (t, ph)).Perm ts := (List.perm_cons_erase hmem).symm
      have h2 : ((t, ph) :: s.pending.eraseIdx k).Perm s.pending := by
        have := List.getElem_cons_eraseIdx_perm hk
        rwa [hkk] at this
      exact List.Perm.cons_inv (h1.trans (hts.trans h2.symm))
    · simp [hl1, hlen]
    · simp only [hl1]
      rcases hc with ⟨e, _⟩ | ⟨e, _, h⟩
      · simp only [e]; exact hcnt
      · simp only [e]; omega
    · simp only [hl2]; exact hpl

theorem spatialStep_illegal {ctx : SpatialCtx F} {thr : F} {s : SpatialState F} {k : Nat} (h : ¬ k < s.pending.length) :
    spatialStep ctx thr s k = .ok s := by
  unfold spatialStep
  rw [List.getElem?_eq_none (by omega)]

theorem SInv.exec {ctx : SpatialCtx F} (hsort : ctx.Sorts) {thr : F} {N M : Nat} (hN : ctx.prims.length = N)
    {T : Except Fault (IdTree F)} (ks : List Nat) : ∀ {s : SpatialState F} {r : Nat}, SInv ctx thr N M s T r →
    (∃ f, spatialExec ctx thr ks s = .error f ∧ ∀ T0, T = .ok T0 → 2 * M + 1 < T0.size) ∨
    ∃ s' r', spatialExec ctx thr ks s = .ok s' ∧ SInv ctx thr N M s' T r' ∧
      ∀ T0, T = .ok T0 → r' ≤ r ∧ (SpatialLegal ctx thr ks s → r = r' + ks.length) := by
  induction ks with
  | nil => intro s r h; exact .inr ⟨s, r, rfl, h, fun _ _ => ⟨Nat.le_refl _, by simp⟩⟩
  | cons k ks ih =>
    intro s r h
    by_cases hk : k < s.pending.length
    · rcases h.step hsort hN hk with ⟨f, e, hf⟩ | ⟨s₁, r₁, e, h1, hr⟩
      · exact .inl ⟨f, by simp [spatialExec, e], hf⟩
      · rcases ih h1 with ⟨f, e', hf⟩ | ⟨s', r', e', h', hL⟩
        · exact .inl ⟨f, by simp [spatialExec, e, e'], hf⟩
        · refine .inr ⟨s', r', by simp [spatialExec, e, e'], h', fun T0 hT0 => ?_⟩
          have h1 := hr T0 hT0
          have h2 := hL T0 hT0
          refine ⟨by omega, fun hl => ?_⟩
          have := h2.2 (hl.2 _ e)
          simp; omega
    · have e := spatialStep_illegal (ctx := ctx) (thr := thr) hk
      rcases ih h with ⟨f, e', hf⟩ | ⟨s', r', e', h', hL⟩
      · exact .inl ⟨f, by simp [spatialExec, e, e'], hf⟩
      · exact .inr ⟨s', r', by simp [spatialExec, e, e'], h', fun T0 hT0 => ⟨(hL T0 hT0).1, fun hl => absurd hl.1 hk⟩⟩

/-- The setting of a spatial build with `N ≥ 1` primitives. -/
structure SpatialSetting (ctx : SpatialCtx F) (N : Nat) : Prop where
  pos : 0 < N
  aabbs : ctx.aabbs.length = N
  prims : ctx.prims.length = N
  sorts : ctx.Sorts
  small : maxReferenceCount ctx < 2 ^ 30

/-- Proof device: the tree of the whole build. -/
def spatialRootTree (ctx : SpatialCtx F) : Except Fault (IdTree F) :=
  spatialTree ctx (spatialThreshold ctx) (maxReferenceCount ctx) ctx.maxDepth (Aabb.unionOfList ctx.aabbs)
    (.ofFn fun _ => initialRefs ctx) 0 ctx.aabbs.length false

theorem initialRefs_length {ctx : SpatialCtx F} (h : ctx.prims.length = ctx.aabbs.length) :
    (initialRefs ctx).length = maxReferenceCount ctx := by
  unfold initialRefs; simp [h]; unfold maxReferenceCount; omega

theorem initialRefs_ids {ctx : SpatialCtx F} {N : Nat} (hs : SpatialSetting ctx N) : ∀ r ∈ initialRefs ctx, r.primId < N := by
  intro r hr
  have := hs.pos
  unfold initialRefs at hr
  simp only [List.mem_append, List.mem_map, List.mem_replicate] at hr
  rcases hr with ⟨⟨⟨b, p⟩, i⟩, hm, rfl⟩ | ⟨_, rfl⟩
  · have := List.snd_lt_of_mem_zipIdx hm
    simp [hs.aabbs, hs.prims] at this
    exact Nat.lt_of_le_of_lt (Nat.mod_le _ _) this
  · exact this

theorem spatialInit_inv {ctx : SpatialCtx F} {N : Nat} (hs : SpatialSetting ctx N) :
    SInv ctx (spatialThreshold ctx) N (maxReferenceCount ctx) (spatialInit ctx) (spatialRootTree ctx)
      (stepsOf (spatialRootTree ctx)) := by
  have hM : N ≤ maxReferenceCount ctx := by unfold maxReferenceCount; rw [hs.aabbs]; omega
  have hpos := hs.pos
  have hpl : (spatialInit ctx).prims.length = maxReferenceCount ctx := by simp [spatialInit]
  have hl := initialRefs_length (ctx := ctx) (by rw [hs.prims, hs.aabbs])
  have hi := initialRefs_ids hs
  refine ⟨⟨[0], [], [(⟨0, 0, N, maxReferenceCount ctx, 0, false⟩, .ready)], N, ?_, by simp, rfl, by simp [spatialInit], by simp,
    by simp, rfl, by simp [spatialInit, hs.aabbs]⟩, by simp [spatialInit], ?_, hpl⟩
  · have h0 : (spatialInit ctx).nodes[0]? = some { bounds := Aabb.unionOfList ctx.aabbs } := by
      simp [spatialInit]
    have hlen : (RefView.ofFn fun _ => initialRefs ctx).Len (maxReferenceCount ctx) := by
      refine ⟨?_, ?_, ?_⟩ <;> simpa [RefView.ofFn] using hl
    have hall : (RefView.ofFn fun _ => initialRefs ctx).All fun r => r.primId < N := by
      refine ⟨?_, ?_, ?_⟩ <;> simpa [RefView.ofFn] using hi
    have := SDen.ready (ctx := ctx) (thr := spatialThreshold ctx) (N := N) (nodes := (spatialInit ctx).nodes)
      (prims := (spatialInit ctx).prims) (idx := 0) (b := 0) (srt := false) (Nat.le_refl ctx.maxDepth) h0 hlen hall hM
    rw [hpl] at this
    simp only [Nat.zero_add, Nat.sub_self] at this
    unfold spatialRootTree
    rw [hs.aabbs]
    exact this
  · simp [spatialInit]

omit [FloatOps F] in
theorem BTree.ids_length {idx : List Nat} {B : BTree F} (h : B.RangesIn idx) : (B.ids idx).length = rangeSum B.ranges := by
  induction B with
  | leaf b f c =>
    simp only [BTree.RangesIn] at h
    simp [BTree.ids, BTree.ranges, rangeSum, BTree.rangeIds]; omega
  | node b l r ihl ihr =>
    simp [BTree.ids, BTree.ranges, rangeSum_append, ihl h.1, ihr h.2]

/-- Everything about executions of the spatial build at once. -/
theorem spatial_main {ctx : SpatialCtx F} {N : Nat} (hs : SpatialSetting ctx N) (ks : List Nat) :
    (∃ f, spatialBuild ctx ks = .error f ∧ ∀ T0, spatialRootTree ctx = .ok T0 → 2 * maxReferenceCount ctx + 1 < T0.size) ∨
    ∃ s, spatialExec ctx (spatialThreshold ctx) ks (spatialInit ctx) = .ok s ∧
      (∀ T0, spatialRootTree ctx = .ok T0 → SpatialLegal ctx (spatialThreshold ctx) ks (spatialInit ctx) →
        ks.length ≤ 2 * T0.size ∧ (s.pending = [] ↔ ks.length = 2 * T0.size)) ∧
      (s.pending ≠ [] → spatialBuild ctx ks = .ok none) ∧
      (s.pending = [] → spatialBuild ctx ks = .ok (some (spatialFinish s)) ∧
        ∃ B : BTree F, Unfolds (spatialFinish s).nodes 0 B ∧
          spatialRootTree ctx = .ok (B.withIds (spatialFinish s).primIndices) ∧
          B.ranges.Pairwise Disjoint2 ∧ B.RangesIn (spatialFinish s).primIndices ∧ B.depth ≤ ctx.maxDepth ∧
          B.size = (spatialFinish s).nodes.length ∧ (∀ i ∈ B.ids (spatialFinish s).primIndices, i < N) ∧
          (spatialFinish s).primIndices.length = maxReferenceCount ctx ∧
          (B.ids (spatialFinish s).primIndices).length ≤ maxReferenceCount ctx ∧
          (spatialFinish s).buildType = .spatial ∧
          (spatialFinish s).nodes.length ≤ 2 * maxReferenceCount ctx + 1 ∧
          ∀ q ∈ B.ranges, q.1 + q.2 ≤ (B.ids (spatialFinish s).primIndices).length) := by
  have hguard : ¬ (ctx.prims.length ≠ ctx.aabbs.length ∨ ctx.prims = [] ∨ ctx.aabbs = []) := by
    have := hs.pos
    rw [hs.aabbs, hs.prims]
    rintro (h | h | h)
    · exact h rfl
    · have h2 := hs.prims; rw [h] at h2; simp at h2; omega
    · have h2 := hs.aabbs; rw [h] at h2; simp at h2; omega
  have hsm := hs.small
  rcases (spatialInit_inv hs).exec hs.sorts hs.prims ks with ⟨f, e, hf⟩ | ⟨s, r, e, hI, hL⟩
  · exact .inl ⟨f, by unfold spatialBuild; rw [if_neg hguard, e], hf⟩
  · right
    obtain ⟨⟨fp, rg, ts, w, hD, hnd, hfl, hfc, hdis, hrg, hsum, hts⟩, hlen, hcnt, hpl⟩ := hI
    have hpend : ts = [] ↔ s.pending = [] := by
      constructor
      · rintro rfl; exact hts.symm.eq_nil
      · intro h; rw [h] at hts; exact hts.eq_nil
    refine ⟨s, e, ?_, ?_, ?_⟩
    · intro T0 hT0 hl
      have hz := hD.rem_zero_iff hT0
      have h1 := (hL T0 hT0).2 hl
      rw [hT0] at h1
      simp only [stepsOf] at h1
      refine ⟨by omega, ?_⟩
      rw [← hpend, ← hz]; omega
    · intro hp
      unfold spatialBuild; rw [if_neg hguard, e]; simp [hp]
    · intro hp
      refine ⟨by unfold spatialBuild; rw [if_neg hguard, e]; simp [hp], ?_⟩
      have hts0 := hpend.2 hp
      have hfin : (spatialFinish s).nodes = s.nodes.take s.counter := by
        simp [spatialFinish, Nat.sub_eq_zero_of_le hcnt]
      have hD2 := hD.frame (nodes' := (spatialFinish s).nodes) (prims' := s.prims)
        (by intro i hi; rw [hfin, List.getElem?_take_of_lt (hfc i hi)]) rfl (fun _ _ => rfl)
      obtain ⟨B, u, eT, hr, hin, hd, hsz, -, hid⟩ := hD2.complete hts0 (by omega) (fun i hi => by have := hfc i hi; omega)
      refine ⟨B, u, eT, hr ▸ hdis, hin, hd, ?_, hid, hpl, ?_, rfl, ?_, fun q hq => ?_⟩
      · rw [hsz, hfin, List.length_take, hfl]; omega
      · rw [show (spatialFinish s).primIndices = s.prims from rfl, BTree.ids_length hin, hr]
        have := hD2.budget; omega
      · rw [hfin, List.length_take]; omega
      · rw [show (spatialFinish s).primIndices = s.prims from rfl, BTree.ids_length hin, hr, hsum]
        exact hrg q (hr ▸ hq)

/-- The leaves hold at least as many references as the task was given. -/
theorem spatialTree_count {ctx : SpatialCtx F} (hsort : ctx.Sorts) {N : Nat} (hN : ctx.prims.length = N) {thr : F} {M : Nat} :
    ∀ (d : Nat) {bounds : Aabb F} {v : RefView F} {begin n len : Nat} {srt : Bool} {T : IdTree F}, v.Len len →
    (v.All fun r => r.primId < N) → n ≤ len → spatialTree ctx thr M d bounds v begin n srt = .ok T → n ≤ T.ids.length
  | 0, bounds, v, begin, n, len, srt, T, hl, ha, hn, h => by
    unfold spatialTree at h
    split at h
    · simp at h
    · rename_i v' hdec
      rcases spatialDecide_ok hsort hN hl ha hn hdec with ⟨_, e, hl', _⟩ | ⟨_, e, _⟩
      · cases e
        simp only [Except.ok.injEq] at h; subst h
        simp [IdTree.ids, leafIds_length hl' hn]
      · simp at e
    · simp at h
  | d + 1, bounds, v, begin, n, len, srt, T, hl, ha, hn, h => by
    unfold spatialTree at h
    split at h
    · simp at h
    · rename_i v' hdec
      rcases spatialDecide_ok hsort hN hl ha hn hdec with ⟨_, e, hl', _⟩ | ⟨_, e, _⟩
      · cases e
        simp only [Except.ok.injEq] at h; subst h
        simp [IdTree.ids, leafIds_length hl' hn]
      · simp at e
    · rename_i r hdec
      rcases spatialDecide_ok hsort hN hl ha hn hdec with ⟨_, e, _⟩ | ⟨_, e, hr, _⟩
      · simp at e
      · cases e
        obtain ⟨L, R, e1, e2, rfl⟩ := combine_ok h
        have h1 := hr.mid; have h2 := hr.stop; have h3 := hr.grow
        have hL := spatialTree_count hsort hN d (len := r.mid) (by
          have := hr.len
          refine ⟨?_, ?_, ?_⟩ <;> simp [RefView.slice, sliceOf, this.1, this.2.1, this.2.2] <;> omega) (hr.all.slice _ _) (Nat.le_refl _) e1
        have hR := spatialTree_count hsort hN d (len := len - r.mid) (by
          have := hr.len
          refine ⟨?_, ?_, ?_⟩ <;> simp [RefView.slice, sliceOf, this.1, this.2.1, this.2.2]) (hr.all.slice _ _) (by omega) e2
        simp [IdTree.ids]; omega

omit [FloatOps F] in
theorem BTree.withIds_ids (idx : List Nat) (B : BTree F) : (B.withIds idx).ids = B.ids idx := by
  induction B with
  | leaf => rfl
  | node b l r ihl ihr => simp [BTree.withIds, IdTree.ids, BTree.ids, ihl, ihr]

omit [FloatOps F] in
theorem BTree.withIds_size (idx : List Nat) (B : BTree F) : (B.withIds idx).size = B.size := by
  induction B with
  | leaf => rfl
  | node b l r ihl ihr => simp [BTree.withIds, IdTree.size, BTree.size, ihl, ihr]

/-- The finished tree lists at least as many references as there are primitives. -/
theorem spatialRootTree_count {ctx : SpatialCtx F} {N : Nat} (hs : SpatialSetting ctx N) {T : IdTree F}
    (h : spatialRootTree ctx = .ok T) : N ≤ T.ids.length := by
  have hM : N ≤ maxReferenceCount ctx := by unfold maxReferenceCount; rw [hs.aabbs]; omega
  have hl := initialRefs_length (ctx := ctx) (by rw [hs.prims, hs.aabbs])
  have hi := initialRefs_ids hs
  have := spatialTree_count hs.sorts hs.prims (len := maxReferenceCount ctx) _ (by
      refine ⟨?_, ?_, ?_⟩ <;> simpa [RefView.ofFn] using hl) (by refine ⟨?_, ?_, ?_⟩ <;> simpa [RefView.ofFn] using hi)
    (by rw [hs.aabbs]; exact hM) h
  rwa [hs.aabbs] at this

/-- The context of a spatial build. -/
def Builder.spatialCtx (b : Builder F) (split : Nat → Fin 3 → F → Aabb F × Aabb F)
    (sort : Fin 3 → List (Ref F) → Option (List (Ref F))) (order : List Nat) : SpatialCtx F :=
  SpatialCtx.new (b.boxes order) (b.primitives.zipIdx.map fun (p, i) => ⟨p.center, split i⟩) b.primitivesPerLeaf sort

theorem Builder.LegalSpatial.setting {b : Builder F} {order : List Nat} {split : Nat → Fin 3 → F → Aabb F × Aabb F}
    {sort : Fin 3 → List (Ref F) → Option (List (Ref F))} (h : b.LegalSpatial order sort) :
    SpatialSetting (b.spatialCtx split sort order) b.primitives.length ∧
      maxReferenceCount (b.spatialCtx split sort order) = referenceLimit F b.primitives.length ∧
      ∀ ks, b.constructSpatialSah split sort order ks = .ok (spatialBuild (b.spatialCtx split sort order) ks) := by
  have hb := boxes_length h.toLegal
  have hm : maxReferenceCount (b.spatialCtx split sort order) = referenceLimit F b.primitives.length := by
    simp only [maxReferenceCount, Builder.spatialCtx, SpatialCtx.new, hb, referenceLimit]
  refine ⟨⟨List.length_pos_iff.2 h.nonempty, by simp [Builder.spatialCtx, SpatialCtx.new, hb],
    by simp [Builder.spatialCtx, SpatialCtx.new], h.sorts, by rw [hm]; exact h.fits⟩, hm, fun ks => ?_⟩
  unfold Builder.constructSpatialSah
  rw [Builder.check_legal h.toLegal]
  rfl

end Rtbvh
