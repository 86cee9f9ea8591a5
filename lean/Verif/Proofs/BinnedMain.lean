import Mathlib.Data.List.Perm.Basic
import Verif.Proofs.BinnedConc
import Verif.Spec.Schedule
/- Every execution of the binned build. -/
namespace Rtbvh
variable {F : Type}

theorem asI32_eq {x : Nat} (h : x < 2147483648) : asI32 x = (x : Int) := by
  have h1 : x % 4294967296 = x := Nat.mod_eq_of_lt (by omega)
  unfold asI32
  rw [h1, if_pos h]

variable [FloatOps F]

/-- Proof device: the state leads to the tree `T` and ids `P` after `r` more steps. -/
structure BInv (ctx : BinnedCtx F) (n : Nat) (s : BinnedState F) (T : BTree F) (P : List Nat) (r : Nat) : Prop where
  ex : ∃ fp ts, Den ctx s.nodes 0 0 ctx.maxDepth s.prims T P fp ts r ∧ fp.Nodup ∧ fp.length = s.counter ∧
    (∀ i ∈ fp, i < s.counter) ∧ ts.Perm s.pending
  len : s.nodes.length = 2 * n - 1
  plen : s.prims.length = n

theorem BInv.step {ctx : BinnedCtx F} {n : Nat} {s : BinnedState F} {T : BTree F} {P : List Nat} {r : Nat}
    (h : BInv ctx n s T P r) {k : Nat} (hk : k < s.pending.length) :
    ∃ s' r', binnedStep ctx s k = some s' ∧ BInv ctx n s' T P r' ∧ r = r' + 1 := by
  obtain ⟨⟨fp, ts, hD, hnd, hfl, hfc, hts⟩, hlen, hpl⟩ := h
  have hfp := hD.fp_le
  obtain ⟨⟨t, ph⟩, hkk⟩ : ∃ x, s.pending[k] = x := ⟨_, rfl⟩
  have hmem : (t, ph) ∈ ts := hts.mem_iff.2 (hkk ▸ List.getElem_mem hk)
  obtain ⟨nodes', c', sl₁, new, fp', ts', r', e, hD', hts', hr, hlen', hout, hc, hb1, hb2, hb3⟩ :=
    hD.step hnd (fun i hi => by have := hfc i hi; omega) (counter := s.counter) (by intro hh; omega) hmem
  simp only [Nat.sub_zero, Nat.zero_add] at e hD' hb3
  refine ⟨⟨nodes', c', writeAt s.prims t.begin sl₁, s.pending.eraseIdx k ++ new⟩, r', ?_,
    ⟨⟨fp', ts', hD', ?_, ?_, ?_, ?_⟩, ?_, ?_⟩, hr⟩
  · unfold binnedStep
    rw [List.getElem?_eq_getElem hk, hkk]
    simp only [e]
  · rcases hc with ⟨_, hp⟩ | ⟨_, hp⟩
    · exact hp.nodup_iff.2 hnd
    · rw [hp.nodup_iff, List.nodup_append]
      refine ⟨hnd, by simp, ?_⟩
      intro a ha b hb
      have := hfc a ha
      simp at hb; omega
  · rcases hc with ⟨e, hp⟩ | ⟨e, hp⟩
    · simp [hp.length_eq, hfl, e]
    · simp [hp.length_eq, hfl, e]
  · intro i hi
    rcases hc with ⟨e, hp⟩ | ⟨e, hp⟩
    · have := hfc i (hp.mem_iff.1 hi); simp [e]; omega
    · have := hp.mem_iff.1 hi
      simp only [List.mem_append, List.mem_cons, List.not_mem_nil, or_false] at this
      simp only [e]
      rcases this with h | h | h
      · have := hfc i h; omega
      · omega
      · omega
  · refine hts'.trans (List.Perm.append_right new ?_)
    have h1 : ((t, ph) :: ts.erase (t, ph)).Perm ts := (List.perm_cons_erase hmem).symm
    have h2 : ((t, ph) :: s.pending.eraseIdx k).Perm s.pending := by
      have := List.getElem_cons_eraseIdx_perm hk
      rwa [hkk] at this
    exact List.Perm.cons_inv (h1.trans (hts.trans h2.symm))
  · simp [hlen', hlen]
  · rw [length_writeAt _ _ _ (by omega)]; exact hpl

theorem binnedStep_illegal {ctx : BinnedCtx F} {s : BinnedState F} {k : Nat} (h : ¬ k < s.pending.length) :
    binnedStep ctx s k = some s := by
  unfold binnedStep
  rw [List.getElem?_eq_none (by omega)]

theorem BInv.exec {ctx : BinnedCtx F} {n : Nat} {T : BTree F} {P : List Nat} (ks : List Nat) :
    ∀ {s : BinnedState F} {r : Nat}, BInv ctx n s T P r →
    ∃ s' r', binnedExec ctx ks s = some s' ∧ BInv ctx n s' T P r' ∧ r' ≤ r ∧
      (LegalSchedule ctx ks s → r = r' + ks.length) := by
  induction ks with
  | nil => intro s r h; exact ⟨s, r, rfl, h, by omega, by simp⟩
  | cons k ks ih =>
    intro s r h
    by_cases hk : k < s.pending.length
    · obtain ⟨s₁, r₁, e, h1, hr⟩ := h.step hk
      obtain ⟨s', r', e', h', hr', hL⟩ := ih h1
      refine ⟨s', r', by simp [binnedExec, e, e'], h', by omega, ?_⟩
      intro hl
      have := hL (hl.2 _ e)
      simp; omega
    · obtain ⟨s', r', e', h', hr', hL⟩ := ih h
      refine ⟨s', r', by simp [binnedExec, binnedStep_illegal hk, e'], h', by omega, ?_⟩
      intro hl; exact absurd hl.1 hk

/-- A finished state's nodes really are the tree. -/
theorem Den.complete {ctx : BinnedCtx F} {nodes : List (BvhNode F)} {idx b d : Nat} {sl P fp : List Nat}
    {T : BTree F} {ts : List (BinnedTask × TaskPhase)} {r : Nat} (h : Den ctx nodes idx b d sl T P fp ts r)
    (hts : ts = []) (hb : b + sl.length < 2147483648) (hfp : ∀ i ∈ fp, i < 2147483648) :
    sl = P ∧ Unfolds nodes idx T ∧ fp.length = T.size := by
  induction h with
  | ready => simp at hts
  | alloc => simp at hts
  | leaf h hne h1 h2 =>
    exact ⟨rfl, .leaf h (by rw [h1, asI32_eq (by omega)]) (by rw [h2, asI32_eq (by omega)]), by simp [BTree.size]⟩
  | @node idx b d slL slR nd left L R PL PR fpL fpR tsL tsR rL rR h h1 h2 hL hR ihL ihR =>
    simp only [List.append_eq_nil_iff] at hts
    simp only [List.length_append] at hb
    obtain ⟨e1, u1, s1⟩ := ihL hts.1 (by omega) (fun i hi => hfp i (by simp [hi]))
    obtain ⟨e2, u2, s2⟩ := ihR hts.2 (by omega) (fun i hi => hfp i (by simp [hi]))
    have := hfp left (by simp [hL.idx_mem])
    exact ⟨by rw [e1, e2], .node h (by omega) (by rw [h2, asI32_eq this]) u1 u2,
      by simp [BTree.size, s1, s2]⟩

omit [FloatOps F] in
theorem BTree.steps_eq (T : BTree F) : T.steps + 2 = 3 * T.leaves := by
  induction T with
  | leaf => rfl
  | node b l r ihl ihr => simp only [BTree.steps, BTree.leaves]; omega

/-- The setting of a binned build with `n ≥ 1` primitives. -/
structure BinnedSetting (ctx : BinnedCtx F) (n : Nat) : Prop where
  pos : 0 < n
  aabbs : ctx.aabbs.length = n
  centers : ctx.centers.length = n

theorem binnedInit_inv {ctx : BinnedCtx F} {n : Nat} (hs : BinnedSetting ctx n) (hn : n ≤ 2 ^ 32) :
    ∃ T P, buildTree ctx ctx.maxDepth (Aabb.unionOfList ctx.aabbs) (List.range n) 0 = some (T, P) ∧
      TreeOf T (List.range n) P 0 ctx.maxDepth ∧ BInv ctx n (binnedInit ctx) T P T.steps := by
  have hpr : (List.range n).map (· % 2 ^ 32) = List.range n := by
    conv => rhs; rw [← List.map_id (List.range n)]
    apply List.map_congr_left
    intro a ha; simp at ha
    simp only [id_eq]
    exact Nat.mod_eq_of_lt (by omega)
  have hIn : InScene ctx (List.range n) := by
    intro p hp; simp at hp; rw [hs.aabbs, hs.centers]; exact ⟨hp, hp⟩
  have hne : List.range n ≠ [] := by
    have := hs.pos
    intro hh; have := congrArg List.length hh; simp at this; omega
  obtain ⟨T, P, e⟩ := buildTree_total ctx.maxDepth (Nat.le_refl _) (Aabb.unionOfList ctx.aabbs) (List.range n) 0 hIn
  refine ⟨T, P, e, buildTree_treeOf _ (Nat.le_refl _) _ _ _ hIn hne _ _ e, ⟨?_, ?_, ?_⟩⟩
  · refine ⟨[0], [(⟨0, 0, n, 0⟩, .ready)], ?_, by simp, rfl, by simp [binnedInit], by simp [binnedInit, hs.aabbs]⟩
    have := hs.pos
    have := Den.ready (ctx := ctx) (nodes := (binnedInit ctx).nodes) (idx := 0) (b := 0)
      (nd := { bounds := Aabb.unionOfList ctx.aabbs }) (Nat.le_refl _)
      (by simp only [binnedInit, hs.aabbs]; rw [List.getElem?_set_self (by simp; omega)]) hne hIn e
    simpa [binnedInit, hs.aabbs, hpr] using this
  · simp [binnedInit, hs.aabbs]; omega
  · simp [binnedInit, hs.aabbs]

/-- Everything about complete and incomplete executions at once. -/
theorem binned_main {ctx : BinnedCtx F} {n : Nat} (hs : BinnedSetting ctx n) (hn : n ≤ 2 ^ 30) :
    ∃ T P, buildTree ctx ctx.maxDepth (Aabb.unionOfList ctx.aabbs) (List.range n) 0 = some (T, P) ∧
      TreeOf T (List.range n) P 0 ctx.maxDepth ∧
      ∀ ks, ∃ s, binnedExec ctx ks (binnedInit ctx) = some s ∧
        (LegalSchedule ctx ks (binnedInit ctx) → ks.length ≤ T.steps ∧ (s.pending = [] ↔ ks.length = T.steps)) ∧
        (s.pending = [] → binnedBuild ctx ks = some (some (binnedFinish s)) ∧
          (binnedFinish s).primIndices = P ∧ Unfolds (binnedFinish s).nodes 0 T ∧
          (binnedFinish s).nodes.length = T.size) ∧
        (s.pending ≠ [] → binnedBuild ctx ks = some none) := by
  obtain ⟨T, P, e, hT, hI⟩ := binnedInit_inv hs (by omega)
  refine ⟨T, P, e, hT, fun ks => ?_⟩
  obtain ⟨s, r, e', hI', hr, hL⟩ := hI.exec ks
  have hguard : ¬ (ctx.centers.length ≠ ctx.aabbs.length ∨ ctx.centers = [] ∨ ctx.aabbs = []) := by
    have := hs.pos
    rw [hs.aabbs, hs.centers]
    rintro (h | h | h)
    · exact h rfl
    · have h2 := hs.centers; rw [h] at h2; simp at h2; omega
    · have h2 := hs.aabbs; rw [h] at h2; simp at h2; omega
  obtain ⟨⟨fp, ts, hD, hnd, hfl, hfc, hts⟩, hlen, hpl⟩ := hI'
  have hfple := hD.fp_le
  have hz := hD.rem_zero_iff
  have hpend : ts = [] ↔ s.pending = [] := by
    constructor
    · rintro rfl; exact hts.symm.eq_nil
    · intro h; rw [h] at hts; exact hts.eq_nil
  refine ⟨s, e', ?_, ?_, ?_⟩
  · intro hl
    have := hL hl
    refine ⟨by omega, ?_⟩
    rw [← hpend, ← hz]; omega
  · intro hp
    have hts0 := hpend.2 hp
    have hcl : s.counter ≤ s.nodes.length := by omega
    have hfin : (binnedFinish s).nodes = s.nodes.take s.counter := by
      simp [binnedFinish, Nat.sub_eq_zero_of_le hcl]
    have hD2 : Den ctx (binnedFinish s).nodes 0 0 ctx.maxDepth s.prims T P fp ts r :=
      hD.frame (by intro i hi; rw [hfin, List.getElem?_take_of_lt (hfc i hi)])
    obtain ⟨h1, h2, h3⟩ := hD2.complete hts0 (by omega) (fun i hi => by have := hfc i hi; omega)
    refine ⟨?_, ?_, h2, ?_⟩
    · unfold binnedBuild; rw [if_neg hguard, e']; simp [hp]
    · simpa [binnedFinish] using h1
    · rw [hfin, List.length_take, ← h3, hfl]; omega
  · intro hp
    unfold binnedBuild; rw [if_neg hguard, e']; simp [hp]

end Rtbvh
