import Verif.Proofs.SpatialPure
/- The concurrent spatial build: the tree it leads to as a sequential function, and the invariant of every atomic step. -/
namespace Rtbvh
variable {F : Type}

/-- Two subtrees' results make one. -/
def combine (b : Aabb F) : Except Fault (IdTree F) → Except Fault (IdTree F) → Except Fault (IdTree F)
  | .ok l, .ok r => .ok (.node b l r)
  | .error f, _ => .error f
  | _, .error f => .error f

theorem combine_ok {b : Aabb F} {x y : Except Fault (IdTree F)} {T : IdTree F} (h : combine b x y = .ok T) :
    ∃ l r, x = .ok l ∧ y = .ok r ∧ T = .node b l r := by
  unfold combine at h
  split at h <;> simp_all

/-- Steps of the build of a tree: two per node. -/
def stepsOf : Except Fault (IdTree F) → Nat
  | .ok T => 2 * T.size
  | .error _ => 0

theorem IdTree.size_pos (T : IdTree F) : 0 < T.size := by cases T <;> simp [IdTree.size]

variable [FloatOps F]

/-- The ids of a leaf. -/
def leafIds (v : RefView F) (n : Nat) : List Nat := (v.x.take n).map Ref.primId

/-- Proof device: the tree that a task with `d` levels of remaining depth leads to. -/
def spatialTree (ctx : SpatialCtx F) (thr : F) (M : Nat) : (d : Nat) → Aabb F → RefView F → (begin n : Nat) → Bool →
    Except Fault (IdTree F)
  | 0, bounds, v, begin, n, srt =>
    match spatialDecide ctx thr M bounds v begin n ctx.maxDepth srt with
    | .error f => .error f
    | .ok (.leaf v') => .ok (.leaf bounds.clean (leafIds v' n))
    | .ok (.split _) => .error .panic
  | d + 1, bounds, v, begin, n, srt =>
    match spatialDecide ctx thr M bounds v begin n (ctx.maxDepth - (d + 1)) srt with
    | .error f => .error f
    | .ok (.leaf v') => .ok (.leaf bounds.clean (leafIds v' n))
    | .ok (.split r) =>
      combine (bounds.offsetBy (FloatOps.lit 1 (-4))).clean
        (spatialTree ctx thr M d r.leftBox (r.view.slice 0 r.mid) begin r.mid r.sorted)
        (spatialTree ctx thr M d r.rightBox (r.view.slice r.mid r.view.x.length) (begin + r.mid) (r.stop - r.mid) r.sorted)

/-- The two parts of a view side by side. -/
def RefView.append (v w : RefView F) : RefView F := ⟨v.x ++ w.x, v.y ++ w.y, v.z ++ w.z⟩

/-- Proof device: with the current nodes, index array and references `view` of its range, the subtree rooted at node `idx`
will end up as `T`; `fp` are the node indices it owns, `rg` the index ranges its leaves own, `ts` its unfinished tasks. -/
inductive SDen (ctx : SpatialCtx F) (thr : F) (N : Nat) (nodes : List (BvhNode F)) (prims : List Nat) :
    (idx b d len : Nat) → RefView F → Except Fault (IdTree F) → (fp : List Nat) → (rg : List (Nat × Nat)) →
    List (SpatialTask × SpatialPhase) → (waiting : Nat) → (rem : Nat) → Prop
  | ready {idx b d len n v nd srt} (hd : d ≤ ctx.maxDepth) (h : nodes[idx]? = some nd) (hl : v.Len len)
      (ha : v.All fun r => r.primId < N) (hn : n ≤ len) :
      SDen ctx thr N nodes prims idx b d len v (spatialTree ctx thr prims.length d nd.bounds v b n srt) [idx] []
        [(⟨idx, b, b + n, b + len, ctx.maxDepth - d, srt⟩, .ready)] n
        (stepsOf (spatialTree ctx thr prims.length d nd.bounds v b n srt))
  | leafAt {idx b d len n v nd srt v' first} (hd : d ≤ ctx.maxDepth) (h : nodes[idx]? = some nd) (hl : v.Len len)
      (ha : v.All fun r => r.primId < N) (hn : n ≤ len)
      (hdec : spatialDecide ctx thr prims.length nd.bounds v b n (ctx.maxDepth - d) srt = .ok (.leaf v')) :
      SDen ctx thr N nodes prims idx b d len v (.ok (.leaf nd.bounds.clean (leafIds v' n))) [idx] [(first, n)]
        [(⟨idx, b, b + n, b + len, ctx.maxDepth - d, srt⟩, .leafAt first)] 0 1
  | alloc {idx b d len n v nd srt r left} (hd : d ≤ ctx.maxDepth) (h : nodes[idx]? = some nd) (hl : v.Len len)
      (ha : v.All fun r => r.primId < N) (hn : n ≤ len)
      (hdec : spatialDecide ctx thr prims.length nd.bounds v b n (ctx.maxDepth - d) srt = .ok (.split r)) :
      SDen ctx thr N nodes prims idx b d len v (spatialTree ctx thr prims.length d nd.bounds v b n srt)
        [idx, left, left + 1] []
        [(⟨idx, b, b + n, b + len, ctx.maxDepth - d, srt⟩, .allocated left)] n
        (stepsOf (spatialTree ctx thr prims.length d nd.bounds v b n srt) - 1)
  | leaf {idx b d len v nd ids first} (h : nodes[idx]? = some nd) (hl : v.Len len) (hn : ids.length ≤ len)
      (hids : ∀ i ∈ ids, i < N) (h1 : nd.bounds.extra1 = asI32 ids.length) (h2 : nd.bounds.extra2 = asI32 first)
      (hp : BTree.rangeIds prims first ids.length = ids) (hr : first + ids.length ≤ prims.length) :
      SDen ctx thr N nodes prims idx b d len v (.ok (.leaf nd.bounds.clean ids)) [idx] [(first, ids.length)] [] 0 0
  | node {idx b d lenL lenR vL vR nd left L R fpL fpR rgL rgR tsL tsR wL wR rL rR} (h : nodes[idx]? = some nd)
      (h1 : nd.bounds.extra1 = -1) (h2 : nd.bounds.extra2 = asI32 left)
      (hL : SDen ctx thr N nodes prims left b d lenL vL L fpL rgL tsL wL rL)
      (hR : SDen ctx thr N nodes prims (left + 1) (b + lenL) d lenR vR R fpR rgR tsR wR rR) :
      SDen ctx thr N nodes prims idx b (d + 1) (lenL + lenR) (vL.append vR) (combine nd.bounds.clean L R)
        (idx :: (fpL ++ fpR)) (rgL ++ rgR) (tsL ++ tsR) (wL + wR) (rL + rR)

/-- Total length of ranges. -/
def rangeSum (rg : List (Nat × Nat)) : Nat := (rg.map Prod.snd).sum

theorem rangeSum_append (a b : List (Nat × Nat)) : rangeSum (a ++ b) = rangeSum a + rangeSum b := by
  simp [rangeSum]

namespace SDen
variable {ctx : SpatialCtx F} {thr : F} {N : Nat} {nodes nodes' : List (BvhNode F)} {prims prims' : List Nat}
  {idx b d len : Nat} {v : RefView F} {T : Except Fault (IdTree F)} {fp : List Nat} {rg : List (Nat × Nat)}
  {ts : List (SpatialTask × SpatialPhase)} {w r : Nat}

theorem idx_mem (h : SDen ctx thr N nodes prims idx b d len v T fp rg ts w r) : idx ∈ fp := by cases h <;> simp

theorem viewLen (h : SDen ctx thr N nodes prims idx b d len v T fp rg ts w r) : v.Len len := by
  induction h with
  | ready _ _ hl => exact hl
  | leafAt _ _ hl => exact hl
  | alloc _ _ hl => exact hl
  | leaf _ hl => exact hl
  | node _ _ _ _ _ ihL ihR =>
    exact ⟨by simp [RefView.append, ihL.1, ihR.1], by simp [RefView.append, ihL.2.1, ihR.2.1],
      by simp [RefView.append, ihL.2.2, ihR.2.2]⟩

/-- A task's range lies in its subtree's part of the arrays. -/
theorem task_bounds {t : SpatialTask} {ph : SpatialPhase} (h : SDen ctx thr N nodes prims idx b d len v T fp rg ts w r)
    (hmem : (t, ph) ∈ ts) : b ≤ t.begin ∧ t.begin ≤ t.splitEnd ∧ t.splitEnd ≤ b + len := by
  induction h with
  | ready => simp only [List.mem_singleton, Prod.mk.injEq] at hmem; obtain ⟨rfl, rfl⟩ := hmem; simp
  | leafAt => simp only [List.mem_singleton, Prod.mk.injEq] at hmem; obtain ⟨rfl, rfl⟩ := hmem; simp
  | alloc => simp only [List.mem_singleton, Prod.mk.injEq] at hmem; obtain ⟨rfl, rfl⟩ := hmem; simp
  | leaf => simp at hmem
  | node h h1 h2 hL hR ihL ihR =>
    rcases List.mem_append.1 hmem with hm | hm
    · have := ihL hm; omega
    · have := ihR hm; omega

/-- The ranges of a subtree and the references still waiting fit into its part of the arrays. -/
theorem budget (h : SDen ctx thr N nodes prims idx b d len v T fp rg ts w r) : rangeSum rg + w ≤ len := by
  induction h with
  | ready _ _ _ _ hn => simpa [rangeSum] using hn
  | leafAt _ _ _ _ hn => simpa [rangeSum] using hn
  | alloc _ _ _ _ hn => simpa [rangeSum] using hn
  | leaf _ _ hn => simpa [rangeSum] using hn
  | node _ _ _ _ _ ihL ihR => rw [rangeSum_append]; omega

/-- Writes outside the owned nodes and ranges do not matter. -/
theorem frame (h : SDen ctx thr N nodes prims idx b d len v T fp rg ts w r) (hf : ∀ i ∈ fp, nodes'[i]? = nodes[i]?)
    (hlen : prims'.length = prims.length) (hr : ∀ q ∈ rg, BTree.rangeIds prims' q.1 q.2 = BTree.rangeIds prims q.1 q.2) :
    SDen ctx thr N nodes' prims' idx b d len v T fp rg ts w r := by
  induction h with
  | ready hd h hl ha hn => rw [← hlen]; exact .ready hd (by rw [hf _ (by simp), h]) hl ha hn
  | leafAt hd h hl ha hn hdec => exact .leafAt hd (by rw [hf _ (by simp), h]) hl ha hn (by rw [hlen]; exact hdec)
  | alloc hd h hl ha hn hdec => rw [← hlen]; exact .alloc hd (by rw [hf _ (by simp), h]) hl ha hn (by rw [hlen]; exact hdec)
  | leaf h hl hn hids h1 h2 hp hr' =>
    exact .leaf (by rw [hf _ (by simp), h]) hl hn hids h1 h2 ((hr (_, _) (by simp)).trans hp) (by rw [hlen]; exact hr')
  | node h h1 h2 hL hR ihL ihR =>
    exact .node (by rw [hf _ (by simp), h]) h1 h2
      (ihL (fun i hi => hf i (by simp [hi])) fun q hq => hr q (by simp [hq]))
      (ihR (fun i hi => hf i (by simp [hi])) fun q hq => hr q (by simp [hq]))

theorem fp_le_size {T0 : IdTree F} (h : SDen ctx thr N nodes prims idx b d len v T fp rg ts w r) (hT : T = .ok T0) :
    fp.length ≤ T0.size := by
  induction h generalizing T0 with
  | ready => have := T0.size_pos; simp; omega
  | leafAt => have := T0.size_pos; simp; omega
  | @alloc idx b d len n v nd srt r left hd h hl ha hn hdec =>
    cases d with
    | zero => simp only [Nat.sub_zero] at hdec; unfold spatialTree at hT; rw [hdec] at hT; simp at hT
    | succ d =>
      unfold spatialTree at hT; rw [hdec] at hT
      obtain ⟨l, r, _, _, rfl⟩ := combine_ok hT
      have := l.size_pos; have := r.size_pos
      simp [IdTree.size]; omega
  | leaf => have := T0.size_pos; simp; omega
  | node h h1 h2 hL hR ihL ihR =>
    obtain ⟨l, r, rfl, rfl, rfl⟩ := combine_ok hT
    have := ihL rfl; have := ihR rfl
    simp [IdTree.size]; omega

/-- No task left: the tree is there. -/
theorem complete (h : SDen ctx thr N nodes prims idx b d len v T fp rg ts w r) (hts : ts = [])
    (hb : prims.length < 2147483648) (hfp : ∀ i ∈ fp, i < 2147483648) :
    ∃ B : BTree F, Unfolds nodes idx B ∧ T = .ok (B.withIds prims) ∧ B.ranges = rg ∧ B.RangesIn prims ∧ B.depth ≤ d ∧
      B.size = fp.length ∧ w = 0 ∧ ∀ i ∈ B.ids prims, i < N := by
  induction h with
  | ready => simp at hts
  | leafAt => simp at hts
  | alloc => simp at hts
  | @leaf idx b d len v nd ids first h hl hn hids h1 h2 hp hr =>
    refine ⟨.leaf nd.bounds.clean first ids.length,
      .leaf h (by rw [h1, asI32_eq (by omega)]) (by rw [h2, asI32_eq (by omega)]), ?_, rfl, hr, by simp [BTree.depth], rfl, rfl, ?_⟩
    · simp only [BTree.withIds, hp]
    · simp only [BTree.ids, hp]; exact hids
  | @node idx b d lenL lenR vL vR nd left L R fpL fpR rgL rgR tsL tsR wL wR rL rR h h1 h2 hL hR ihL ihR =>
    simp only [List.append_eq_nil_iff] at hts
    obtain ⟨A, u1, e1, r1, i1, d1, s1, w1, p1⟩ := ihL hts.1 (fun i hi => hfp i (by simp [hi]))
    obtain ⟨B, u2, e2, r2, i2, d2, s2, w2, p2⟩ := ihR hts.2 (fun i hi => hfp i (by simp [hi]))
    have := hfp left (by simp [hL.idx_mem])
    refine ⟨.node nd.bounds.clean A B, .node h (by omega) (by rw [h2, asI32_eq this]) u1 u2, ?_, by simp [BTree.ranges, r1, r2],
      ⟨i1, i2⟩, by simp [BTree.depth]; omega, by simp [BTree.size, s1, s2], by omega, ?_⟩
    · rw [e1, e2]; rfl
    · intro i hi
      rcases List.mem_append.1 hi with h | h
      · exact p1 i h
      · exact p2 i h

/-- Tasks left exactly when steps are left, for a build that succeeds. -/
theorem rem_zero_iff {T0 : IdTree F} (h : SDen ctx thr N nodes prims idx b d len v T fp rg ts w r) (hT : T = .ok T0) :
    r = 0 ↔ ts = [] := by
  induction h generalizing T0 with
  | ready => have := T0.size_pos; simp [hT, stepsOf]; omega
  | leafAt => simp
  | @alloc idx b d len n v nd srt r left hd h hl ha hn hdec =>
    have := T0.size_pos; simp [hT, stepsOf]; omega
  | leaf => simp
  | node h h1 h2 hL hR ihL ihR =>
    obtain ⟨l, r, rfl, rfl, rfl⟩ := combine_ok hT
    simp [← ihL rfl, ← ihR rfl]

end SDen
end Rtbvh
