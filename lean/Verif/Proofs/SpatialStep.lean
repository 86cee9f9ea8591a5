import Verif.Proofs.SpatialConc
/- Every atomic step of the spatial build keeps the invariant. -/
namespace Rtbvh
variable {F : Type}

theorem rangeIds_writeAt_self {prims ids : List Nat} {first : Nat} (h : first + ids.length ≤ prims.length) :
    BTree.rangeIds (writeAt prims first ids) first ids.length = ids := by
  unfold BTree.rangeIds writeAt
  have : (prims.take first).length = first := by simp; omega
  rw [List.append_assoc, List.drop_append_of_le_length (by omega), List.drop_eq_nil_of_le (by omega), List.nil_append,
    List.take_left]

theorem rangeIds_writeAt_disjoint {prims ids : List Nat} {first f c : Nat} (h : first + ids.length ≤ prims.length)
    (hd : Disjoint2 (f, c) (first, ids.length)) :
    BTree.rangeIds (writeAt prims first ids) f c = BTree.rangeIds prims f c := by
  unfold BTree.rangeIds writeAt
  have ht : (prims.take first).length = first := by simp; omega
  rcases hd with hd | hd
  · simp only at hd
    rw [List.append_assoc, List.drop_append_of_le_length (by omega), List.take_append_of_le_length (by simp; omega)]
    rw [List.drop_take, List.take_take, Nat.min_eq_left (by omega)]
  · simp only at hd
    have h2 : (prims.take first ++ ids).length = first + ids.length := by simp; omega
    rw [List.drop_append, List.drop_eq_nil_of_le (by omega), List.nil_append, h2, List.drop_drop]
    congr 2; omega

namespace RefView
theorem slice_full {v : RefView F} {len : Nat} (h : v.Len len) : v.slice 0 len = v := by
  obtain ⟨h1, h2, h3⟩ := h
  obtain ⟨x, y, z⟩ := v
  simp only at h1 h2 h3
  simp only [RefView.slice, sliceOf, List.drop_zero, Nat.sub_zero]
  rw [List.take_of_length_le (by omega), List.take_of_length_le (by omega), List.take_of_length_le (by omega)]

theorem write_full {v w : RefView F} {len : Nat} (h : v.Len len) (hw : w.Len len) : v.write 0 w = w := by
  obtain ⟨x, y, z⟩ := w
  simp only [RefView.write]
  rw [writeAt_full _ _ (hw.1.trans h.1.symm), writeAt_full _ _ (hw.2.1.trans h.2.1.symm),
    writeAt_full _ _ (hw.2.2.trans h.2.2.symm)]

theorem slice_append_left {v w : RefView F} {len b e : Nat} (h : v.Len len) (he : e ≤ len) :
    (v.append w).slice b e = v.slice b e := by
  simp only [RefView.slice, RefView.append]
  rw [sliceOf_append_left _ _ _ _ (by rw [h.1]; exact he), sliceOf_append_left _ _ _ _ (by rw [h.2.1]; exact he),
    sliceOf_append_left _ _ _ _ (by rw [h.2.2]; exact he)]

theorem slice_append_right {v w : RefView F} {len b e : Nat} (h : v.Len len) (hb : len ≤ b) :
    (v.append w).slice b e = w.slice (b - len) (e - len) := by
  simp only [RefView.slice, RefView.append]
  rw [sliceOf_append_right _ _ _ _ (by rw [h.1]; exact hb), sliceOf_append_right _ _ _ _ (by rw [h.2.1]; exact hb),
    sliceOf_append_right _ _ _ _ (by rw [h.2.2]; exact hb), h.1, h.2.1, h.2.2]

theorem write_append_left {v w u : RefView F} {len b m : Nat} (h : v.Len len) (hu : u.Len m) (hb : b + m ≤ len) :
    (v.append w).write b u = (v.write b u).append w := by
  simp only [RefView.write, RefView.append]
  rw [writeAt_append_left _ _ _ _ (by rw [h.1, hu.1]; exact hb), writeAt_append_left _ _ _ _ (by rw [h.2.1, hu.2.1]; exact hb),
    writeAt_append_left _ _ _ _ (by rw [h.2.2, hu.2.2]; exact hb)]

theorem write_append_right {v w u : RefView F} {len b : Nat} (h : v.Len len) (hb : len ≤ b) :
    (v.append w).write b u = v.append (w.write (b - len) u) := by
  simp only [RefView.write, RefView.append]
  rw [writeAt_append_right _ _ _ _ (by rw [h.1]; exact hb), writeAt_append_right _ _ _ _ (by rw [h.2.1]; exact hb),
    writeAt_append_right _ _ _ _ (by rw [h.2.2]; exact hb), h.1, h.2.1, h.2.2]

theorem split_append {v : RefView F} {m len : Nat} (h : v.Len len) (hm : m ≤ len) :
    (v.slice 0 m).append (v.slice m len) = v ∧ (v.slice 0 m).Len m ∧ (v.slice m len).Len (len - m) := by
  obtain ⟨h1, h2, h3⟩ := h
  obtain ⟨x, y, z⟩ := v
  simp only at h1 h2 h3
  have key : ∀ l : List (Ref F), l.length = len → sliceOf l 0 m ++ sliceOf l m len = l ∧ (sliceOf l 0 m).length = m ∧
      (sliceOf l m len).length = len - m := by
    intro l hl
    have e : (l.drop m).take (len - m) = l.drop m := List.take_of_length_le (by simp; omega)
    simp only [sliceOf, List.drop_zero, Nat.sub_zero, e]
    exact ⟨List.take_append_drop m l, by simp; omega, by simp; omega⟩
  simp only [RefView.slice, RefView.append, RefView.Len]
  exact ⟨by rw [(key x h1).1, (key y h2).1, (key z h3).1], ⟨(key x h1).2.1, (key y h2).2.1, (key z h3).2.1⟩,
    ⟨(key x h1).2.2, (key y h2).2.2, (key z h3).2.2⟩⟩

theorem All.slice {v : RefView F} {P : Ref F → Prop} (h : v.All P) (b e : Nat) : (v.slice b e).All P :=
  ⟨fun r hr => h.1 r (List.mem_of_mem_drop (List.mem_of_mem_take hr)),
    fun r hr => h.2.1 r (List.mem_of_mem_drop (List.mem_of_mem_take hr)),
    fun r hr => h.2.2 r (List.mem_of_mem_drop (List.mem_of_mem_take hr))⟩
end RefView

variable [FloatOps F]

theorem spatialTree_error {ctx : SpatialCtx F} {thr : F} {M d begin n : Nat} {bounds : Aabb F} {v : RefView F} {srt : Bool}
    {f : Fault} (h : spatialDecide ctx thr M bounds v begin n (ctx.maxDepth - d) srt = .error f) :
    spatialTree ctx thr M d bounds v begin n srt = .error f := by
  cases d with
  | zero => simp only [Nat.sub_zero] at h; unfold spatialTree; rw [h]
  | succ d => unfold spatialTree; rw [h]

theorem spatialTree_leaf {ctx : SpatialCtx F} {thr : F} {M d begin n : Nat} {bounds : Aabb F} {v v' : RefView F} {srt : Bool}
    (h : spatialDecide ctx thr M bounds v begin n (ctx.maxDepth - d) srt = .ok (.leaf v')) :
    spatialTree ctx thr M d bounds v begin n srt = .ok (.leaf bounds.clean (leafIds v' n)) := by
  cases d with
  | zero => simp only [Nat.sub_zero] at h; unfold spatialTree; rw [h]
  | succ d => unfold spatialTree; rw [h]

theorem leafIds_length {v : RefView F} {n len : Nat} (h : v.Len len) (hn : n ≤ len) : (leafIds v n).length = n := by
  unfold leafIds; simp [h.1]; omega

/-- Every atomic step of any unfinished task either keeps the tree the subtree leads to, or faults; it faults only if that
tree is a fault or the node array is full. -/
theorem SDen.step {ctx : SpatialCtx F} (hsort : ctx.Sorts) {thr : F} {N : Nat} (hN : ctx.prims.length = N)
    {nodes : List (BvhNode F)} {prims : List Nat}
    {idx b d len : Nat} {v : RefView F} {T : Except Fault (IdTree F)} {fp : List Nat} {rg : List (Nat × Nat)}
    {ts : List (SpatialTask × SpatialPhase)} {w r : Nat} {t : SpatialTask} {ph : SpatialPhase}
    (h : SDen ctx thr N nodes prims idx b d len v T fp rg ts w r) (hnd : fp.Nodup) (hlt : ∀ i ∈ fp, i < nodes.length)
    (hdis : rg.Pairwise Disjoint2) (hrg : ∀ q ∈ rg, q.1 + q.2 ≤ prims.length) {counter refCount : Nat}
    (hmem : (t, ph) ∈ ts) :
    (∃ f, spatialTaskStep ctx thr nodes counter refCount prims (v.slice (t.begin - b) (t.splitEnd - b)) t ph = .error f ∧
      ((∀ T0, T ≠ .ok T0) ∨ (¬ counter + 1 < nodes.length ∧ ∀ T0, T = .ok T0 → fp.length + 2 ≤ T0.size))) ∨
    ∃ e fp' rg' ts' w' r',
      spatialTaskStep ctx thr nodes counter refCount prims (v.slice (t.begin - b) (t.splitEnd - b)) t ph = .ok e ∧
      SDen ctx thr N e.nodes e.prims idx b d len (v.write (t.begin - b) e.view) T fp' rg' ts' w' r' ∧
      ts'.Perm (ts.erase (t, ph) ++ e.new) ∧ (∀ T0, T = .ok T0 → r = r' + 1) ∧ e.nodes.length = nodes.length ∧
      e.prims.length = prims.length ∧ (∀ i, i ∉ fp → e.nodes[i]? = nodes[i]?) ∧
      (∀ q : Nat × Nat, (∀ p ∈ rg, Disjoint2 q p) → BTree.rangeIds e.prims q.1 q.2 = BTree.rangeIds prims q.1 q.2) ∧
      ((e.counter = counter ∧ fp'.Perm fp) ∨
        (e.counter = counter + 2 ∧ fp'.Perm (fp ++ [counter, counter + 1]) ∧ counter + 1 < nodes.length)) ∧
      ((e.refCount = refCount ∧ rg'.Perm rg) ∨
        (∃ n, e.refCount = refCount + n ∧ rg'.Perm (rg ++ [(refCount, n)]))) ∧
      e.view.Len (t.splitEnd - t.begin) ∧ b ≤ t.begin ∧ t.begin ≤ t.splitEnd ∧ t.splitEnd ≤ b + len := by
  induction h with
  | @ready idx b d len n v nd srt hd h hl ha hn =>
    simp only [List.mem_singleton, Prod.mk.injEq] at hmem
    obtain ⟨rfl, rfl⟩ := hmem
    simp only [Nat.sub_self, Nat.add_sub_cancel_left, RefView.slice_full hl]
    have hidx := hlt idx (by simp)
    cases hdec : spatialDecide ctx thr prims.length nd.bounds v b n (ctx.maxDepth - d) srt with
    | error f =>
      left
      refine ⟨f, ?_, .inl ?_⟩
      · unfold spatialTaskStep; simp only [h, Nat.add_sub_cancel_left, hdec]
      · rw [spatialTree_error hdec]; simp
    | ok out =>
      rcases spatialDecide_ok hsort hN hl ha hn hdec with ⟨v', rfl, hl', ha'⟩ | ⟨r, rfl, hr, hdep, hn1⟩
      · right
        refine ⟨⟨nodes, counter, refCount + n, prims, v, [(⟨idx, b, b + n, b + len, ctx.maxDepth - d, srt⟩, .leafAt refCount)]⟩,
          [idx], [(refCount, n)], [(⟨idx, b, b + n, b + len, ctx.maxDepth - d, srt⟩, .leafAt refCount)], 0, 1,
          ?_, ?_, by simp, ?_, rfl, rfl, fun _ _ => rfl, fun _ _ => rfl, .inl ⟨rfl, .refl _⟩, .inr ⟨n, rfl, by simp⟩, hl, by simp,
          by simp, by simp⟩
        · unfold spatialTaskStep; simp only [h, Nat.add_sub_cancel_left, hdec]
        · simp only [RefView.write_full hl hl]
          rw [spatialTree_leaf hdec]
          exact .leafAt hd h hl ha hn hdec
        · intro T0 hT0
          rw [spatialTree_leaf hdec]; rfl
      · by_cases hroom : counter + 1 < nodes.length
        · right
          refine ⟨⟨nodes, counter + 2, refCount, prims, v, [(⟨idx, b, b + n, b + len, ctx.maxDepth - d, srt⟩, .allocated counter)]⟩,
            [idx, counter, counter + 1], [], [(⟨idx, b, b + n, b + len, ctx.maxDepth - d, srt⟩, .allocated counter)], n,
            stepsOf (spatialTree ctx thr prims.length d nd.bounds v b n srt) - 1,
            ?_, ?_, by simp, ?_, rfl, rfl, fun _ _ => rfl, fun _ _ => rfl, .inr ⟨rfl, by simp, hroom⟩, .inl ⟨rfl, .refl _⟩, hl,
            by simp, by simp, by simp⟩
          rotate_left
          · simp only [RefView.write_full hl hl]
            exact .alloc hd h hl ha hn hdec
          · intro T0 hT0
            have := T0.size_pos
            simp only [hT0, stepsOf]; omega
          · unfold spatialTaskStep
            simp only [h, Nat.add_sub_cancel_left, hdec, allocate, hroom, if_true, if_neg (show ¬ nodes.length ≤ counter by omega)]
        · left
          refine ⟨if nodes.length ≤ counter then .panic else .wildWrite, ?_, .inr ⟨hroom, ?_⟩⟩
          · unfold spatialTaskStep
            simp only [h, Nat.add_sub_cancel_left, hdec, allocate, hroom, if_false]
            by_cases hc : nodes.length ≤ counter <;> simp [hc]
          · intro T0 hT0
            cases d with
            | zero => simp only [Nat.sub_zero] at hdep; omega
            | succ d =>
              unfold spatialTree at hT0; rw [hdec] at hT0
              obtain ⟨l, r, _, _, rfl⟩ := combine_ok hT0
              have := l.size_pos; have := r.size_pos
              simp [IdTree.size]; omega
  | @leafAt idx b d len n v nd srt v' first hd h hl ha hn hdec =>
    simp only [List.mem_singleton, Prod.mk.injEq] at hmem
    obtain ⟨rfl, rfl⟩ := hmem
    simp only [Nat.sub_self, Nat.add_sub_cancel_left, RefView.slice_full hl]
    have hidx := hlt idx (by simp)
    have hroom := hrg (first, n) (by simp)
    simp only at hroom
    obtain ⟨v'', e, hl', ha'⟩ : ∃ v'', SpatialOutcome.leaf v' = .leaf v'' ∧ v''.Len len ∧ v''.All fun r => r.primId < N := by
      rcases spatialDecide_ok hsort hN hl ha hn hdec with hh | ⟨r, hr, _⟩
      · exact hh
      · cases hr
    cases e
    have hln : (leafIds v' n).length = n := leafIds_length hl' hn
    right
    refine ⟨⟨nodes.set idx ((nd.setLeftFirst (some first)).setCount (some n)), counter, refCount,
      writeAt prims first (leafIds v' n), v', []⟩, [idx], [(first, (leafIds v' n).length)], [], 0, 0, ?_, ?_, by simp, by simp,
      by simp, ?_, ?_, ?_, .inl ⟨rfl, .refl _⟩, .inl ⟨rfl, by simp [hln]⟩, hl', by simp, by simp, by simp⟩
    · unfold spatialTaskStep
      have hh : ¬ prims.length < first + (leafIds v' n).length := by omega
      simp only [h, Nat.add_sub_cancel_left, hdec]
      exact if_neg hh
    · simp only [RefView.write_full hl hl']
      have hc : ((nd.setLeftFirst (some first)).setCount (some n)).bounds.clean = nd.bounds.clean := by
        simp [Aabb.clean, BvhNode.setCount, BvhNode.setLeftFirst]
      rw [← hc]
      refine .leaf (by rw [List.getElem?_set_self hidx]) hl' (by omega) ?_ ?_ ?_ (rangeIds_writeAt_self (by omega)) ?_
      · intro i hi
        simp only [leafIds, List.mem_map] at hi
        obtain ⟨r, hr, rfl⟩ := hi
        exact ha'.1 r (List.mem_of_mem_take hr)
      · rw [hln]; simp [BvhNode.setCount]
      · simp [BvhNode.setCount, BvhNode.setLeftFirst]
      · rw [length_writeAt _ _ _ (by omega)]; omega
    · exact length_writeAt _ _ _ (by omega)
    · intro i hi; simp at hi; rw [List.getElem?_set_ne (by omega)]
    · intro q hq
      exact rangeIds_writeAt_disjoint (by omega) (by rw [hln]; exact hq (first, n) (by simp))
  | @alloc idx b d len n v nd srt r left hd h hl ha hn hdec =>
    simp only [List.mem_singleton, Prod.mk.injEq] at hmem
    obtain ⟨rfl, rfl⟩ := hmem
    simp only [Nat.sub_self, Nat.add_sub_cancel_left, RefView.slice_full hl]
    have hidx := hlt idx (by simp)
    have hl0 := hlt left (by simp)
    have hl1 := hlt (left + 1) (by simp)
    simp only [List.nodup_cons, List.mem_cons, List.not_mem_nil, or_false, not_or] at hnd
    rcases spatialDecide_ok hsort hN hl ha hn hdec with ⟨_, hh, _⟩ | ⟨r', hh, hr, hdep, hn1⟩
    · cases hh
    cases hh
    cases d with
    | zero => omega
    | succ d =>
      obtain ⟨happ, hlL, hlR⟩ := RefView.split_append hr.len (Nat.le_trans hr.mid hr.stop)
      have hx : r.view.x.length = len := hr.len.1
      have hTree : spatialTree ctx thr prims.length (d + 1) nd.bounds v b n srt =
          combine (nd.bounds.offsetBy (FloatOps.lit 1 (-4))).clean
          (spatialTree ctx thr prims.length d r.leftBox (r.view.slice 0 r.mid) b r.mid r.sorted)
          (spatialTree ctx thr prims.length d r.rightBox (r.view.slice r.mid len) (b + r.mid) (r.stop - r.mid) r.sorted) := by
        conv => lhs; unfold spatialTree
        rw [hdec]; simp only [hx]
      have hmd : ctx.maxDepth - (d + 1) + 1 = ctx.maxDepth - d := by omega
      have hms := hr.mid
      have hss := hr.stop
      right
      refine ⟨⟨((nodes.set idx { bounds := (((nd.setLeftFirst (some left)).setCount none).bounds).offsetBy (FloatOps.lit 1 (-4)) }).set
            left { bounds := r.leftBox }).set (left + 1) { bounds := r.rightBox }, counter, refCount, prims, r.view,
            [(⟨left, b, b + r.mid, b + r.mid, ctx.maxDepth - d, r.sorted⟩, .ready),
             (⟨left + 1, b + r.mid, b + r.stop, b + len, ctx.maxDepth - d, r.sorted⟩, .ready)]⟩,
        idx :: ([left] ++ [left + 1]), [] ++ [],
        [(⟨left, b, b + r.mid, b + r.mid, ctx.maxDepth - d, r.sorted⟩, .ready)] ++
          [(⟨left + 1, b + r.mid, b + r.mid + (r.stop - r.mid), b + r.mid + (len - r.mid), ctx.maxDepth - d, r.sorted⟩, .ready)],
        r.mid + (r.stop - r.mid),
        stepsOf (spatialTree ctx thr prims.length d r.leftBox (r.view.slice 0 r.mid) b r.mid r.sorted) +
          stepsOf (spatialTree ctx thr prims.length d r.rightBox (r.view.slice r.mid len) (b + r.mid) (r.stop - r.mid) r.sorted),
        ?_, ?_, ?_, ?_, by simp, rfl, ?_, fun _ _ => rfl, .inl ⟨rfl, by simp⟩, .inl ⟨rfl, by simp⟩, hr.len, by simp, by simp, by simp⟩
      · unfold spatialTaskStep
        simp only [h, Nat.add_sub_cancel_left, hdec, List.getElem?_eq_getElem hl0, List.getElem?_eq_getElem hl1, hmd]
      · simp only [RefView.write_full hl hr.len]
        rw [hTree]
        have hlen : len = r.mid + (len - r.mid) := by omega
        have hbd : (nd.bounds.offsetBy (FloatOps.lit 1 (-4))).clean =
            ((((nd.setLeftFirst (some left)).setCount none).bounds).offsetBy (FloatOps.lit 1 (-4))).clean := by
          simp [Aabb.clean, BvhNode.setCount, BvhNode.setLeftFirst, Aabb.offsetBy]
        rw [hbd]
        have key : ∀ L V, L = r.mid + (len - r.mid) → V = (r.view.slice 0 r.mid).append (r.view.slice r.mid len) →
            SDen ctx thr N
            (((nodes.set idx { bounds := (((nd.setLeftFirst (some left)).setCount none).bounds).offsetBy (FloatOps.lit 1 (-4)) }).set
            left { bounds := r.leftBox }).set (left + 1) { bounds := r.rightBox }) prims idx b (d + 1) L V
            (combine ((((nd.setLeftFirst (some left)).setCount none).bounds).offsetBy (FloatOps.lit 1 (-4))).clean
              (spatialTree ctx thr prims.length d r.leftBox (r.view.slice 0 r.mid) b r.mid r.sorted)
              (spatialTree ctx thr prims.length d r.rightBox (r.view.slice r.mid len) (b + r.mid) (r.stop - r.mid) r.sorted))
            (idx :: ([left] ++ [left + 1])) ([] ++ [])
            ([(⟨left, b, b + r.mid, b + r.mid, ctx.maxDepth - d, r.sorted⟩, .ready)] ++
              [(⟨left + 1, b + r.mid, b + r.mid + (r.stop - r.mid), b + r.mid + (len - r.mid), ctx.maxDepth - d, r.sorted⟩, .ready)])
            (r.mid + (r.stop - r.mid))
            (stepsOf (spatialTree ctx thr prims.length d r.leftBox (r.view.slice 0 r.mid) b r.mid r.sorted) +
              stepsOf (spatialTree ctx thr prims.length d r.rightBox (r.view.slice r.mid len) (b + r.mid) (r.stop - r.mid) r.sorted)) := ?_
        · exact key _ _ hlen happ.symm
        rintro L V rfl rfl
        refine .node (left := left) (lenL := r.mid) (lenR := len - r.mid) (wL := r.mid) (wR := r.stop - r.mid)
          (nd := { bounds := (((nd.setLeftFirst (some left)).setCount none).bounds).offsetBy (FloatOps.lit 1 (-4)) }) ?_ rfl rfl ?_ ?_
        · rw [List.getElem?_set_ne (by omega), List.getElem?_set_ne (by omega), List.getElem?_set_self hidx]
        · exact .ready (nd := { bounds := r.leftBox }) (by omega)
            (by rw [List.getElem?_set_ne (by omega), List.getElem?_set_self (by simpa using hl0)]) hlL (hr.all.slice _ _) (Nat.le_refl _)
        · exact .ready (nd := { bounds := r.rightBox }) (by omega)
            (by rw [List.getElem?_set_self (by simpa using hl1)]) hlR (hr.all.slice _ _) (by omega)
      · have e1 : b + r.mid + (r.stop - r.mid) = b + r.stop := by omega
        have e2 : b + r.mid + (len - r.mid) = b + len := by omega
        simp only [e1, e2, List.erase_cons_head]
        simp
      · intro T0 hT0
        rw [hTree] at hT0 ⊢
        obtain ⟨l, rr, e1, e2, rfl⟩ := combine_ok hT0
        rw [e1, e2]
        simp only [combine, stepsOf, IdTree.size]
        omega
      · intro i hi
        simp at hi
        simp only
        rw [List.getElem?_set_ne (by omega), List.getElem?_set_ne (by omega), List.getElem?_set_ne (by omega)]
  | leaf => simp at hmem
  | @node idx b d lenL lenR vL vR nd left L R fpL fpR rgL rgR tsL tsR wL wR rL rR h h1 h2 hL hR ihL ihR =>
    rw [List.nodup_cons] at hnd
    obtain ⟨hni, hnd⟩ := hnd
    rw [List.nodup_append] at hnd
    obtain ⟨hndL, hndR, hdisj⟩ := hnd
    simp only [List.mem_append, not_or] at hni
    rw [List.pairwise_append] at hdis
    obtain ⟨hdL, hdR, hdLR⟩ := hdis
    have sizeL : ∀ T0, combine nd.bounds.clean L R = .ok T0 → ∃ l r, L = .ok l ∧ R = .ok r ∧ T0.size = l.size + r.size + 1 := by
      intro T0 h
      obtain ⟨l, r, a, b, rfl⟩ := combine_ok h
      exact ⟨l, r, a, b, rfl⟩
    have sym : ∀ {p q : Nat × Nat}, Disjoint2 p q → Disjoint2 q p := fun h => h.symm
    by_cases hin : (t, ph) ∈ tsL
    · rcases ihL hndL (fun i hi => hlt i (by simp [hi])) hdL (fun q hq => hrg q (by simp [hq])) hin with
        ⟨f, e, hbad⟩ | ⟨e, fp', rg', ts', w', r', he, hD, hts, hrem, hlen, hplen, hout, hpout, hc, hrc, hv, hb1, hb2, hb3⟩
      · left
        have hbb : t.splitEnd - b ≤ lenL := by
          have := hL.task_bounds hin
          omega
        refine ⟨f, ?_, ?_⟩
        · rw [RefView.slice_append_left hL.viewLen hbb]; exact e
        · rcases hbad with hbad | ⟨hb1, hb2⟩
          · left; intro T0 hT0
            obtain ⟨l, r, hl, _, _⟩ := sizeL T0 hT0
            exact hbad l hl
          · right
            refine ⟨hb1, fun T0 hT0 => ?_⟩
            obtain ⟨l, r, hl, hr, hs⟩ := sizeL T0 hT0
            have := hb2 l hl
            have := hR.fp_le_size hr
            simp; omega
      · right
        have hvl := hL.viewLen
        have hbnd : t.begin - b + (t.splitEnd - t.begin) ≤ lenL := by omega
        refine ⟨e, idx :: (fp' ++ fpR), rg' ++ rgR, ts' ++ tsR, w' + wR, r' + rR, ?_, ?_, ?_, ?_, hlen, hplen, ?_, ?_, ?_, ?_, hv,
          hb1, hb2, by omega⟩
        · rw [RefView.slice_append_left hvl (by omega)]; exact he
        · rw [RefView.write_append_left hvl hv hbnd]
          refine .node (left := left) (by rw [hout _ hni.1]; exact h) h1 h2 hD ?_
          refine hR.frame (fun i hi => hout i (fun hi' => hdisj i hi' i hi rfl)) hplen ?_
          intro q hq
          exact hpout q fun p hp => sym (hdLR p hp q hq)
        · rw [List.erase_append_left _ hin]
          refine (hts.append_right tsR).trans ?_
          simp only [List.append_assoc]
          exact (List.perm_append_comm).append_left _
        · intro T0 hT0
          obtain ⟨l, r, hl, _, _⟩ := sizeL T0 hT0
          have := hrem l hl; omega
        · intro i hi
          simp only [List.mem_cons, List.mem_append, not_or] at hi
          exact hout i hi.2.1
        · intro q hq
          exact hpout q fun p hp => hq p (by simp [hp])
        · rcases hc with ⟨e1, hp⟩ | ⟨e1, hp, hr⟩
          · exact .inl ⟨e1, by simp only [List.perm_cons]; exact hp.append_right fpR⟩
          · refine .inr ⟨e1, ?_, hr⟩
            simp only [List.cons_append, List.perm_cons]
            refine (hp.append_right fpR).trans ?_
            simp only [List.append_assoc]
            exact (List.perm_append_comm).append_left fpL
        · rcases hrc with ⟨e1, hp⟩ | ⟨n, e1, hp⟩
          · exact .inl ⟨e1, hp.append_right rgR⟩
          · refine .inr ⟨n, e1, ?_⟩
            refine (hp.append_right rgR).trans ?_
            simp only [List.append_assoc]
            exact (List.perm_append_comm).append_left rgL
    · have hinR : (t, ph) ∈ tsR := by simpa [hin] using hmem
      rcases ihR hndR (fun i hi => hlt i (by simp [hi])) hdR (fun q hq => hrg q (by simp [hq])) hinR with
        ⟨f, e, hbad⟩ | ⟨e, fp', rg', ts', w', r', he, hD, hts, hrem, hlen, hplen, hout, hpout, hc, hrc, hv, hb1, hb2, hb3⟩
      · left
        have hbb := hR.task_bounds hinR
        have e1 : t.begin - b - lenL = t.begin - (b + lenL) := by omega
        have e2 : t.splitEnd - b - lenL = t.splitEnd - (b + lenL) := by omega
        refine ⟨f, ?_, ?_⟩
        · rw [RefView.slice_append_right hL.viewLen (by omega), e1, e2]; exact e
        · rcases hbad with hbad | ⟨hb1, hb2⟩
          · left; intro T0 hT0
            obtain ⟨l, r, _, hr, _⟩ := sizeL T0 hT0
            exact hbad r hr
          · right
            refine ⟨hb1, fun T0 hT0 => ?_⟩
            obtain ⟨l, r, hl, hr, hs⟩ := sizeL T0 hT0
            have := hb2 r hr
            have := hL.fp_le_size hl
            simp; omega
      · right
        have hvl := hL.viewLen
        have e1 : t.begin - b - lenL = t.begin - (b + lenL) := by omega
        have e2 : t.splitEnd - b - lenL = t.splitEnd - (b + lenL) := by omega
        refine ⟨e, idx :: (fpL ++ fp'), rgL ++ rg', tsL ++ ts', wL + w', rL + r', ?_, ?_, ?_, ?_, hlen, hplen, ?_, ?_, ?_, ?_, hv,
          by omega, hb2, by omega⟩
        · rw [RefView.slice_append_right hvl (by omega), e1, e2]; exact he
        · rw [RefView.write_append_right hvl (by omega), e1]
          refine .node (left := left) (by rw [hout _ hni.2]; exact h) h1 h2 ?_ hD
          refine hL.frame (fun i hi => hout i (fun hi' => hdisj i hi i hi' rfl)) hplen ?_
          intro q hq
          exact hpout q fun p hp => hdLR q hq p hp
        · rw [List.erase_append_right _ hin, List.append_assoc]
          exact hts.append_left tsL
        · intro T0 hT0
          obtain ⟨l, r, _, hr, _⟩ := sizeL T0 hT0
          have := hrem r hr; omega
        · intro i hi
          simp only [List.mem_cons, List.mem_append, not_or] at hi
          exact hout i hi.2.2
        · intro q hq
          exact hpout q fun p hp => hq p (by simp [hp])
        · rcases hc with ⟨e1, hp⟩ | ⟨e1, hp, hr⟩
          · exact .inl ⟨e1, by simp only [List.perm_cons]; exact hp.append_left fpL⟩
          · refine .inr ⟨e1, ?_, hr⟩
            simp only [List.cons_append, List.perm_cons, List.append_assoc]
            exact hp.append_left fpL
        · rcases hrc with ⟨e1, hp⟩ | ⟨n, e1, hp⟩
          · exact .inl ⟨e1, hp.append_left rgL⟩
          · refine .inr ⟨n, e1, ?_⟩
            simp only [List.append_assoc]
            exact hp.append_left rgL

end Rtbvh
