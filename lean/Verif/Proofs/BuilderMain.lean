import Verif.Spec.Build
import Verif.Proofs.BinnedMain
import Verif.Proofs.UnfoldsDet
namespace Rtbvh
variable {F : Type}

theorem collectAabbs_length {prims : List (Prim F)} {order : List Nat} (h : order.Perm (List.range prims.length)) :
    (collectAabbs order prims).length = prims.length := by
  unfold collectAabbs
  rw [(h.filterMap _).length_eq]
  rw [List.length_filterMap_eq_countP]
  rw [List.countP_eq_length.2]
  · simp
  · intro a ha; simp at ha; simp [ha]

theorem Builder.boxes_length {b : Builder F} {order : List Nat} (h : b.Legal order) :
    (b.boxes order).length = b.primitives.length := by
  unfold Builder.boxes
  cases e : b.aabbs with
  | none => simpa using collectAabbs_length h.order
  | some l => simpa using h.boxes l e

theorem Builder.check_legal {b : Builder F} {order : List Nat} (h : b.Legal order) :
    b.check order = .ok (b.boxes order) := by
  unfold Builder.check Builder.boxes
  rw [if_neg h.nonempty]
  cases e : b.aabbs with
  | none => rfl
  | some l => simp [h.boxes l e]

variable [FloatOps F]

theorem Builder.setting {b : Builder F} {order : List Nat} (h : b.Legal order) :
    BinnedSetting (b.ctx order) b.primitives.length :=
  ⟨List.length_pos_iff.2 h.nonempty, by simp [Builder.ctx, BinnedCtx.new, Builder.boxes_length h],
   by simp [Builder.ctx, BinnedCtx.new]⟩

theorem Builder.construct_eq {b : Builder F} {order : List Nat} (h : b.Legal order) (ks : List Nat) :
    b.constructBinnedSah order ks = .ok (binnedBuild (b.ctx order) ks) := by
  unfold Builder.constructBinnedSah
  rw [Builder.check_legal h]; rfl

/-- Everything about a legal binned build at once. -/
theorem builder_main {b : Builder F} {order : List Nat} (h : b.Legal order) :
    ∃ T P, buildTree (b.ctx order) 64 (Aabb.unionOfList (b.boxes order)) (List.range b.primitives.length) 0 = some (T, P) ∧
      TreeOf T (List.range b.primitives.length) P 0 64 ∧ ∀ ks, ∃ s,
      binnedExec (b.ctx order) ks (binnedInit (b.ctx order)) = some s ∧
      (b.Schedule order ks → ks.length ≤ T.steps ∧ (s.pending = [] ↔ ks.length = T.steps)) ∧
      (s.pending = [] → b.constructBinnedSah order ks = .ok (some (some (binnedFinish s))) ∧
          (binnedFinish s).primIndices = P ∧ Unfolds (binnedFinish s).nodes 0 T ∧
          (binnedFinish s).nodes.length = T.size) ∧
      (s.pending ≠ [] → b.constructBinnedSah order ks = .ok (some none)) := by
  obtain ⟨T, P, e, hT, H⟩ := binned_main (Builder.setting h) h.small
  refine ⟨T, P, e, hT, fun ks => ?_⟩
  obtain ⟨s, h1, h2, h3, h4⟩ := H ks
  refine ⟨s, h1, h2, fun hp => ?_, fun hp => ?_⟩
  · obtain ⟨a, b', c⟩ := h3 hp
    exact ⟨by rw [Builder.construct_eq h, a], b', c⟩
  · rw [Builder.construct_eq h, h4 hp]

theorem Den.tasks_depth {ctx : BinnedCtx F} {nodes : List (BvhNode F)} {idx b d : Nat} {sl P fp : List Nat}
    {T : BTree F} {ts : List (BinnedTask × TaskPhase)} {r : Nat} (h : Den ctx nodes idx b d sl T P fp ts r) :
    ∀ t ∈ ts, t.1.depth ≤ ctx.maxDepth := by
  induction h with
  | ready => simp
  | alloc => simp
  | leaf => simp
  | node _ _ _ _ _ ihL ihR =>
    intro t ht
    rcases List.mem_append.1 ht with h | h
    · exact ihL t h
    · exact ihR t h

theorem builder_tasks_depth {b : Builder F} {order : List Nat} (h : b.Legal order) (ks : List Nat) :
    ∃ s, binnedExec (b.ctx order) ks (binnedInit (b.ctx order)) = some s ∧ ∀ t ∈ s.pending, t.1.depth ≤ 64 := by
  obtain ⟨T, P, e, hT, hI⟩ := binnedInit_inv (Builder.setting h) (Nat.le_trans h.small (by decide))
  obtain ⟨s, r, e', hI', _⟩ := hI.exec ks
  refine ⟨s, e', ?_⟩
  obtain ⟨fp, ts, hD, _, _, _, hts⟩ := hI'.ex
  intro t ht
  exact hD.tasks_depth t (hts.mem_iff.2 ht)

end Rtbvh
