import Verif.Spec.Lanes
import Verif.Props.Pruning
import Verif.Props.NaN
/- Property C107: what a packet is offered because of one lane does not depend on the other lanes. -/
namespace Rtbvh
open FloatOps LawfulFloat
variable {F : Type} [FloatOps F]

theorem mask4_only (a : Aabb F) (p : RayPacket4 F) (i j : Fin 4) : a.mask4 (p.only i) j = a.mask4 p i := by
  simp only [Aabb.mask4, Aabb.lane4, RayPacket4.only, Vec4.get_splat]

theorem quadTest4_only (a : Aabb F) (p : RayPacket4 F) (i j : Fin 4) : quadTest4 a (p.only i) j = quadTest4 a p i := by
  simp only [quadTest4, quadLane4, RayPacket4.only, Vec4.get_splat]

theorem only_hasNaN {p : RayPacket4 F} (h : p.hasNaN = false) (i : Fin 4) : (p.only i).hasNaN = false := by
  cases e : (p.only i).hasNaN
  · rfl
  · rw [RayPacket4.hasNaN_iff] at e
    have : p.SomeNaN := by
      obtain ⟨v, hv, k, hk⟩ := e
      simp only [RayPacket4.only, List.mem_cons, List.not_mem_nil, or_false] at hv
      rcases hv with rfl | rfl | rfl | rfl | rfl | rfl <;> rw [Vec4.get_splat] at hk <;>
        exact ⟨_, by simp only [List.mem_cons, List.not_mem_nil, or_false, true_or, or_true], i, hk⟩
    rw [← RayPacket4.hasNaN_iff, h] at this
    cases this

/-- C107, four-wide structures.  A loop that leaves the packet alone is offered, in the same order, everything that it is
offered for the packet of four copies of one lane: whatever the other lanes hold, NaN included, and whatever the boxes. -/
theorem C107_mbvh_lanes (q : Mbvh F) (Q : QTree F) (h : q.Denotes Q) (hd : Q.stackNeed ≤ 32) (pk : RayPacket4 F)
    (i : Fin 4) (fuel : Nat) (hf : Q.rounds ≤ fuel) :
    (q.forIndicesPacket looksOnly fuel (pk.only i)).items.Sublist (q.forIndicesPacket looksOnly fuel pk).items := by
  have e : ∀ (b : Vec4 (Aabb F)) (r : RayPacket4 F) (s : Fin 4), (quadHit4 b r).result.get s =
      (Vec4.ofFn (quadTest4 (b.get s) r)).any := fun b r s => Vec4.get_map _ _ _
  -- whatever passes for the copies passes for the packet
  let R : RayPacket4 F → RayPacket4 F → Prop := fun r r' =>
    ∀ (b : Vec4 (Aabb F)) (s : Fin 4), (quadHit4 b r').result.get s = true → (quadHit4 b r).result.get s = true
  have hR : R pk (pk.only i) := fun b s hh => by
    rw [e] at hh ⊢
    obtain ⟨j, hj⟩ := (Vec4.any_iff _).1 hh
    rw [Vec4.get_ofFn, quadTest4_only] at hj
    exact (Vec4.any_iff _).2 ⟨i, by rw [Vec4.get_ofFn]; exact hj⟩
  rw [(C28_traversal_refines q Q h hd fuel hf).2, (C28_traversal_refines q Q h hd fuel hf).2]
  have hst : Q.visit _ quadHit4 (fun r _ => (r, false)) pk = _ :=
    Still.qvisit (items := BTree.rangeIds q.primIndices) (hit := quadHit4) pk Q
  show List.Sublist _ (Q.visit _ quadHit4 (fun r _ => (r, false)) pk).items
  rw [hst]
  exact (Thin.qvisit (R := R) (cb := looksOnly) (fun _ _ _ h1 h2 b s hh => h1 b s (h2 b s hh)) (fun _ _ _ _ hh => hh)
    (fun _ _ _ _ => rfl) (fun b _ _ s hr hh => hr b s hh) pk Q (pk.only i) hR).1

/-- C107, `Bvh`.  For a packet without NaN: every id is offered to the packet at least as often as to the packet of four
copies of one lane, whatever the boxes. -/
theorem C107_lanes (b : Bvh F) (T : BTree F) (h : b.Denotes T) (hd : T.depth ≤ 31) (pk : RayPacket4 F)
    (hn : pk.hasNaN = false) (i : Fin 4) (fuel : Nat) (hf : T.rounds < fuel) (id : Nat) :
    (b.forIndicesPacket looksOnly fuel (pk.only i)).items.count id ≤ (b.forIndicesPacket looksOnly fuel pk).items.count id := by
  rw [C23_packet_traversal_refines b T h hd pk hn _ fuel hf,
    C23_packet_traversal_refines b T h hd _ (only_hasNaN hn i) _ fuel hf]
  refine Nat.le_trans (visit_count_le (Inv := fun r => r = pk.only i) (fun _ _ h => h)
    (pass := fun a => a.mask4 pk i) (fun a r hr hh => ?_) id T _ rfl)
    (visit_count_ge (Inv := fun r => r = pk) (fun _ _ h => h) (fun a r hr hh => ?_) id T pk rfl
      (visit_finished (fun _ _ => rfl) T pk))
  · subst hr
    obtain ⟨j, hj⟩ := (intersect4_isSome _ _).1 hh
    rwa [mask4_only] at hj
  · subst hr
    exact (intersect4_isSome _ _).2 ⟨i, hh⟩

/-- C107: a loop over a four-wide structure that lowers `t` as it goes and never breaks sees, in the same order, every id
that one lane by itself is offered at the distance the loop ended with. -/
theorem C107_mbvh_lowering [LawfulFloat F] (q : Mbvh F) (Q : QTree F) (h : q.Denotes Q) (hd : Q.stackNeed ≤ 32)
    (pk : RayPacket4 F) (cb : RayPacket4 F → Nat → RayPacket4 F × Bool) (hcb : LowersPacket cb) (hs : NeverBreaks cb)
    (i : Fin 4) (fuel : Nat) (hf : Q.rounds ≤ fuel) :
    let run := q.forIndicesPacket cb fuel pk
    (q.forIndicesPacket looksOnly fuel (run.ray.only i)).items.Sublist run.items :=
  (C107_mbvh_lanes q Q h hd _ i fuel hf).trans ((C102_mbvh_packet_pruning q Q h hd pk cb hcb fuel hf).2.2 hs).2

/-- C107: the same for `Bvh` and a packet without NaN. -/
theorem C107_lowering [LawfulFloat F] (b : Bvh F) (T : BTree F) (h : b.Denotes T) (hd : T.depth ≤ 31)
    (pk : RayPacket4 F) (hn : pk.hasNaN = false) (cb : RayPacket4 F → Nat → RayPacket4 F × Bool) (hcb : LowersPacket cb)
    (hs : NeverBreaks cb) (i : Fin 4) (fuel : Nat) (hf : T.rounds < fuel) (id : Nat) :
    let run := b.forIndicesPacket cb fuel pk
    (b.forIndicesPacket looksOnly fuel (run.ray.only i)).items.count id ≤ run.items.count id := by
  intro run
  have hp := C102_packet_pruning b T h hd pk hn cb hcb fuel hf
  have hn' : run.ray.hasNaN = false := by
    obtain ⟨⟨t, e⟩, _⟩ := hp.1
    rw [e]; exact hn
  exact Nat.le_trans (C107_lanes b T h hd _ hn' i fuel hf id) ((hp.2.2 hs).2.count_le id)

/-- C107, the condition on `Bvh` is needed: with NaN in the first lane the packet is offered nothing, although each of the
other three lanes by itself is offered both primitives; the four-wide structure made from the same `Bvh` offers both. -/
theorem C107_nan_lane_silences :
    (twoBvh.forIndicesPacket looksOnly 100 nanPacket).items = [] ∧
    (∀ i : Fin 4, i ≠ 0 → (twoBvh.forIndicesPacket looksOnly 100 (nanPacket.only i)).items = [1, 0]) ∧
    ∃ q, Mbvh.construct 65 twoBvh = some q ∧ (q.forIndicesPacket looksOnly 100 nanPacket).items.Perm [0, 1] := by
  refine ⟨by decide +kernel, by decide +kernel, ?_⟩
  have h : ((Mbvh.construct 65 twoBvh).map fun q => decide ((q.forIndicesPacket looksOnly 100 nanPacket).items.Perm [0, 1])) =
      some true := by decide +kernel
  rw [Option.map_eq_some_iff] at h
  obtain ⟨q, e, h⟩ := h
  exact ⟨q, e, of_decide_eq_true h⟩

/-- A packet whose lane 0 runs through both boxes from the front and whose other lanes run back through them. -/
def crossPacket : RayPacket4 F32 :=
  RayPacket4.new
    (fun i => if i = 0 then ⟨lit (-1) 0, lit 2 (-1), lit 3 (-1), lit 0 0⟩ else ⟨lit 4 0, lit 2 (-1), lit 3 (-1), lit 0 0⟩)
    (fun i => if i = 0 then ⟨lit 1 0, lit 1 (-2), lit 1 (-2), lit 0 0⟩ else ⟨lit (-1) 0, lit 1 (-2), lit 1 (-2), lit 0 0⟩)

/-- C107: over a `Bvh` the order is not kept.  Lane 1 by itself is offered 0 before 1, the packet 1 before 0. -/
theorem C107_order_can_change : crossPacket.hasNaN = false ∧
    (twoBvh.forIndicesPacket looksOnly 100 (crossPacket.only 0)).items = [1, 0] ∧
    (twoBvh.forIndicesPacket looksOnly 100 (crossPacket.only 1)).items = [0, 1] ∧
    (twoBvh.forIndicesPacket looksOnly 100 crossPacket).items = [1, 0] :=
  ⟨by decide +kernel, by decide +kernel, by decide +kernel, by decide +kernel⟩

/-- Non-vacuity: a packet without NaN over a structure of two leaves; one of its lanes is offered both primitives. -/
example : twoBvh.Denotes twoTree ∧ twoTree.depth ≤ 31 ∧ twoTree.rounds < 100 ∧ twoPacket.hasNaN = false ∧
    (twoBvh.forIndicesPacket looksOnly 100 (twoPacket.only 2)).items = [1, 0] :=
  ⟨twoBvh_denotes, by decide, by decide, by decide +kernel, by decide +kernel⟩

end Rtbvh
