import Verif.Spec.FfiQuery
import Verif.Props.Ffi
import Verif.Props.BuildQuery
/- Lemmas for the end-to-end property of the C interface (C80). -/
namespace Rtbvh
open FloatOps Aabb
variable {F : Type}

/-! ### Fuel of `Mbvh::construct` -/

theorem mergeSlot_mono {pool : List (BvhNode F)} {r r' : Nat → Nat → MPool F → Option (MPool F)}
    (h : ∀ i c s x, r i c s = some x → r' i c s = some x) {mi : Nat} {i : Fin 4} {e : Int × Int} {s x : MPool F}
    (hs : mergeSlot pool r mi i e s = some x) : mergeSlot pool r' mi i e s = some x := by
  unfold mergeSlot at hs ⊢
  by_cases h1 : e.1 ≥ 0 ∧ e.2 ≥ 0
  · rw [if_pos h1] at hs ⊢; exact hs
  rw [if_neg h1] at hs ⊢
  by_cases h2 : e.1 = -1
  · rw [if_pos h2] at hs ⊢; exact hs
  rw [if_neg h2] at hs ⊢
  cases h3 : atI32 pool e.1 with
  | none => rw [h3] at hs; cases hs
  | some nd =>
    rw [h3] at hs
    simp only at hs ⊢
    cases h4 : nd.isLeaf with
    | true => rw [h4] at hs; exact hs
    | false =>
      rw [h4] at hs
      simp only [Bool.false_eq_true, if_false] at hs ⊢
      obtain ⟨ms, e1, e2⟩ := Option.bind_eq_some_iff.1 hs
      exact Option.bind_eq_some_iff.2 ⟨ms, e1, h _ _ _ _ e2⟩

theorem bind_mono {α β : Type} {o o' : Option α} {f f' : α → Option β} {y : β}
    (ho : ∀ x, o = some x → o' = some x) (hf : ∀ x y, f x = some y → f' x = some y) (h : o.bind f = some y) :
    o'.bind f' = some y := by
  obtain ⟨x, e1, e2⟩ := Option.bind_eq_some_iff.1 h
  exact Option.bind_eq_some_iff.2 ⟨x, ho _ e1, hf _ _ e2⟩

theorem mergeNodes_mono [FloatOps F] (pool : List (BvhNode F)) (fuel : Nat) :
    ∀ mi cur s x, mergeNodes pool fuel mi cur s = some x → mergeNodes pool (fuel + 1) mi cur s = some x := by
  induction fuel with
  | zero => intro mi cur s x h; cases h
  | succ n ih =>
    intro mi cur s x h
    rw [mergeNodes] at h ⊢
    cases h1 : pool[cur]? with
    | none => rw [h1] at h; cases h
    | some nd =>
      cases h2 : s.1[mi]? with
      | none => rw [h1, h2] at h; cases h
      | some m =>
        rw [h1, h2] at h
        simp only at h ⊢
        have key : ∀ (m' : MbvhNode F) (e0 e1 e2 e3 : Int × Int) (x : MPool F),
            ((((mergeSlot pool (mergeNodes pool n) mi 0 e0 (s.1.set mi m', s.2)).bind
              (mergeSlot pool (mergeNodes pool n) mi 1 e1)).bind
              (mergeSlot pool (mergeNodes pool n) mi 2 e2)).bind
              (mergeSlot pool (mergeNodes pool n) mi 3 e3)) = some x →
            ((((mergeSlot pool (mergeNodes pool (n + 1)) mi 0 e0 (s.1.set mi m', s.2)).bind
              (mergeSlot pool (mergeNodes pool (n + 1)) mi 1 e1)).bind
              (mergeSlot pool (mergeNodes pool (n + 1)) mi 2 e2)).bind
              (mergeSlot pool (mergeNodes pool (n + 1)) mi 3 e3)) = some x := by
          intro m' e0 e1 e2 e3 x h
          refine bind_mono (fun _ h1 => bind_mono (fun _ h2 => bind_mono (fun _ h3 => mergeSlot_mono ih h3) ?_ h2) ?_ h1)
            ?_ h
          all_goals exact fun _ _ h => mergeSlot_mono ih h
        cases hl : nd.getLeftFirst with
        | none =>
          rw [hl] at h
          exact key _ _ _ _ _ _ h
        | some lf =>
          rw [hl] at h
          simp only at h ⊢
          cases g1 : gatherChild pool lf 0 1 ((((m.setBoundsBB 0 nd.bounds).setBoundsBB 1 nd.bounds).setBoundsBB 2
              nd.bounds).setBoundsBB 3 nd.bounds) with
          | none => rw [g1] at h; cases h
          | some g =>
            obtain ⟨m1, e0, e1⟩ := g
            rw [g1] at h
            simp only at h ⊢
            cases g2 : gatherChild pool (lf + 1) 2 3 m1 with
            | none => rw [g2] at h; cases h
            | some g =>
              obtain ⟨m2, e2, e3⟩ := g
              rw [g2] at h
              exact key _ _ _ _ _ _ h

theorem construct_mono [FloatOps F] (b : Bvh F) {fuel fuel' : Nat} (hle : fuel ≤ fuel') {q : Mbvh F}
    (h : Mbvh.construct fuel b = some q) : Mbvh.construct fuel' b = some q := by
  induction hle with
  | refl => exact h
  | step _ ih =>
    unfold Mbvh.construct at ih ⊢
    by_cases h1 : b.nodes.isEmpty = true
    · rw [if_pos h1] at ih ⊢; exact ih
    · rw [if_neg h1] at ih ⊢
      obtain ⟨s, e1, e2⟩ := Option.map_eq_some_iff.1 ih
      exact Option.map_eq_some_iff.2 ⟨s, mergeNodes_mono _ _ _ _ _ _ e1, e2⟩

/-! ### Histories -/

theorem History.append [FloatOps F] {m m' m'' : Manager F} {es es' : List (Event F)} (h : History m es m')
    (h' : History m' es' m'') : History m (es ++ es') m'' := by
  induction h with
  | nil => exact h'
  | cons c _ ih => exact .cons c (ih h')

theorem bvhHandles_append (es es' : List (Event F)) : bvhHandles (es ++ es') = bvhHandles es ++ bvhHandles es' := by
  simp [bvhHandles, List.filterMap_append]
theorem mbvhHandles_append (es es' : List (Event F)) : mbvhHandles (es ++ es') = mbvhHandles es ++ mbvhHandles es' := by
  simp [mbvhHandles, List.filterMap_append]

/-! ### The loops of the C interface with user data -/

section
variable [FloatOps F] [LawfulFloat F] {D : Type}
open LawfulFloat

theorem ffi_packet_complete (b : Bvh F) (T : BTree F) (h : b.Denotes T) (hd : T.depth ≤ 31)
    (ox oy oz dx dy dz t : Vec4 F)
    (hn : (ox.isNaN || oy.isNaN || oz.isNaN || dx.isNaN || dy.isNaN || dz.isNaN) = false) (d : D)
    (cb : Nat → Vec4 F → D → Vec4 F × D × Bool) (hcb : LowersT4 cb) (fuel : Nat) (hf : T.rounds < fuel) :
    let out := ffiIntersectPacket b.nodes b.primIndices ox oy oz dx dy dz t d cb fuel
    let pk := packetOf ox oy oz dx dy dz t
    out.code = .ok ∧ out.ending = .finished ∧ (∀ p, out.calls.count p ≤ (T.ids b.indices).count p) ∧
    ∀ p ∈ T.ids b.indices, ∀ box : Aabb F, box.Valid → ∀ i, box.NoNaN (pk.originOf i) (pk.invOf i) →
      (T.Forall b.indices fun a ids => p ∈ ids → box.Within a ∧ a.NoNaN (pk.originOf i) (pk.invOf i)) →
      box.mask4 { pk with t := out.t } i = true → p ∈ out.calls := by
  intro out pk
  have hout : out = _ := C47_packet_refines b T h hd fuel hf ox oy oz dx dy dz t hn d cb
  generalize hv : T.visit (BTree.rangeIds b.indices) (fun (a : Aabb F) (s : RayPacket4 F × D) => a.intersect4 s.1)
    closerPacket (packetBody cb) (packetOf ox oy oz dx dy dz t, d) = v at hout
  have hbody : ∀ (r : RayPacket4 F × D) (x : Nat), r.1.Lowered (packetBody cb r x).1.1 := fun r x =>
    ⟨⟨_, rfl⟩, fun i => (hcb x r.1.t r.2).2 i⟩
  have hstop : ∀ (r : RayPacket4 F × D) (x : Nat), (packetBody cb r x).2 = false := fun r x => (hcb x r.1.t r.2).1
  have hfin : v.ending = .finished := by
    rw [← hv]; exact visit_finished hstop T _
  have hlow : pk.Lowered v.ray.1 := by
    rw [← hv]
    exact visit_rel (R := fun a b : RayPacket4 F × D => a.1.Lowered b.1) (fun _ => RayPacket4.Lowered.refl _)
      (fun h h' => h.trans h') hbody T _
  rw [hout]
  refine ⟨rfl, hfin, fun p => ?_, fun p hp box hva i hpN hb hhit => ?_⟩
  · rw [← hv]
    exact Nat.le_trans (visit_count_le (Inv := fun _ => True) (fun _ _ _ => trivial) (pass := fun _ => true)
      (fun _ _ _ _ => rfl) p T _ trivial) (reach_count_le_ids _ _ _ _)
  · have hr : v.ray.1 = { pk with t := v.ray.1.t } := by
      obtain ⟨⟨t', e⟩, _⟩ := hlow
      rw [e]
    simp only at hhit
    rw [← hr] at hhit
    have hge := visit_count_ge_final (closer := closerPacket) (idx := b.indices) (cb := packetBody cb)
      (R := fun a b : RayPacket4 F × D => a.1.Lowered b.1) (fun _ => RayPacket4.Lowered.refl _)
      (fun h h' => h.trans h') hbody (pass := fun a => a.mask4 v.ray.1 i) (fin := v.ray)
      (hit := fun (a : Aabb F) (s : RayPacket4 F × D) => a.intersect4 s.1)
      (by
        rintro a ⟨r, d'⟩ hr hpass
        simp only at hr hpass ⊢
        obtain ⟨⟨t, e⟩, hle⟩ := hr
        have hm : a.mask4 r i = true := by
          rw [e] at hpass
          unfold Aabb.mask4 at hpass ⊢
          simp only [Bool.and_eq_true] at hpass ⊢
          refine ⟨hpass.1, ?_⟩
          have hle := hle i
          rw [e] at hle
          rcases hle with e | e
          · rw [← e]; exact hpass.2
          · exact lt_of_lt_of_le' hpass.2 e
        unfold Aabb.intersect4
        rw [if_pos ((Vec4.any_iff _).2 ⟨i, by rw [Vec4.get_ofFn]; exact hm⟩)]
        rfl) p T (pk, d) (by rw [hv]; exact hfin) (by rw [hv]; exact RayPacket4.Lowered.refl _)
    rw [hv] at hge
    have hmem : p ∈ T.reach b.indices (fun a => a.mask4 v.ray.1 i) := by
      refine mem_reach_one T (hb.mono fun a ids h hq => ?_) hp
      rw [hr] at hhit ⊢
      exact (C36_packet_monotone (p := { pk with t := v.ray.1.t }) (h hq).1 hva i hpN (h hq).2 hhit).1
    exact List.count_pos_iff.1 (Nat.lt_of_lt_of_le (List.count_pos_iff.2 hmem) hge)

theorem ffi_mbvh_complete (q : Mbvh F) (Q : QTree F) (h : q.Denotes Q) (hd : Q.stackNeed ≤ 32)
    (o r : Vec3 F) (hn : (o.isNaN || r.isNaN) = false) (t : F) (d : D)
    (cb : Nat → F → D → F × D × Bool) (hcb : LowersT cb) (fuel : Nat) (hf : Q.rounds ≤ fuel) :
    let out := ffiIntersectMbvh q.mNodes q.primIndices o r t d cb fuel
    let ray : Ray F := { Ray.new o r with t := t }
    out.code = .ok ∧ out.ending = .finished ∧ (∀ p, out.calls.count p ≤ (Q.ids q.primIndices).count p) ∧
    ∀ p ∈ Q.ids q.primIndices, ∀ box : Aabb F, box.Valid → box.NoNaN ray.origin ray.invDirection →
      (Q.Forall q.primIndices fun a ids => p ∈ ids → box.Within a ∧ a.NoNaN ray.origin ray.invDirection) →
      quadTest box { ray with t := out.t } = true → p ∈ out.calls := by
  intro out ray
  have hout : out = _ := (C47_mbvh_refines q Q h hd fuel hf d).1 o r hn t cb
  generalize hv : Q.visit (BTree.rangeIds q.primIndices) (fun b (s : Ray F × D) => quadHit b s.1) (rayBody cb)
    ({ Ray.new o r with t := t }, d) = v at hout
  have hbody : ∀ (r : Ray F × D) (x : Nat), r.1.Lowered (rayBody cb r x).1.1 := fun r x =>
    ⟨⟨_, rfl⟩, (hcb x r.1.t r.2).2⟩
  have hstop : ∀ (r : Ray F × D) (x : Nat), (rayBody cb r x).2 = false := fun r x => (hcb x r.1.t r.2).1
  have hfin : v.ending = .finished := by
    rw [← hv]; exact Q.visit_finished hstop _
  have hlow : ray.Lowered v.ray.1 := by
    rw [← hv]
    exact Q.visit_rel (R := fun a b : Ray F × D => a.1.Lowered b.1) (fun _ => Ray.Lowered.refl _)
      (fun h h' => h.trans h') hbody _
  rw [hout]
  refine ⟨rfl, hfin, fun p => ?_, fun p hp box hva hpN hb hhit => ?_⟩
  · rw [← hv]
    refine Nat.le_trans (Q.visit_count_le (Inv := fun _ => True) (fun _ _ _ => trivial) (pass := fun _ => true)
      (hit := fun b (s : Ray F × D) => quadHit b s.1) (cb := rayBody cb) (fun b s => quadHit_perm b s.1)
      (fun _ _ _ _ _ => rfl) p _ trivial) ?_
    rw [Q.root_reach h.unfolds.root_isQuad]
    exact Q.reach_count_le_ids _ _ _
  · have hr : v.ray.1 = { ray with t := v.ray.1.t } := by
      obtain ⟨⟨t', e⟩, _⟩ := hlow
      rw [e]
    simp only at hhit
    rw [← hr] at hhit
    have hge := Q.visit_count_ge_final (idx := q.primIndices) (cb := rayBody cb)
      (R := fun a b : Ray F × D => a.1.Lowered b.1) (fun _ => Ray.Lowered.refl _)
      (fun h h' => h.trans h') hbody (pass := fun a => quadTest a v.ray.1) (fin := v.ray)
      (hit := fun b (s : Ray F × D) => quadHit b s.1) (fun b s => quadHit_perm b s.1)
      (by
        intro bs r s hr hpass
        show (bs.map fun b => quadTest b r.1).get s = true
        rw [Vec4.get_map]
        exact quadTest_lowered hr hpass) p (ray, d) (by rw [hv]; exact hfin) (by rw [hv]; exact Ray.Lowered.refl _)
    rw [Q.root_reach h.unfolds.root_isQuad, hv] at hge
    have hmem : p ∈ Q.reach q.primIndices (fun a => quadTest a v.ray.1) := by
      refine Q.mem_reach_one (hb.mono fun a ids h hq => ?_) hp
      rw [hr] at hhit ⊢
      exact (C36_quad_monotone (h hq).1 hva).1 _ hpN (h hq).2 hhit
    exact List.count_pos_iff.1 (Nat.lt_of_lt_of_le (List.count_pos_iff.2 hmem) hge)

theorem ffi_mbvh_packet_complete (q : Mbvh F) (Q : QTree F) (h : q.Denotes Q) (hd : Q.stackNeed ≤ 32)
    (ox oy oz dx dy dz t : Vec4 F)
    (hn : (ox.isNaN || oy.isNaN || oz.isNaN || dx.isNaN || dy.isNaN || dz.isNaN) = false) (d : D)
    (cb : Nat → Vec4 F → D → Vec4 F × D × Bool) (hcb : LowersT4 cb) (fuel : Nat) (hf : Q.rounds ≤ fuel) :
    let out := ffiIntersectMbvhPacket q.mNodes q.primIndices ox oy oz dx dy dz t d cb fuel
    let pk := packetOf ox oy oz dx dy dz t
    out.code = .ok ∧ out.ending = .finished ∧ (∀ p, out.calls.count p ≤ (Q.ids q.primIndices).count p) ∧
    ∀ i, ∀ p ∈ Q.ids q.primIndices, ∀ box : Aabb F, box.Valid → box.NoNaN (pk.originOf i) (pk.invOf i) →
      (Q.Forall q.primIndices fun a ids => p ∈ ids → box.Within a ∧ a.NoNaN (pk.originOf i) (pk.invOf i)) →
      quadTest4 box { pk with t := out.t } i = true → p ∈ out.calls := by
  intro out pk
  have hout : out = _ := (C47_mbvh_refines q Q h hd fuel hf d).2 ox oy oz dx dy dz t hn cb
  generalize hv : Q.visit (BTree.rangeIds q.primIndices) (fun b (s : RayPacket4 F × D) => quadHit4 b s.1) (packetBody cb)
    (packetOf ox oy oz dx dy dz t, d) = v at hout
  have hbody : ∀ (r : RayPacket4 F × D) (x : Nat), r.1.Lowered (packetBody cb r x).1.1 := fun r x =>
    ⟨⟨_, rfl⟩, fun i => (hcb x r.1.t r.2).2 i⟩
  have hstop : ∀ (r : RayPacket4 F × D) (x : Nat), (packetBody cb r x).2 = false := fun r x => (hcb x r.1.t r.2).1
  have hfin : v.ending = .finished := by
    rw [← hv]; exact Q.visit_finished hstop _
  have hlow : pk.Lowered v.ray.1 := by
    rw [← hv]
    exact Q.visit_rel (R := fun a b : RayPacket4 F × D => a.1.Lowered b.1) (fun _ => RayPacket4.Lowered.refl _)
      (fun h h' => h.trans h') hbody _
  rw [hout]
  refine ⟨rfl, hfin, fun p => ?_, fun i p hp box hva hpN hb hhit => ?_⟩
  · rw [← hv]
    refine Nat.le_trans (Q.visit_count_le (Inv := fun _ => True) (fun _ _ _ => trivial) (pass := fun _ => true)
      (hit := fun b (s : RayPacket4 F × D) => quadHit4 b s.1) (cb := packetBody cb) (fun b s => quadHit4_perm b s.1)
      (fun _ _ _ _ _ => rfl) p _ trivial) ?_
    rw [Q.root_reach h.unfolds.root_isQuad]
    exact Q.reach_count_le_ids _ _ _
  · have hr : v.ray.1 = { pk with t := v.ray.1.t } := by
      obtain ⟨⟨t', e⟩, _⟩ := hlow
      rw [e]
    simp only at hhit
    rw [← hr] at hhit
    have hge := Q.visit_count_ge_final (idx := q.primIndices) (cb := packetBody cb)
      (R := fun a b : RayPacket4 F × D => a.1.Lowered b.1) (fun _ => RayPacket4.Lowered.refl _)
      (fun h h' => h.trans h') hbody (pass := fun a => quadTest4 a v.ray.1 i) (fin := v.ray)
      (hit := fun b (s : RayPacket4 F × D) => quadHit4 b s.1) (fun b s => quadHit4_perm b s.1)
      (by
        intro bs r s hr hpass
        show (bs.map fun b => (Vec4.ofFn (quadTest4 b r.1)).any).get s = true
        rw [Vec4.get_map]
        exact (Vec4.any_iff _).2 ⟨i, by rw [Vec4.get_ofFn]; exact quadTest4_lowered hr hpass⟩) p (pk, d)
      (by rw [hv]; exact hfin) (by rw [hv]; exact RayPacket4.Lowered.refl _)
    rw [Q.root_reach h.unfolds.root_isQuad, hv] at hge
    have hmem : p ∈ Q.reach q.primIndices (fun a => quadTest4 a v.ray.1 i) := by
      refine Q.mem_reach_one (hb.mono fun a ids h hq => ?_) hp
      rw [hr] at hhit ⊢
      exact (C36_quad_monotone (h hq).1 hva).2 _ i hpN (h hq).2 hhit
    exact List.count_pos_iff.1 (Nat.lt_of_lt_of_le (List.count_pos_iff.2 hmem) hge)
end
end Rtbvh
