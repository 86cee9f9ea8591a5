import Verif.Proofs.FfiQuery
/- Asking again with the final `t` and a callback that does nothing finds nothing new. -/
namespace Rtbvh
open FloatOps LawfulFloat
variable {F D : Type} [FloatOps F] [LawfulFloat F]

omit [LawfulFloat F] in
/-- The box test of a packet passes for some lane with the lowered `t`, so it passes with the higher one. -/
theorem intersect4_isSome (a : Aabb F) (pk : RayPacket4 F) : (a.intersect4 pk).isSome = true ↔ ∃ i, a.mask4 pk i = true := by
  unfold Aabb.intersect4
  constructor
  · intro h
    split at h
    · rename_i hh
      obtain ⟨i, hi⟩ := (Vec4.any_iff _).1 hh
      exact ⟨i, by rwa [Vec4.get_ofFn] at hi⟩
    · cases h
  · rintro ⟨i, hi⟩
    rw [if_pos ((Vec4.any_iff _).2 ⟨i, by rw [Vec4.get_ofFn]; exact hi⟩)]
    rfl

theorem mask4_lowered {a : Aabb F} {r fin : RayPacket4 F} (hr : r.Lowered fin) {i : Fin 4} (hpass : a.mask4 fin i = true) :
    a.mask4 r i = true := by
  obtain ⟨⟨t, e⟩, hle⟩ := hr
  rw [e] at hpass
  unfold Aabb.mask4 at hpass ⊢
  simp only [Bool.and_eq_true] at hpass ⊢
  refine ⟨hpass.1, ?_⟩
  have hle := hle i
  rw [e] at hle
  rcases hle with e | e
  · rw [← e]; exact hpass.2
  · exact lt_of_lt_of_le' hpass.2 e

theorem ffi_packet_replay (b : Bvh F) (T : BTree F) (h : b.Denotes T) (hd : T.depth ≤ 31)
    (ox oy oz dx dy dz t : Vec4 F)
    (hn : (ox.isNaN || oy.isNaN || oz.isNaN || dx.isNaN || dy.isNaN || dz.isNaN) = false) (d : D)
    (cb : Nat → Vec4 F → D → Vec4 F × D × Bool) (hcb : LowersT4 cb) (fuel : Nat) (hf : T.rounds < fuel) :
    let out := ffiIntersectPacket b.nodes b.primIndices ox oy oz dx dy dz t d cb fuel
    let pk := packetOf ox oy oz dx dy dz t
    out.code = .ok ∧ out.ending = .finished ∧
    ∀ p ∈ (b.forIndicesPacket (fun r _ => (r, false)) fuel { pk with t := out.t }).items, p ∈ out.calls := by
  intro out pk
  have hout : out = _ := C47_packet_refines b T h hd fuel hf ox oy oz dx dy dz t hn d cb
  generalize hv : T.visit (BTree.rangeIds b.indices) (fun (a : Aabb F) (s : RayPacket4 F × D) => a.intersect4 s.1)
    closerPacket (packetBody cb) (packetOf ox oy oz dx dy dz t, d) = v at hout
  have hbody : ∀ (r : RayPacket4 F × D) (x : Nat), r.1.Lowered (packetBody cb r x).1.1 := fun r x =>
    ⟨⟨_, rfl⟩, fun i => (hcb x r.1.t r.2).2 i⟩
  have hstop : ∀ (r : RayPacket4 F × D) (x : Nat), (packetBody cb r x).2 = false := fun r x => (hcb x r.1.t r.2).1
  have hfin : v.ending = .finished := by
    rw [← hv]; exact visit_finished hstop T _
  have hlow : pk.Lowered v.ray.1 := by
    rw [← hv]
    exact visit_rel (R := fun a b : RayPacket4 F × D => a.1.Lowered b.1) (fun _ => RayPacket4.Lowered.refl _)
      (fun h h' => h.trans h') hbody T _
  rw [hout]
  refine ⟨rfl, hfin, fun p hp => ?_⟩
  have hr : v.ray.1 = { pk with t := v.ray.1.t } := by
    obtain ⟨⟨t', e⟩, _⟩ := hlow
    rw [e]
  simp only at hp
  rw [← hr] at hp
  have hnn : v.ray.1.hasNaN = false := by rw [hr]; exact hn
  rw [C23_packet_traversal_refines b T h hd v.ray.1 hnn _ fuel hf] at hp
  have hle := visit_count_le (closer := closerPacket) (idx := b.indices) (cb := fun (r : RayPacket4 F) (_ : Nat) => (r, false))
    (hit := Aabb.intersect4) (Inv := fun r => r = v.ray.1) (fun _ _ h => h) (pass := fun a => (a.intersect4 v.ray.1).isSome)
    (fun a r hI hh => by rw [hI] at hh; exact hh) p T v.ray.1 rfl
  have hge := visit_count_ge_final (closer := closerPacket) (idx := b.indices) (cb := packetBody cb)
    (R := fun a b : RayPacket4 F × D => a.1.Lowered b.1) (fun _ => RayPacket4.Lowered.refl _)
    (fun h h' => h.trans h') hbody (pass := fun a => (a.intersect4 v.ray.1).isSome) (fin := v.ray)
    (hit := fun (a : Aabb F) (s : RayPacket4 F × D) => a.intersect4 s.1)
    (by
      rintro a ⟨r, d'⟩ hr hpass
      obtain ⟨i, hi⟩ := (intersect4_isSome _ _).1 hpass
      exact (intersect4_isSome _ _).2 ⟨i, mask4_lowered hr hi⟩) p T (pk, d) (by rw [hv]; exact hfin)
      (by rw [hv]; exact RayPacket4.Lowered.refl _)
  rw [hv] at hge
  exact List.count_pos_iff.1 (Nat.lt_of_lt_of_le (List.count_pos_iff.2 hp) (Nat.le_trans hle hge))

theorem ffi_mbvh_replay (q : Mbvh F) (Q : QTree F) (h : q.Denotes Q) (hd : Q.stackNeed ≤ 32)
    (o r : Vec3 F) (hn : (o.isNaN || r.isNaN) = false) (t : F) (d : D)
    (cb : Nat → F → D → F × D × Bool) (hcb : LowersT cb) (fuel : Nat) (hf : Q.rounds ≤ fuel) :
    let out := ffiIntersectMbvh q.mNodes q.primIndices o r t d cb fuel
    out.code = .ok ∧ out.ending = .finished ∧
    ∀ p ∈ (q.forIndices (fun r _ => (r, false)) fuel { Ray.new o r with t := out.t }).items, p ∈ out.calls := by
  intro out
  have hout : out = _ := (C47_mbvh_refines q Q h hd fuel hf d).1 o r hn t cb
  generalize hv : Q.visit (BTree.rangeIds q.primIndices) (fun b (s : Ray F × D) => quadHit b s.1) (rayBody cb)
    ({ Ray.new o r with t := t }, d) = v at hout
  have hbody : ∀ (r : Ray F × D) (x : Nat), r.1.Lowered (rayBody cb r x).1.1 := fun r x =>
    ⟨⟨_, rfl⟩, (hcb x r.1.t r.2).2⟩
  have hstop : ∀ (r : Ray F × D) (x : Nat), (rayBody cb r x).2 = false := fun r x => (hcb x r.1.t r.2).1
  have hfin : v.ending = .finished := by
    rw [← hv]; exact Q.visit_finished hstop _
  have hlow : ({ Ray.new o r with t := t } : Ray F).Lowered v.ray.1 := by
    rw [← hv]
    exact Q.visit_rel (R := fun a b : Ray F × D => a.1.Lowered b.1) (fun _ => Ray.Lowered.refl _)
      (fun h h' => h.trans h') hbody _
  rw [hout]
  refine ⟨rfl, hfin, fun p hp => ?_⟩
  have hr : v.ray.1 = { Ray.new o r with t := v.ray.1.t } := by
    obtain ⟨⟨t', e⟩, _⟩ := hlow
    rw [e]
  simp only at hp
  rw [← hr] at hp
  rw [(C28_traversal_refines q Q h hd fuel hf).1] at hp
  have hle := Q.visit_count_le (idx := q.primIndices) (cb := fun (r : Ray F) (_ : Nat) => (r, false))
    (hit := quadHit) (Inv := fun r => r = v.ray.1) (fun _ _ h => h) (pass := fun a => quadTest a v.ray.1)
    quadHit_perm (fun bs r s hI hh => by
      rw [hI] at hh
      have : (bs.map fun b => quadTest b v.ray.1).get s = true := hh
      rwa [Vec4.get_map] at this) p v.ray.1 rfl
  have hge := Q.visit_count_ge_final (idx := q.primIndices) (cb := rayBody cb)
    (R := fun a b : Ray F × D => a.1.Lowered b.1) (fun _ => Ray.Lowered.refl _)
    (fun h h' => h.trans h') hbody (pass := fun a => quadTest a v.ray.1) (fin := v.ray)
    (hit := fun b (s : Ray F × D) => quadHit b s.1) (fun b s => quadHit_perm b s.1)
    (by
      intro bs r s hr hpass
      show (bs.map fun b => quadTest b r.1).get s = true
      rw [Vec4.get_map]
      exact quadTest_lowered hr hpass) p ({ Ray.new o r with t := t }, d) (by rw [hv]; exact hfin)
      (by rw [hv]; exact Ray.Lowered.refl _)
  rw [hv] at hge
  exact List.count_pos_iff.1 (Nat.lt_of_lt_of_le (List.count_pos_iff.2 hp) (Nat.le_trans hle hge))

theorem ffi_mbvh_packet_replay (q : Mbvh F) (Q : QTree F) (h : q.Denotes Q) (hd : Q.stackNeed ≤ 32)
    (ox oy oz dx dy dz t : Vec4 F)
    (hn : (ox.isNaN || oy.isNaN || oz.isNaN || dx.isNaN || dy.isNaN || dz.isNaN) = false) (d : D)
    (cb : Nat → Vec4 F → D → Vec4 F × D × Bool) (hcb : LowersT4 cb) (fuel : Nat) (hf : Q.rounds ≤ fuel) :
    let out := ffiIntersectMbvhPacket q.mNodes q.primIndices ox oy oz dx dy dz t d cb fuel
    let pk := packetOf ox oy oz dx dy dz t
    out.code = .ok ∧ out.ending = .finished ∧
    ∀ p ∈ (q.forIndicesPacket (fun r _ => (r, false)) fuel { pk with t := out.t }).items, p ∈ out.calls := by
  intro out pk
  have hout : out = _ := (C47_mbvh_refines q Q h hd fuel hf d).2 ox oy oz dx dy dz t hn cb
  generalize hv : Q.visit (BTree.rangeIds q.primIndices) (fun b (s : RayPacket4 F × D) => quadHit4 b s.1) (packetBody cb)
    (packetOf ox oy oz dx dy dz t, d) = v at hout
  have hbody : ∀ (r : RayPacket4 F × D) (x : Nat), r.1.Lowered (packetBody cb r x).1.1 := fun r x =>
    ⟨⟨_, rfl⟩, fun i => (hcb x r.1.t r.2).2 i⟩
  have hstop : ∀ (r : RayPacket4 F × D) (x : Nat), (packetBody cb r x).2 = false := fun r x => (hcb x r.1.t r.2).1
  have hfin : v.ending = .finished := by
    rw [← hv]; exact Q.visit_finished hstop _
  have hlow : pk.Lowered v.ray.1 := by
    rw [← hv]
    exact Q.visit_rel (R := fun a b : RayPacket4 F × D => a.1.Lowered b.1) (fun _ => RayPacket4.Lowered.refl _)
      (fun h h' => h.trans h') hbody _
  rw [hout]
  refine ⟨rfl, hfin, fun p hp => ?_⟩
  have hr : v.ray.1 = { pk with t := v.ray.1.t } := by
    obtain ⟨⟨t', e⟩, _⟩ := hlow
    rw [e]
  simp only at hp
  rw [← hr] at hp
  rw [(C28_traversal_refines q Q h hd fuel hf).2] at hp
  have hle := Q.visit_count_le (idx := q.primIndices) (cb := fun (r : RayPacket4 F) (_ : Nat) => (r, false))
    (hit := quadHit4) (Inv := fun r => r = v.ray.1) (fun _ _ h => h)
    (pass := fun a => (Vec4.ofFn (quadTest4 a v.ray.1)).any)
    quadHit4_perm (fun bs r s hI hh => by
      rw [hI] at hh
      have : (bs.map fun b => (Vec4.ofFn (quadTest4 b v.ray.1)).any).get s = true := hh
      rwa [Vec4.get_map] at this) p v.ray.1 rfl
  have hge := Q.visit_count_ge_final (idx := q.primIndices) (cb := packetBody cb)
    (R := fun a b : RayPacket4 F × D => a.1.Lowered b.1) (fun _ => RayPacket4.Lowered.refl _)
    (fun h h' => h.trans h') hbody (pass := fun a => (Vec4.ofFn (quadTest4 a v.ray.1)).any) (fin := v.ray)
    (hit := fun b (s : RayPacket4 F × D) => quadHit4 b s.1) (fun b s => quadHit4_perm b s.1)
    (by
      intro bs r s hr hpass
      obtain ⟨i, hi⟩ := (Vec4.any_iff _).1 hpass
      rw [Vec4.get_ofFn] at hi
      show (bs.map fun b => (Vec4.ofFn (quadTest4 b r.1)).any).get s = true
      rw [Vec4.get_map]
      exact (Vec4.any_iff _).2 ⟨i, by rw [Vec4.get_ofFn]; exact quadTest4_lowered hr hi⟩) p (pk, d)
      (by rw [hv]; exact hfin) (by rw [hv]; exact RayPacket4.Lowered.refl _)
  rw [hv] at hge
  exact List.count_pos_iff.1 (Nat.lt_of_lt_of_le (List.count_pos_iff.2 hp) (Nat.le_trans hle hge))

end Rtbvh
