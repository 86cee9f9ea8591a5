import Verif.Props.Pruning
/- C102 through the C interface: callbacks that lower `*t` are called with, in the same order, some of the ids that a
callback which leaves `*t` alone is called with. -/
namespace Rtbvh
open FloatOps LawfulFloat

section
variable {F D : Type} [FloatOps F] [LawfulFloat F]

/-- A callback that leaves `*t` and the client's data alone and never stops the query. -/
def watch {T D : Type} (_ : Nat) (t : T) (d : D) : T × D × Bool := (t, d, false)

/-- The callback never raises `*t`. -/
def NeverRaises (cb : Nat → F → D → F × D × Bool) : Prop := ∀ id t d, (cb id t d).1 = t ∨ ((cb id t d).1 <=. t) = true
/-- The same for the four lanes of the packet functions. -/
def NeverRaises4 (cb : Nat → Vec4 F → D → Vec4 F × D × Bool) : Prop :=
  ∀ id t d i, (cb id t d).1.get i = t.get i ∨ ((cb id t d).1.get i <=. t.get i) = true

/-- C102, `intersect_mbvh`.  Whatever the boxes: the ids that a callback which never raises `*t` is called with are, in the
same order, some of those that a callback which leaves `*t` alone is called with.  If it never stops the query, calling
again with the final `*t` and a callback that leaves it alone gives, in the same order, some of the ids it was called
with. -/
theorem C102_ffi_mbvh (q : Mbvh F) (Q : QTree F) (h : q.Denotes Q) (hd : Q.stackNeed ≤ 32) (o r : Vec3 F)
    (hn : (o.isNaN || r.isNaN) = false) (t : F) (d : D) (cb : Nat → F → D → F × D × Bool) (hcb : NeverRaises cb)
    (fuel : Nat) (hf : Q.rounds ≤ fuel) :
    let out := ffiIntersectMbvh q.mNodes q.primIndices o r t d cb fuel
    out.calls.Sublist (ffiIntersectMbvh q.mNodes q.primIndices o r t d watch fuel).calls ∧
    ((∀ id t d, (cb id t d).2.2 = false) → out.ending = .finished ∧
      (ffiIntersectMbvh q.mNodes q.primIndices o r out.t d watch fuel).calls.Sublist out.calls) := by
  have hids : ∀ (b : Vec4 (Aabb F)) (s s' : Ray F × D), s.1.Lowered s'.1 → (quadHit b s'.1).ids = (quadHit b s.1).ids := by
    rintro b ⟨s, _⟩ ⟨s', _⟩ ⟨⟨t, e⟩, _⟩
    simp only at e
    subst e; rfl
  have hmono : ∀ (b : Vec4 (Aabb F)) (s s' : Ray F × D) (i : Fin 4), s.1.Lowered s'.1 →
      (quadHit b s'.1).result.get i = true → (quadHit b s.1).result.get i = true := fun b s s' i hr hh => by
    have e : ∀ r : Ray F, (quadHit b r).result.get i = quadTest (b.get i) r := fun r => Vec4.get_map _ _ _
    rw [e] at hh ⊢
    exact quadTest_lowered hr hh
  have hst : ∀ s : Ray F × D, Q.visit _ (fun b (s : Ray F × D) => quadHit b s.1) (fun r _ => (r, false)) s = _ := fun s =>
    Still.qvisit (items := BTree.rangeIds q.primIndices) (hit := fun b (s : Ray F × D) => quadHit b s.1) s Q
  have hlow : ∀ (s : Ray F × D) (x : Nat), s.1.Lowered (rayBody cb s x).1.1 := fun s x => ⟨⟨_, rfl⟩, hcb x s.1.t s.2⟩
  intro out
  have hout : out = _ := (C47_mbvh_refines q Q h hd fuel hf d).1 o r hn t cb
  generalize hv : Q.visit (BTree.rangeIds q.primIndices) (fun b (s : Ray F × D) => quadHit b s.1) (rayBody cb)
    ({ Ray.new o r with t := t }, d) = v at hout
  refine ⟨?_, fun hs => ⟨?_, ?_⟩⟩
  · rw [hout, (C47_mbvh_refines q Q h hd fuel hf d).1 o r hn t watch]
    show List.Sublist v.items (Q.visit _ (fun b (s : Ray F × D) => quadHit b s.1) (fun r _ => (r, false)) _).items
    rw [hst, ← hv]
    exact (Thin.qvisit (R := fun s s' : Ray F × D => s.1.Lowered s'.1) (fun _ _ _ h h' => h.trans h') hlow hids hmono _ Q _
      (Ray.Lowered.refl _)).1
  · rw [hout, ← hv]; exact Q.visit_finished (fun (s : Ray F × D) x => hs x s.1.t s.2) _
  · have hend : (({ Ray.new o r with t := t }, d) : Ray F × D).1.Lowered v.ray.1 := by
      rw [← hv]
      exact Q.visit_rel (R := fun s s' : Ray F × D => s.1.Lowered s'.1) (fun _ => Ray.Lowered.refl _)
        (fun h h' => h.trans h') hlow _
    have ht : ({ Ray.new o r with t := out.t } : Ray F) = v.ray.1 := by
      obtain ⟨⟨t', e⟩, _⟩ := hend
      rw [hout]
      simp only at e ⊢
      rw [e]
    rw [(C47_mbvh_refines q Q h hd fuel hf d).1 o r hn out.t watch]
    have key := (Thick.qvisit (items := BTree.rangeIds q.primIndices) (R := fun s s' : Ray F × D => s.1.Lowered s'.1)
      (fun _ => Ray.Lowered.refl _) (fun _ _ _ h h' => h.trans h') hlow (fun (s : Ray F × D) x => hs x s.1.t s.2) hids hmono
      ({ Ray.new o r with t := out.t }, d) Q ({ Ray.new o r with t := t }, d)).2.2
      (by rw [hv]; show v.ray.1.Lowered { Ray.new o r with t := out.t }; rw [ht]; exact Ray.Lowered.refl _)
    rw [hv] at key
    show List.Sublist (Q.visit _ (fun b (s : Ray F × D) => quadHit b s.1) (fun r _ => (r, false)) _).items _
    rw [hst, show out.calls = v.items by rw [hout]]
    exact key

/-- C102, `intersect_mbvh_packet`. -/
theorem C102_ffi_mbvh_packet (q : Mbvh F) (Q : QTree F) (h : q.Denotes Q) (hd : Q.stackNeed ≤ 32) (ox oy oz dx dy dz : Vec4 F)
    (hn : (ox.isNaN || oy.isNaN || oz.isNaN || dx.isNaN || dy.isNaN || dz.isNaN) = false) (t : Vec4 F) (d : D)
    (cb : Nat → Vec4 F → D → Vec4 F × D × Bool) (hcb : NeverRaises4 cb) (fuel : Nat) (hf : Q.rounds ≤ fuel) :
    let out := ffiIntersectMbvhPacket q.mNodes q.primIndices ox oy oz dx dy dz t d cb fuel
    out.calls.Sublist (ffiIntersectMbvhPacket q.mNodes q.primIndices ox oy oz dx dy dz t d watch fuel).calls ∧
    ((∀ id t d, (cb id t d).2.2 = false) → out.ending = .finished ∧
      (ffiIntersectMbvhPacket q.mNodes q.primIndices ox oy oz dx dy dz out.t d watch fuel).calls.Sublist out.calls) := by
  have hids : ∀ (b : Vec4 (Aabb F)) (s s' : RayPacket4 F × D), s.1.Lowered s'.1 →
      (quadHit4 b s'.1).ids = (quadHit4 b s.1).ids := fun _ _ _ _ => rfl
  have hmono : ∀ (b : Vec4 (Aabb F)) (s s' : RayPacket4 F × D) (i : Fin 4), s.1.Lowered s'.1 →
      (quadHit4 b s'.1).result.get i = true → (quadHit4 b s.1).result.get i = true := fun b s s' i hr hh => by
    have e : ∀ r : RayPacket4 F, (quadHit4 b r).result.get i = (Vec4.ofFn (quadTest4 (b.get i) r)).any :=
      fun r => Vec4.get_map _ _ _
    rw [e] at hh ⊢
    obtain ⟨j, hj⟩ := (Vec4.any_iff _).1 hh
    rw [Vec4.get_ofFn] at hj
    exact (Vec4.any_iff _).2 ⟨j, by rw [Vec4.get_ofFn]; exact quadTest4_lowered hr hj⟩
  have hst : ∀ s : RayPacket4 F × D,
      Q.visit _ (fun b (s : RayPacket4 F × D) => quadHit4 b s.1) (fun r _ => (r, false)) s = _ := fun s =>
    Still.qvisit (items := BTree.rangeIds q.primIndices) (hit := fun b (s : RayPacket4 F × D) => quadHit4 b s.1) s Q
  have hlow : ∀ (s : RayPacket4 F × D) (x : Nat), s.1.Lowered (packetBody cb s x).1.1 :=
    fun s x => ⟨⟨_, rfl⟩, hcb x s.1.t s.2⟩
  intro out
  have hout : out = _ := (C47_mbvh_refines q Q h hd fuel hf d).2 ox oy oz dx dy dz t hn cb
  generalize hv : Q.visit (BTree.rangeIds q.primIndices) (fun b (s : RayPacket4 F × D) => quadHit4 b s.1) (packetBody cb)
    (packetOf ox oy oz dx dy dz t, d) = v at hout
  refine ⟨?_, fun hs => ⟨?_, ?_⟩⟩
  · rw [hout, (C47_mbvh_refines q Q h hd fuel hf d).2 ox oy oz dx dy dz t hn watch]
    show List.Sublist v.items (Q.visit _ (fun b (s : RayPacket4 F × D) => quadHit4 b s.1) (fun r _ => (r, false)) _).items
    rw [hst, ← hv]
    exact (Thin.qvisit (R := fun s s' : RayPacket4 F × D => s.1.Lowered s'.1) (fun _ _ _ h h' => h.trans h') hlow hids hmono
      _ Q _ (RayPacket4.Lowered.refl _)).1
  · rw [hout, ← hv]; exact Q.visit_finished (fun (s : RayPacket4 F × D) x => hs x s.1.t s.2) _
  · have hend : ((packetOf ox oy oz dx dy dz t, d) : RayPacket4 F × D).1.Lowered v.ray.1 := by
      rw [← hv]
      exact Q.visit_rel (R := fun s s' : RayPacket4 F × D => s.1.Lowered s'.1) (fun _ => RayPacket4.Lowered.refl _)
        (fun h h' => h.trans h') hlow _
    have ht : packetOf ox oy oz dx dy dz out.t = v.ray.1 := by
      obtain ⟨⟨t', e⟩, _⟩ := hend
      rw [hout]
      simp only at e ⊢
      rw [e]; rfl
    rw [(C47_mbvh_refines q Q h hd fuel hf d).2 ox oy oz dx dy dz out.t hn watch]
    have key := (Thick.qvisit (items := BTree.rangeIds q.primIndices)
      (R := fun s s' : RayPacket4 F × D => s.1.Lowered s'.1) (fun _ => RayPacket4.Lowered.refl _)
      (fun _ _ _ h h' => h.trans h') hlow (fun (s : RayPacket4 F × D) x => hs x s.1.t s.2) hids hmono
      (packetOf ox oy oz dx dy dz out.t, d) Q (packetOf ox oy oz dx dy dz t, d)).2.2
      (by rw [hv]; show v.ray.1.Lowered (packetOf ox oy oz dx dy dz out.t); rw [ht]; exact RayPacket4.Lowered.refl _)
    rw [hv] at key
    show List.Sublist (Q.visit _ (fun b (s : RayPacket4 F × D) => quadHit4 b s.1) (fun r _ => (r, false)) _).items _
    rw [hst, show out.calls = v.items by rw [hout]]
    exact key

/-- C102, `intersect_packet`. -/
theorem C102_ffi_packet (b : Bvh F) (T : BTree F) (h : b.Denotes T) (hd : T.depth ≤ 31) (ox oy oz dx dy dz : Vec4 F)
    (hn : (ox.isNaN || oy.isNaN || oz.isNaN || dx.isNaN || dy.isNaN || dz.isNaN) = false) (t : Vec4 F) (d : D)
    (cb : Nat → Vec4 F → D → Vec4 F × D × Bool) (hcb : NeverRaises4 cb) (fuel : Nat) (hf : T.rounds < fuel) :
    let out := ffiIntersectPacket b.nodes b.primIndices ox oy oz dx dy dz t d cb fuel
    out.calls.Sublist (ffiIntersectPacket b.nodes b.primIndices ox oy oz dx dy dz t d watch fuel).calls ∧
    ((∀ id t d, (cb id t d).2.2 = false) → out.ending = .finished ∧
      (ffiIntersectPacket b.nodes b.primIndices ox oy oz dx dy dz out.t d watch fuel).calls.Sublist out.calls) := by
  have hmono : ∀ (a : Aabb F) (s s' : RayPacket4 F × D) (t : Vec4 F), s.1.Lowered s'.1 → a.intersect4 s'.1 = some t →
      a.intersect4 s.1 = some t := fun a s s' t hr hh => by
    have hs : (a.intersect4 s'.1).isSome = true := by rw [hh]; rfl
    obtain ⟨i, hi⟩ := (intersect4_isSome _ _).1 hs
    have hs' := (intersect4_isSome a s.1).2 ⟨i, mask4_lowered hr hi⟩
    obtain ⟨⟨t', e⟩, _⟩ := hr
    rw [e] at hh
    unfold Aabb.intersect4 at hh hs' ⊢
    split at hh
    · rw [← Option.some.inj hh]
      split at hs'
      · rename_i e; rw [if_pos e]; rfl
      · cases hs'
    · cases hh
  have hst : ∀ s : RayPacket4 F × D, T.visit _ (fun (a : Aabb F) (s : RayPacket4 F × D) => a.intersect4 s.1) closerPacket
      (fun r _ => (r, false)) s = _ := fun s =>
    Still.visit (items := BTree.rangeIds b.indices) (hit := fun (a : Aabb F) (s : RayPacket4 F × D) => a.intersect4 s.1)
      (closer := closerPacket) s T
  have hlow : ∀ (s : RayPacket4 F × D) (x : Nat), s.1.Lowered (packetBody cb s x).1.1 :=
    fun s x => ⟨⟨_, rfl⟩, hcb x s.1.t s.2⟩
  intro out
  have hout : out = _ := C47_packet_refines b T h hd fuel hf ox oy oz dx dy dz t hn d cb
  generalize hv : T.visit (BTree.rangeIds b.indices) (fun (a : Aabb F) (s : RayPacket4 F × D) => a.intersect4 s.1)
    closerPacket (packetBody cb) (packetOf ox oy oz dx dy dz t, d) = v at hout
  refine ⟨?_, fun hs => ⟨?_, ?_⟩⟩
  · rw [hout, C47_packet_refines b T h hd fuel hf ox oy oz dx dy dz t hn d watch]
    show List.Sublist v.items (T.visit _ (fun (a : Aabb F) (s : RayPacket4 F × D) => a.intersect4 s.1) closerPacket
      (fun r _ => (r, false)) _).items
    rw [hst, ← hv]
    exact (Thin.visit (R := fun s s' : RayPacket4 F × D => s.1.Lowered s'.1) (fun _ _ _ h h' => h.trans h') hlow hmono
      _ T _ (RayPacket4.Lowered.refl _)).1
  · rw [hout, ← hv]; exact visit_finished (fun (s : RayPacket4 F × D) x => hs x s.1.t s.2) T _
  · have hend : ((packetOf ox oy oz dx dy dz t, d) : RayPacket4 F × D).1.Lowered v.ray.1 := by
      rw [← hv]
      exact visit_rel (R := fun s s' : RayPacket4 F × D => s.1.Lowered s'.1) (fun _ => RayPacket4.Lowered.refl _)
        (fun h h' => h.trans h') hlow T _
    have ht : packetOf ox oy oz dx dy dz out.t = v.ray.1 := by
      obtain ⟨⟨t', e⟩, _⟩ := hend
      rw [hout]
      simp only at e ⊢
      rw [e]; rfl
    rw [C47_packet_refines b T h hd fuel hf ox oy oz dx dy dz out.t hn d watch]
    have key := (Thick.visit (items := BTree.rangeIds b.indices) (closer := closerPacket)
      (R := fun s s' : RayPacket4 F × D => s.1.Lowered s'.1) (fun _ => RayPacket4.Lowered.refl _)
      (fun _ _ _ h h' => h.trans h') hlow (fun (s : RayPacket4 F × D) x => hs x s.1.t s.2) hmono
      (packetOf ox oy oz dx dy dz out.t, d) T (packetOf ox oy oz dx dy dz t, d)).2.2
      (by rw [hv]; show v.ray.1.Lowered (packetOf ox oy oz dx dy dz out.t); rw [ht]; exact RayPacket4.Lowered.refl _)
    rw [hv] at key
    show List.Sublist (T.visit _ (fun (a : Aabb F) (s : RayPacket4 F × D) => a.intersect4 s.1) closerPacket
      (fun r _ => (r, false)) _).items _
    rw [hst, show out.calls = v.items by rw [hout]]
    exact key

end

/-! The row of four boxes of `prBvh`, and a callback that lowers the lanes of `*t` to a half. -/

def halve (_ : Nat) (t : Vec4 Rat) (d : Unit) : Vec4 Rat × Unit × Bool := (t.map fun t => Min.min t (1/2), d, false)

theorem halve_lowers : NeverRaises4 halve := fun _ t _ i => .inr (by
  show decide ((t.map fun t => Min.min t (1/2)).get i ≤ t.get i) = true
  rw [Vec4.get_map]
  exact decide_eq_true (min_le_left _ _))

/-- The hypotheses of `C102_ffi_packet` hold of a case in which both sublists are proper. -/
example :
    let s := fun x : Rat => Vec4.splat x
    prBvh.Denotes prTree ∧ prTree.depth ≤ 31 ∧ prTree.rounds < 20 ∧ NeverRaises4 halve ∧
    (∀ id t d, (halve id t d).2.2 = false) ∧
    (ffiIntersectPacket prBvh.nodes prBvh.primIndices (s (-1)) (s (1/4)) (s (1/4)) (s 1) (s (1/100)) (s (1/100)) (s 100) ()
      watch 20).calls = [3, 2, 1, 0] ∧
    (ffiIntersectPacket prBvh.nodes prBvh.primIndices (s (-1)) (s (1/4)) (s (1/4)) (s 1) (s (1/100)) (s (1/100)) (s 100) ()
      halve 20).calls = [3, 2] ∧
    (ffiIntersectPacket prBvh.nodes prBvh.primIndices (s (-1)) (s (1/4)) (s (1/4)) (s 1) (s (1/100)) (s (1/100)) (s (1/2)) ()
      watch 20).calls = [] :=
  ⟨prBvh_compact.toDenotes, by decide, by decide, halve_lowers, fun _ _ _ => rfl, by decide +kernel, by decide +kernel,
    by decide +kernel⟩

end Rtbvh
