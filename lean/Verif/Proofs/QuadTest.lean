import Verif.Proofs.Slab
import Verif.Proofs.Merge
import Verif.Proofs.QVisit
import Verif.Spec.QuadBounded
/- The quad-node tests: monotone in the box, ids a permutation, first and last id extreme; facts about collapsing. -/
namespace Rtbvh
open FloatOps LawfulFloat
variable {F : Type}

section perm
variable [FloatOps F]

theorem swap_get (v : Vec4 (Fin 4)) (a b : Fin 4) :
    (v.swap a b).get = fun j => if j = b then v.get a else if j = a then v.get b else v.get j := by
  funext j; simp only [Vec4.swap, Vec4.get_set]

/-- The ids as a list in slot order. -/
def Vec4.toList {α : Type} (v : Vec4 α) : List α := [v.x, v.y, v.z, v.w]

theorem vswap_perm {α : Type} (v : Vec4 α) (a b : Fin 4) : (v.swap a b).toList.Perm v.toList := by
  obtain ⟨x, y, z, w⟩ := v
  have key : ∀ {l l' : List α}, (∀ (c : α → Bool), l.countP c = l'.countP c) → l.Perm l' := by
    classical
    intro l l' h; rw [List.perm_iff_count]; intro c; exact h _
  refine key fun c => ?_
  match a, b with
  | 0, 0 | 0, 1 | 0, 2 | 0, 3 | 1, 0 | 1, 1 | 1, 2 | 1, 3 | 2, 0 | 2, 1 | 2, 2 | 2, 3 | 3, 0 | 3, 1 | 3, 2 | 3, 3 =>
    simp only [Vec4.swap, Vec4.set, Vec4.get, Vec4.toList, List.countP_cons, List.countP_nil]; try omega

theorem cswap_perm (a b : Fin 4) (p : Vec4 F × Vec4 (Fin 4)) : (cswap a b p).2.toList.Perm p.2.toList := by
  unfold cswap
  split
  · exact vswap_perm _ _ _
  · exact .refl _

theorem sortIds_perm (t : Vec4 F) : (sortIds t).toList.Perm [0, 1, 2, 3] := by
  have h : (cswap 1 3 (cswap 0 2 (cswap 2 3 (cswap 0 1 (t, ⟨0, 1, 2, 3⟩))))).2.toList.Perm [0, 1, 2, 3] :=
    (cswap_perm _ _ _).trans ((cswap_perm _ _ _).trans ((cswap_perm _ _ _).trans (cswap_perm _ _ _)))
  unfold sortIds
  simp only
  split
  · exact (vswap_perm _ _ _).trans h
  · exact h

theorem order_perm {h : MbvhHit} (hp : h.ids.toList.Perm [0, 1, 2, 3]) : h.order.Perm [0, 1, 2, 3] :=
  (List.reverse_perm h.ids.toList).trans hp

theorem quadHit_perm (bs : Vec4 (Aabb F)) (r : Ray F) : (quadHit bs r).order.Perm [0, 1, 2, 3] :=
  order_perm (sortIds_perm _)
theorem quadHit4_perm (bs : Vec4 (Aabb F)) (p : RayPacket4 F) : (quadHit4 bs p).order.Perm [0, 1, 2, 3] :=
  order_perm (.refl _)
end perm

section order
variable [FloatOps F] [LawfulFloat F]

omit [LawfulFloat F] in
/-- Values move together with their ids. -/
theorem cswap_pair {t : Fin 4 → F} (a b : Fin 4) {p : Vec4 F × Vec4 (Fin 4)} (h : ∀ k, p.1.get k = t (p.2.get k)) :
    ∀ k, (cswap a b p).1.get k = t ((cswap a b p).2.get k) := by
  intro k
  unfold cswap
  split
  · simp only [Vec4.swap, Vec4.get_set]
    split
    · exact h _
    · split
      · exact h _
      · exact h _
  · exact h k

theorem cswap_vals {a b : Fin 4} (hab : a ≠ b) {p : Vec4 F × Vec4 (Fin 4)} (hn : ∀ k, Num (p.1.get k)) :
    (∀ k, Num ((cswap a b p).1.get k)) ∧ (∀ k, k ≠ a → k ≠ b → (cswap a b p).1.get k = p.1.get k) ∧
    ((cswap a b p).1.get a <=. (cswap a b p).1.get b) = true ∧
    (((cswap a b p).1.get a = p.1.get a ∧ (cswap a b p).1.get b = p.1.get b) ∨
     ((cswap a b p).1.get a = p.1.get b ∧ (cswap a b p).1.get b = p.1.get a)) := by
  unfold cswap
  split
  · rename_i hgt
    have ea : (p.1.swap a b).get a = p.1.get b := by simp [Vec4.swap, Vec4.get_set, hab]
    have eb : (p.1.swap a b).get b = p.1.get a := by simp [Vec4.swap, Vec4.get_set]
    refine ⟨?_, ?_, ?_, .inr ⟨ea, eb⟩⟩
    · intro k
      simp only [Vec4.swap, Vec4.get_set]
      split
      · exact hn _
      · split
        · exact hn _
        · exact hn _
    · intro k h1 h2; simp [Vec4.swap, Vec4.get_set, h1, h2]
    · simp only [ea, eb]; exact lt_le hgt
  · rename_i hgt
    exact ⟨hn, fun _ _ _ => rfl, not_lt_le (hn _) (hn _) ((Bool.not_eq_true _).mp hgt), .inl ⟨rfl, rfl⟩⟩

theorem sortIds_extreme {t : Vec4 F} (hn : ∀ k, Num (t.get k)) (j : Fin 4) :
    (t.get ((sortIds t).get 0) <=. t.get j) = true ∧ (t.get j <=. t.get ((sortIds t).get 3)) = true := by
  unfold sortIds
  simp only
  generalize h0 : (t, (⟨0, 1, 2, 3⟩ : Vec4 (Fin 4))) = p0
  have n0 : ∀ k, Num (p0.1.get k) := by rw [← h0]; exact hn
  have i0 : ∀ k, p0.1.get k = t.get (p0.2.get k) := by
    rw [← h0]; intro k
    match k with
    | 0 => rfl
    | 1 => rfl
    | 2 => rfl
    | 3 => rfl
  have q0 : p0.2.toList.Perm [0, 1, 2, 3] := by rw [← h0]; exact .refl _
  obtain ⟨n1, f1, l1, c1⟩ := cswap_vals (a := 0) (b := 1) (by decide) n0
  have i1 := cswap_pair (t := t.get) 0 1 i0
  have q1 := (cswap_perm 0 1 p0).trans q0
  generalize cswap 0 1 p0 = p1 at *
  obtain ⟨n2, f2, l2, c2⟩ := cswap_vals (a := 2) (b := 3) (by decide) n1
  have i2 := cswap_pair (t := t.get) 2 3 i1
  have q2 := (cswap_perm 2 3 p1).trans q1
  generalize cswap 2 3 p1 = p2 at *
  obtain ⟨n3, f3, l3, c3⟩ := cswap_vals (a := 0) (b := 2) (by decide) n2
  have i3 := cswap_pair (t := t.get) 0 2 i2
  have q3 := (cswap_perm 0 2 p2).trans q2
  generalize cswap 0 2 p2 = p3 at *
  obtain ⟨n4, f4, l4, c4⟩ := cswap_vals (a := 1) (b := 3) (by decide) n3
  have i4 := cswap_pair (t := t.get) 1 3 i3
  have q4 := (cswap_perm 1 3 p3).trans q3
  generalize cswap 1 3 p3 = p4 at *
  -- after the second step
  have a01 : (p2.1.get 0 <=. p2.1.get 1) = true := by
    rw [f2 0 (by decide) (by decide), f2 1 (by decide) (by decide)]; exact l1
  have a23 := l2
  have e31 : p3.1.get 1 = p2.1.get 1 := f3 1 (by decide) (by decide)
  have e33 : p3.1.get 3 = p2.1.get 3 := f3 3 (by decide) (by decide)
  have e40 : p4.1.get 0 = p3.1.get 0 := f4 0 (by decide) (by decide)
  have e42 : p4.1.get 2 = p3.1.get 2 := f4 2 (by decide) (by decide)
  -- the minimum is first, the maximum last
  have m0 : (p3.1.get 0 <=. p2.1.get 0) = true ∧ (p3.1.get 0 <=. p2.1.get 2) = true := by
    rcases c3 with ⟨u, v⟩ | ⟨u, v⟩
    · rw [← u, ← v]; exact ⟨le_refl (n3 0), l3⟩
    · rw [← u, ← v]; exact ⟨l3, le_refl (n3 0)⟩
  have x1 : (p3.1.get 0 <=. p3.1.get 1) = true := by rw [e31]; exact le_trans m0.1 a01
  have x3 : (p3.1.get 0 <=. p3.1.get 3) = true := by rw [e33]; exact le_trans m0.2 a23
  have w1 : (p3.1.get 1 <=. p4.1.get 3) = true ∧ (p3.1.get 3 <=. p4.1.get 3) = true := by
    rcases c4 with ⟨u, v⟩ | ⟨u, v⟩
    · rw [← u, ← v]; exact ⟨l4, le_refl (n4 3)⟩
    · rw [← u, ← v]; exact ⟨le_refl (n4 3), l4⟩
  have z2 : (p3.1.get 2 <=. p4.1.get 3) = true := by
    rcases c3 with ⟨u, v⟩ | ⟨u, v⟩
    · rw [v]; rw [e33] at w1; exact le_trans a23 w1.2
    · rw [v]; rw [e31] at w1; exact le_trans a01 w1.1
  have hno : ¬ (p4.1.get 2 >. p4.1.get 3) = true := by
    rw [e42]
    intro h
    have := le_not_lt (a := p4.1.get 3) (b := p3.1.get 2) z2
    rw [show (p3.1.get 2 >. p4.1.get 3) = (p4.1.get 3 <. p3.1.get 2) from rfl, this] at h
    cases h
  rw [if_neg hno, ← i4 0, ← i4 3]
  have lo : ∀ k, (p4.1.get 0 <=. p4.1.get k) = true := by
    intro k
    rw [e40]
    match k with
    | 0 => rw [e40]; exact le_refl (n3 0)
    | 1 =>
      rcases c4 with ⟨u, v⟩ | ⟨u, v⟩
      · rw [u]; exact x1
      · rw [u]; exact x3
    | 2 => rw [e42]; exact l3
    | 3 =>
      rcases c4 with ⟨u, v⟩ | ⟨u, v⟩
      · rw [v]; exact x3
      · rw [v]; exact x1
  have hi : ∀ k, (p4.1.get k <=. p4.1.get 3) = true := by
    intro k
    match k with
    | 0 => exact lo 3
    | 1 => exact l4
    | 2 => rw [e42]; exact z2
    | 3 => exact le_refl (n4 3)
  obtain ⟨k, hk⟩ : ∃ k, p4.2.get k = j := by
    have : j ∈ p4.2.toList := by
      rw [q4.mem_iff]
      match j with
      | 0 => decide
      | 1 => decide
      | 2 => decide
      | 3 => decide
    simp only [Vec4.toList, List.mem_cons, List.not_mem_nil, or_false] at this
    rcases this with h | h | h | h
    · exact ⟨0, h.symm⟩
    · exact ⟨1, h.symm⟩
    · exact ⟨2, h.symm⟩
    · exact ⟨3, h.symm⟩
  rw [← hk, ← i4 k]
  exact ⟨lo k, hi k⟩
end order

section mono
variable [FloatOps F] [LawfulFloat F]

/-- Near entry and far exit products of a box under containment. -/
theorem products_mono {a b : Aabb F} {o i : Vec3 F} (hab : a.Within b) (hv : a.Valid) (na : a.NoNaN o i)
    (nb : b.NoNaN o i) :
    let near := fun (a : Aabb F) => (vmin ((a.min.x -. o.x) *. i.x) ((a.max.x -. o.x) *. i.x),
      vmin ((a.min.y -. o.y) *. i.y) ((a.max.y -. o.y) *. i.y), vmin ((a.min.z -. o.z) *. i.z) ((a.max.z -. o.z) *. i.z))
    let far := fun (a : Aabb F) => (vmax ((a.min.x -. o.x) *. i.x) ((a.max.x -. o.x) *. i.x),
      vmax ((a.min.y -. o.y) *. i.y) ((a.max.y -. o.y) *. i.y), vmax ((a.min.z -. o.z) *. i.z) ((a.max.z -. o.z) *. i.z))
    (((near b).1 <=. (near a).1) = true ∧ ((near b).2.1 <=. (near a).2.1) = true ∧
      ((near b).2.2 <=. (near a).2.2) = true) ∧
    (((far a).1 <=. (far b).1) = true ∧ ((far a).2.1 <=. (far b).2.1) = true ∧
      ((far a).2.2 <=. (far b).2.2) = true) := by
  obtain ⟨n1, n2, n3, n4, n5, n6⟩ := na
  obtain ⟨m1, m2, m3, m4, m5, m6⟩ := nb
  obtain ⟨x1, x2⟩ := axis_mono hab.1.1 hv.1 hab.2.1 n1 n2 m1 m2
  obtain ⟨y1, y2⟩ := axis_mono hab.1.2.1 hv.2.1 hab.2.2.1 n3 n4 m3 m4
  obtain ⟨z1, z2⟩ := axis_mono hab.1.2.2 hv.2.2 hab.2.2.2 n5 n6 m5 m6
  exact ⟨⟨x1, y1, z1⟩, x2, y2, z2⟩

theorem vmax_mono {a b c d : F} (h : (a <=. c) = true) (h' : (b <=. d) = true) : (vmax a b <=. vmax c d) = true :=
  vmax_le (le_trans h (le_vmax_left (le_num h).2 (le_num h').2)) (le_trans h' (le_vmax_right (le_num h).2 (le_num h').2))
theorem vmin_mono {a b c d : F} (h : (a <=. c) = true) (h' : (b <=. d) = true) : (vmin a b <=. vmin c d) = true :=
  le_vmin (le_trans (vmin_le_left (le_num h).1 (le_num h').1) h) (le_trans (vmin_le_right (le_num h).1 (le_num h').1) h')

theorem quadLane_mono {a b : Aabb F} {r : Ray F} (hab : a.Within b) (hv : a.Valid)
    (na : a.NoNaN r.origin r.invDirection) (nb : b.NoNaN r.origin r.invDirection) :
    ((quadLane b r).1 <=. (quadLane a r).1) = true ∧ ((quadLane a r).2 <=. (quadLane b r).2) = true := by
  obtain ⟨⟨x1, y1, z1⟩, x2, y2, z2⟩ := products_mono hab hv na nb
  exact ⟨vmax_mono x1 (vmax_mono y1 z1), vmin_mono x2 (vmin_mono y2 z2)⟩

theorem quadTest_mono {a b : Aabb F} {r : Ray F} (hab : a.Within b) (hv : a.Valid)
    (na : a.NoNaN r.origin r.invDirection) (nb : b.NoNaN r.origin r.invDirection) (h : quadTest a r = true) :
    quadTest b r = true := by
  obtain ⟨h1, h2⟩ := quadLane_mono hab hv na nb
  unfold quadTest at h ⊢
  rw [Bool.and_eq_true] at h ⊢
  exact ⟨le_trans h1 (le_trans h.1 h2), lt_of_le_of_lt' h1 h.2⟩

theorem quadLane4_mono {a b : Aabb F} {p : RayPacket4 F} {i : Fin 4} (hab : a.Within b) (hv : a.Valid)
    (na : a.NoNaN (p.originOf i) (p.invOf i)) (nb : b.NoNaN (p.originOf i) (p.invOf i)) :
    ((quadLane4 b p i).1 <=. (quadLane4 a p i).1) = true ∧ ((quadLane4 a p i).2 <=. (quadLane4 b p i).2) = true := by
  obtain ⟨⟨x1, y1, z1⟩, x2, y2, z2⟩ := products_mono hab hv na nb
  exact ⟨vmax_mono (vmax_mono x1 y1) z1, vmin_mono (vmin_mono x2 y2) z2⟩

theorem quadTest4_mono {a b : Aabb F} {p : RayPacket4 F} {i : Fin 4} (hab : a.Within b) (hv : a.Valid)
    (na : a.NoNaN (p.originOf i) (p.invOf i)) (nb : b.NoNaN (p.originOf i) (p.invOf i)) (h : quadTest4 a p i = true) :
    quadTest4 b p i = true := by
  obtain ⟨h1, h2⟩ := quadLane4_mono hab hv na nb
  unfold quadTest4 at h ⊢
  rw [Bool.and_eq_true] at h ⊢
  exact ⟨lt_of_le_of_lt' h1 (lt_of_lt_of_le' h.1 h2), lt_of_le_of_lt' h1 h.2⟩

theorem Ray.Lowered.trans {p q r : Ray F} (h : p.Lowered q) (h' : q.Lowered r) : p.Lowered r := by
  obtain ⟨⟨t, rfl⟩, h1⟩ := h
  obtain ⟨⟨t', rfl⟩, h2⟩ := h'
  refine ⟨⟨t', rfl⟩, ?_⟩
  rcases h1 with e1 | e1 <;> rcases h2 with e2 | e2
  · exact .inl (e2.trans e1)
  · right; rw [← e1]; exact e2
  · right; rw [e2]; exact e1
  · exact .inr (le_trans e2 e1)
end mono

theorem Ray.Lowered.refl [FloatOps F] (p : Ray F) : p.Lowered p := ⟨⟨p.t, rfl⟩, .inl rfl⟩

/-! Facts about collapsing. -/

/-- The quad tree `Mbvh::construct` makes from a binary tree. -/
def BTree.toQuad : BTree F → QTree F
  | .leaf b f c => .quad ⟨b, b, b, b⟩ (.leaf f c) .none .none .none
  | .node b l r => (BTree.node b l r).collapse

theorem collapse_ranges (T : BTree F) : T.collapse.ranges = T.ranges ∧ T.kidA.ranges ++ T.kidB.ranges = T.ranges := by
  induction T with
  | leaf b f c => exact ⟨rfl, rfl⟩
  | node b l r ihl ihr =>
    simp only [BTree.collapse, BTree.kidA, BTree.kidB, QTree.ranges, BTree.ranges, List.append_assoc]
    rw [ihl.1, ihr.1, ihr.2, ← List.append_assoc, ihl.2]
    exact ⟨rfl, rfl⟩

theorem collapse_ids (idx : List Nat) (T : BTree F) :
    T.collapse.ids idx = T.ids idx ∧ T.kidA.ids idx ++ T.kidB.ids idx = T.ids idx := by
  induction T with
  | leaf b f c => exact ⟨rfl, by simp [BTree.kidA, BTree.kidB, QTree.ids, BTree.ids]⟩
  | node b l r ihl ihr =>
    simp only [BTree.collapse, BTree.kidA, BTree.kidB, QTree.ids, BTree.ids, List.append_assoc]
    rw [ihl.1, ihr.1, ihr.2, ← List.append_assoc, ihl.2]
    exact ⟨rfl, rfl⟩

theorem collapse_rangesIn (idx : List Nat) (T : BTree F) (h : T.RangesIn idx) :
    T.collapse.RangesIn idx ∧ T.kidA.RangesIn idx ∧ T.kidB.RangesIn idx := by
  induction T with
  | leaf b f c => exact ⟨h, h, trivial⟩
  | node b l r ihl ihr =>
    obtain ⟨l1, l2, l3⟩ := ihl h.1
    obtain ⟨r1, r2, r3⟩ := ihr h.2
    simp only [BTree.collapse, BTree.kidA, BTree.kidB]
    exact ⟨⟨l2, l3, r2, r3⟩, l1, r1⟩

theorem collapse_quads (T : BTree F) : T.collapse.quads ≤ T.size ∧ T.kidA.quads + T.kidB.quads ≤ T.size := by
  induction T with
  | leaf b f c => simp [BTree.collapse, BTree.kidA, BTree.kidB, QTree.quads, BTree.size]
  | node b l r ihl ihr =>
    simp only [BTree.collapse, BTree.kidA, BTree.kidB, QTree.quads, BTree.size]
    omega

theorem collapse_depth (T : BTree F) : (T.collapse.isQuad = true → 2 * T.collapse.depth + 1 ≤ T.depth) ∧
    (T.kidA.isQuad = true → 2 * T.kidA.depth + 2 ≤ T.depth) ∧
    (T.kidB.isQuad = true → 2 * T.kidB.depth + 2 ≤ T.depth) := by
  induction T with
  | leaf b f c => simp [BTree.collapse, BTree.kidA, BTree.kidB, QTree.isQuad]
  | node b l r ihl ihr =>
    obtain ⟨l1, l2, l3⟩ := ihl
    obtain ⟨r1, r2, r3⟩ := ihr
    refine ⟨fun _ => ?_, fun h => ?_, fun h => ?_⟩
    · simp only [BTree.collapse, QTree.depth, BTree.depth]
      have hd : ∀ (c : QTree F) (D : Nat), (c.isQuad = true → 2 * c.depth + 2 ≤ D) →
          2 * (if c.isQuad = true then c.depth + 1 else 0) ≤ D := by
        intro c D h
        split
        · rename_i hc; have := h hc; omega
        · omega
      have a := hd _ _ l2
      have b := hd _ _ l3
      have c := hd _ _ r2
      have d := hd _ _ r3
      generalize (if l.kidA.isQuad = true then l.kidA.depth + 1 else 0) = w at *
      generalize (if l.kidB.isQuad = true then l.kidB.depth + 1 else 0) = x at *
      generalize (if r.kidA.isQuad = true then r.kidA.depth + 1 else 0) = y at *
      generalize (if r.kidB.isQuad = true then r.kidB.depth + 1 else 0) = z at *
      omega
    · simp only [BTree.kidA] at h ⊢; have := l1 h; simp only [BTree.depth]; omega
    · simp only [BTree.kidB] at h ⊢; have := r1 h; simp only [BTree.depth]; omega

theorem collapse_forall {idx : List Nat} {C : Aabb F → Nat → Prop} (T : BTree F)
    (h : T.Forall idx fun a ids => ∀ p ∈ ids, C a p) :
    T.collapse.Forall idx (fun a ids => ∀ p ∈ ids, C a p) ∧
    T.kidA.Forall idx (fun a ids => ∀ p ∈ ids, C a p) ∧ T.kidB.Forall idx (fun a ids => ∀ p ∈ ids, C a p) ∧
    (∀ p ∈ T.collapse.ids idx, C T.bounds p) ∧
    (∀ b, (∀ p ∈ T.ids idx, C b p) → (∀ p ∈ T.kidA.ids idx, C (T.boxA b) p) ∧ (∀ p ∈ T.kidB.ids idx, C (T.boxB b) p)) := by
  induction T with
  | leaf b f c =>
    refine ⟨trivial, trivial, trivial, h, fun b' hb => ⟨hb, by simp [BTree.kidB, QTree.ids]⟩⟩
  | node b l r ihl ihr =>
    obtain ⟨h0, hl, hr⟩ := h
    obtain ⟨l1, l2, l3, l4, l5⟩ := ihl hl
    obtain ⟨r1, r2, r3, r4, r5⟩ := ihr hr
    have L := l5 b (fun p hp => h0 p (List.mem_append_left _ hp))
    have R := r5 b (fun p hp => h0 p (List.mem_append_right _ hp))
    simp only [BTree.collapse, BTree.kidA, BTree.kidB]
    refine ⟨⟨⟨L.1, L.2, R.1, R.2⟩, l2, l3, r2, r3⟩, l1, r1, ?_, fun b' _ => ⟨l4, r4⟩⟩
    have := (collapse_ids idx (.node b l r)).1
    simp only [BTree.collapse] at this
    rw [this]
    exact h0

theorem QTree.Forall.mono {idx : List Nat} {P P' : Aabb F → List Nat → Prop} {Q : QTree F} (h : Q.Forall idx P)
    (h' : ∀ a ids, P a ids → P' a ids) : Q.Forall idx P' := by
  induction Q with
  | none => trivial
  | leaf => trivial
  | quad b c0 c1 c2 c3 i0 i1 i2 i3 =>
    obtain ⟨⟨a0, a1, a2, a3⟩, b0, b1, b2, b3⟩ := h
    exact ⟨⟨h' _ _ a0, h' _ _ a1, h' _ _ a2, h' _ _ a3⟩, i0 b0, i1 b1, i2 b2, i3 b3⟩
theorem QTree.Forall.and {idx : List Nat} {P P' : Aabb F → List Nat → Prop} {Q : QTree F} (h : Q.Forall idx P)
    (h' : Q.Forall idx P') : Q.Forall idx fun a ids => P a ids ∧ P' a ids := by
  induction Q with
  | none => trivial
  | leaf => trivial
  | quad b c0 c1 c2 c3 i0 i1 i2 i3 =>
    obtain ⟨⟨a0, a1, a2, a3⟩, b0, b1, b2, b3⟩ := h
    obtain ⟨⟨a0', a1', a2', a3'⟩, b0', b1', b2', b3'⟩ := h'
    exact ⟨⟨⟨a0, a0'⟩, ⟨a1, a1'⟩, ⟨a2, a2'⟩, ⟨a3, a3'⟩⟩, i0 b0 b0', i1 b1 b1', i2 b2 b2', i3 b3 b3'⟩

/-- The root of an `Mbvh` is a quad node. -/
theorem QSlot.root_isQuad {nodes : List (MbvhNode F)} {Q : QTree F} (h : QSlot nodes 0 (-1) Q) : Q.isQuad = true := by
  cases h with
  | none _ h => omega
  | leaf hc _ => omega
  | quad => rfl

theorem QTree.root_reach {Q : QTree F} (h : Q.isQuad = true) (idx : List Nat) (pass : Aabb F → Bool) (p : Nat) :
    Q.quadCount idx pass p = (Q.reach idx pass).count p := by simp [QTree.quadCount, h]

/-! Primitive and index iterators. -/
section sim
variable {σ P : Type}
def QStep.mapItems {ι κ : Type} (f : ι → Option κ) : QStep σ ι → Option (QStep σ κ)
  | .done => some .done
  | .panic => some .panic
  | .cont t => some (.cont t)
  | .yield x t => (f x).map (fun y => .yield y t)

theorem quadStep_sim {nodes : List (MbvhNode F)} {indices : List Nat} {item : Nat → Option P}
    {hit : Vec4 (Aabb F) → σ → MbvhHit} (h : ∀ id ∈ indices, (item id).isSome = true) (t : QTrav σ) :
    (quadStep nodes indices some hit t).mapItems item = some (quadStep nodes indices item hit t) := by
  unfold quadStep
  split
  · split
    · rfl
    · split <;> rfl
  · simp only
    split
    · split
      · rfl
      · split
        · split
          · split
            · rfl
            · rename_i id hid
              have hmem : id ∈ indices := by
                unfold atI32 at hid
                split at hid
                · exact List.mem_of_getElem? hid
                · cases hid
              obtain ⟨x, hx⟩ := Option.isSome_iff_exists.1 (h id hmem)
              simp [QStep.mapItems, hx]
          · rfl
        · split
          · split <;> rfl
          · rfl
    · rfl

theorem qdrive_sim {ι κ : Type} {s1 : QTrav σ → QStep σ ι} {s2 : QTrav σ → QStep σ κ} {f : ι → Option κ}
    (h : ∀ t, (s1 t).mapItems f = some (s2 t)) (cb : σ → κ → σ × Bool) (cb' : σ → ι → σ × Bool)
    (hcb : ∀ r x y, f x = some y → cb' r x = cb r y) (fuel : Nat) (t : QTrav σ) :
    (qdrive s2 cb fuel t).items.map some = (qdrive s1 cb' fuel t).items.map f ∧
    (qdrive s2 cb fuel t).ray = (qdrive s1 cb' fuel t).ray ∧
    (qdrive s2 cb fuel t).ending = (qdrive s1 cb' fuel t).ending := by
  induction fuel generalizing t with
  | zero => exact ⟨rfl, rfl, rfl⟩
  | succ fuel ih =>
    have ht := h t
    simp only [qdrive]
    cases e : s1 t with
    | done => rw [e] at ht; simp only [QStep.mapItems, Option.some.injEq] at ht; rw [← ht]; exact ⟨rfl, rfl, rfl⟩
    | panic => rw [e] at ht; simp only [QStep.mapItems, Option.some.injEq] at ht; rw [← ht]; exact ⟨rfl, rfl, rfl⟩
    | cont t' => rw [e] at ht; simp only [QStep.mapItems, Option.some.injEq] at ht; rw [← ht]; exact ih t'
    | yield x t' =>
      rw [e] at ht
      simp only [QStep.mapItems] at ht
      cases fx : f x with
      | none => rw [fx] at ht; cases ht
      | some y =>
        rw [fx] at ht
        simp only [Option.map_some, Option.some.injEq] at ht
        rw [← ht]
        simp only [hcb _ x y fx]
        cases hc : cb t'.ray y with
        | mk r stop =>
          cases stop with
          | true => simp [fx]
          | false =>
            obtain ⟨i1, i2, i3⟩ := ih { t' with ray := r }
            refine ⟨?_, i2, i3⟩
            simp only [Run.cons, List.map_cons, i1, fx]
end sim
end Rtbvh
