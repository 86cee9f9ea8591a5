import Verif.Proofs.LocbDebug
import Verif.Props.Locb
import Verif.Props.LocRule
/- C10 made exact: which scenes the clustering builder can handle.  C87: debug builds. -/
namespace Rtbvh
open FloatOps LawfulFloat

section last
variable {F : Type} [FloatOps F] {n : Nat} {sorted : List Nat} {boxes : List (Aabb F)} {r t : Nat}

/-- A finished loop has had a round with exactly two clusters, each of which found the other. -/
theorem loop_last (hn : n ≤ 2 ^ 29) (ht : 0 < t) (fuel : Nat) :
    ∀ (nodes copy : List (BvhNode F)) (aux : List Nat) (b e pe : Nat) (tr : Nat → BTree F),
      LocInv n sorted boxes nodes copy aux b e pe tr → 0 < b → ∀ nodes',
      locbLoop r t (2 * n - 1) fuel nodes copy aux b e pe = some (some nodes') →
      ∃ nodes copy aux pe tr, LocInv n sorted boxes nodes copy aux 1 3 pe tr ∧ AllFound r nodes 1 3 := by
  induction fuel with
  | zero =>
    intro nodes copy aux b e pe tr I hb nodes' h
    unfold locbLoop at h
    have := I.count
    rw [if_pos (by omega)] at h
    cases h
  | succ fuel ih =>
    intro nodes copy aux b e pe tr I hb nodes' h
    unfold locbLoop at h
    have hcnt := I.count
    rw [if_pos (by omega)] at h
    simp only [Option.bind_eq_some_iff] at h
    obtain ⟨s, h1, h2⟩ := h
    have hf := cluster_found ht (by omega) (by have := I.le; have := I.peLe; omega) I.lenN I.lenA (by omega) h1
    obtain ⟨out, aux', e1, _, I'⟩ := round_spec I (by omega) r t ht (by omega) hf
    rw [e1] at h1
    cases h1
    by_cases hz : b - pairsOf r nodes b e = 0
    · have hP : Partners (e - b) (fun k => nbOf r nodes b e (b + k) - b) := by
        constructor
        · intro k hk
          have := hf (b + k) (by omega) (by omega)
          omega
        · intro k hk
          have := hf (b + k) (by omega) (by omega)
          omega
      have h2M := two_cnt_le hP
      change 2 * pairsOf r nodes b e ≤ e - b at h2M
      obtain rfl : b = 1 := by omega
      obtain rfl : e = 3 := by omega
      exact ⟨_, _, _, _, _, I, hf⟩
    · exact ih _ _ _ _ _ _ _ I' (by omega) nodes' h2

/-- Two clusters that found each other have a distance below `f32::MAX`. -/
theorem found_lt {nodes : List (BvhNode F)} (h : AllFound 14 nodes 1 3) : (pd nodes 1 2 <. (maxFinite : F)) = true := by
  have h1 := (h 1 (by omega) (by omega)).2.1
  cases hd : (pd nodes 1 2 <. (maxFinite : F)) with
  | true => rfl
  | false =>
    exfalso
    have : candidates 14 nodes 1 3 1 = [(2, pd nodes 1 2)] := rfl
    unfold nbOf bestOf at h1
    rw [this] at h1
    simp only [List.foldl_cons, List.foldl_nil, Best.offer, hd, Bool.false_eq_true, if_false] at h1
    exact absurd h1 (by decide)
end last

section area
/-- A number that is not negative is finite or plus infinity. -/
theorem f32_nonneg_cases {x : F32} (h : ((zero : F32) <=. x) = true) : Fin' x ∨ x = F32.inf false := by
  cases x with
  | nan => exact absurd h (by decide +kernel)
  | inf s =>
    cases s with
    | true => exact absurd h (by decide +kernel)
    | false => exact .inr rfl
  | fin s k hk => exact .inl (fin_f32.2 ⟨s, k, hk, rfl⟩)

theorem f32_inf_lt : ((F32.inf false : F32) <. (maxFinite : F32)) = false := by decide +kernel
theorem f32_nan_lt : ((F32.nan : F32) <. (maxFinite : F32)) = false := by decide +kernel

theorem f32_add_inf {x : F32} (h : ((zero : F32) <=. x) = true ∨ x = F32.nan) :
    x +. F32.inf false = F32.inf false ∨ x +. F32.inf false = F32.nan := by
  rcases h with h | rfl
  · rcases f32_nonneg_cases h with h | rfl
    · obtain ⟨s, k, hk, rfl⟩ := fin_f32.1 h; exact .inl rfl
    · exact .inl rfl
  · exact .inr rfl

theorem f32_add_nan (x : F32) : x +. F32.nan = F32.nan := by
  show F32.add x F32.nan = F32.nan
  cases x <;> rfl

theorem f32_mul_inf {x : F32} (h : ((zero : F32) <=. x) = true) :
    x *. F32.inf false = F32.inf false ∨ x *. F32.inf false = F32.nan := by
  rcases f32_nonneg_cases h with h' | rfl
  · obtain ⟨s, k, hk, rfl⟩ := fin_f32.1 h'
    show F32.mul _ _ = _ ∨ F32.mul _ _ = _
    simp only [F32.mul]
    by_cases h0 : k = 0
    · rw [if_pos h0]; exact .inr rfl
    · rw [if_neg h0]
      cases s with
      | false => exact .inl rfl
      | true =>
        have := (F32.le_iff.1 h).2.2
        have e0 : F32.ord (zero : F32) = 0 := by decide +kernel
        rw [e0] at this
        simp only [F32.ord, if_true] at this
        omega
  · exact .inl rfl

/-- If the sum is below `f32::MAX`, neither summand is infinite or NaN. -/
theorem f32_add_lt {x y : F32} (hx : ((zero : F32) <=. x) = true ∨ x = F32.nan) (hy : ((zero : F32) <=. y) = true ∨ y = F32.nan)
    (h : (x +. y <. (maxFinite : F32)) = true) : Fin' x ∧ Fin' y := by
  have hy' : Fin' y := by
    rcases hy with hy | rfl
    · rcases f32_nonneg_cases hy with h' | rfl
      · exact h'
      · rcases f32_add_inf hx with e | e <;> rw [e] at h
        · rw [f32_inf_lt] at h; cases h
        · rw [f32_nan_lt] at h; cases h
    · rw [f32_add_nan, f32_nan_lt] at h; cases h
  refine ⟨?_, hy'⟩
  rw [LawfulFloat.add_comm] at h
  rcases hx with hx | rfl
  · rcases f32_nonneg_cases hx with h' | rfl
    · exact h'
    · rcases f32_add_inf hy with e | e <;> rw [e] at h
      · rw [f32_inf_lt] at h; cases h
      · rw [f32_nan_lt] at h; cases h
  · rw [f32_add_nan, f32_nan_lt] at h; cases h

theorem f32_mul_cases {x y : F32} (hx : ((zero : F32) <=. x) = true) (hy : ((zero : F32) <=. y) = true) :
    ((zero : F32) <=. x *. y) = true ∨ x *. y = F32.nan := by
  cases hn : (x *. y).isNaN with
  | true =>
    right
    cases e : x *. y with
    | nan => rfl
    | inf s => rw [e] at hn; cases hn
    | fin s k hk => rw [e] at hn; cases hn
  | false => exact .inl (LawfulFloat.mul_nonneg hx hy hn)

theorem f32_mul_fin {x y : F32} (hx : ((zero : F32) <=. x) = true) (hy : ((zero : F32) <=. y) = true)
    (h : Fin' (x *. y)) : Fin' x ∧ Fin' y := by
  have key : ∀ {x y : F32}, ((zero : F32) <=. x) = true → ((zero : F32) <=. y) = true → Fin' (x *. y) → Fin' y := by
    intro x y hx hy h
    rcases f32_nonneg_cases hy with h' | rfl
    · exact h'
    · obtain ⟨s, k, hk, e⟩ := fin_f32.1 h
      rcases f32_mul_inf hx with e' | e' <;> rw [e'] at e <;> cases e
  exact ⟨key hy hx (by rw [LawfulFloat.mul_comm]; exact h), key hx hy h⟩

/-- A box with finite corners and a half area below `f32::MAX`: nothing overflowed on the way. -/
theorem areaOk_of_lt {w : Aabb F32} (hmin : w.min.Finite) (hmax : w.max.Finite) (hv : w.Valid)
    (h : (w.halfArea <. (maxFinite : F32)) = true) : w.AreaOk := by
  have e : w.halfArea = (w.diagonal.x +. w.diagonal.y) *. w.diagonal.z +. w.diagonal.x *. w.diagonal.y := rfl
  have hx : ((zero : F32) <=. w.diagonal.x) = true := LawfulFloat.sub_nonneg hmin.1 hv.1
  have hy : ((zero : F32) <=. w.diagonal.y) = true := LawfulFloat.sub_nonneg hmin.2.1 hv.2.1
  have hz : ((zero : F32) <=. w.diagonal.z) = true := LawfulFloat.sub_nonneg hmin.2.2 hv.2.2
  have hs : ((zero : F32) <=. w.diagonal.x +. w.diagonal.y) = true := LawfulFloat.add_nonneg hx hy
  have h' := h
  rw [e] at h'
  obtain ⟨f1, f2⟩ := f32_add_lt (f32_mul_cases hs hz) (f32_mul_cases hx hy) h'
  obtain ⟨g1, g2⟩ := f32_mul_fin hs hz f1
  obtain ⟨g3, g4⟩ := f32_mul_fin hx hy f2
  exact ⟨hmin, hmax, ⟨g3, g4, g2⟩, g1, h⟩

/-- Padding a finite coordinate by `1e-4` keeps it finite. -/
theorem f32_pad_fin {x : F32} (h : Fin' x) : Fin' (x -. lit 1 (-4)) ∧ Fin' (x +. lit 1 (-4)) := by
  have hp : Fin' (lit 1 (-4) : F32) := lit_fin (by decide) (by decide) (by decide)
  have hl : ((FloatOps.neg (maxFinite : F32)) <=. x) = true ∧ (x <=. (maxFinite : F32)) = true := by
    obtain ⟨s, k, hk, rfl⟩ := fin_f32.1 h
    have hk' := rep_le_max hk
    have o1 : F32.ord (FloatOps.neg (maxFinite : F32)) = -(((2 ^ 24 - 1) * 2 ^ 253 : Nat) : Int) := by decide +kernel
    have o2 : F32.ord (maxFinite : F32) = (((2 ^ 24 - 1) * 2 ^ 253 : Nat) : Int) := by decide +kernel
    refine ⟨F32.le_iff.2 ⟨by decide +kernel, rfl, ?_⟩, F32.le_iff.2 ⟨rfl, by decide +kernel, ?_⟩⟩
    · rw [o1]; simp only [F32.ord]; split <;> omega
    · rw [o2]; simp only [F32.ord]; split <;> omega
  have a1 : Fin' ((FloatOps.neg (maxFinite : F32)) -. lit 1 (-4)) := by unfold Fin'; decide +kernel
  have a2 : Fin' ((maxFinite : F32) -. lit 1 (-4)) := by unfold Fin'; decide +kernel
  have a3 : Fin' ((FloatOps.neg (maxFinite : F32)) +. lit 1 (-4)) := by unfold Fin'; decide +kernel
  have a4 : Fin' ((maxFinite : F32) +. lit 1 (-4)) := by unfold Fin'; decide +kernel
  have hx := fin_num h
  exact ⟨fin_between a1 a2 (sub_mono _ hl.1 (fin_num a1) (sub_fin hx hp)) (sub_mono _ hl.2 (sub_fin hx hp) (fin_num a2)),
    fin_between a3 a4 (add_mono _ hl.1 (fin_num a3) (add_fin hx hp)) (add_mono _ hl.2 (add_fin hx hp) (fin_num a4))⟩

end area

theorem constructLocb_main {F : Type} [FloatOps F] {b : Builder F} {order : List Nat} (h : b.Legal order) {t fuel : Nat}
    {bvh : Bvh F} (h3 : 3 ≤ b.primitives.length) (hs : b.primitives.length ≤ 2 ^ 29) (ht : 0 < t)
    (e : b.constructLocb order t fuel = .ok (some (some bvh))) :
    ∃ sorted nodes copy aux pe tr, sorted.Perm (List.range b.primitives.length) ∧
      LocInv b.primitives.length sorted (b.boxes order) nodes copy aux 1 3 pe tr ∧ AllFound 14 nodes 1 3 := by
  have hlen := Builder.boxes_length h
  have hl : (b.primitives.map Prim.center).length = (b.boxes order).length := by rw [hlen]; simp
  rw [Builder.constructLocb_eq h] at e
  generalize hc : b.primitives.map Prim.center = centers at *
  generalize hb : b.boxes order = aabbs at *
  injection e with e
  unfold locbBuild at e
  simp only at e
  rw [if_neg (by
    rintro (h | h | h)
    · exact h hl
    · rw [h] at hl; simp at hl; omega
    · rw [h] at hlen; simp at hlen; omega), if_neg (by omega)] at e
  obtain ⟨sorted, codes, e1, hp⟩ := sorted_of hl
    (MortonEncoder.new (Aabb.unionOfList aabbs) MortonEncoder.maxGridDim)
  rw [e1] at e
  simp only [Option.bind_some] at e
  obtain ⟨leaves, tr, e2, I, _⟩ := init_inv (n := aabbs.length) rfl hp (by omega) (by omega)
    (List.replicate (2 * aabbs.length - 1) ((({ bounds := Aabb.ofPoints2 (Vec3.splat zero) (Vec3.splat zero) }
      : BvhNode F).setCount none).setLeftFirst (some 0))) (by simp)
  rw [e2] at e
  simp only [Option.bind_some, Option.map_eq_some_iff] at e
  obtain ⟨o, h4, h5⟩ := e
  obtain ⟨nodes', rfl, rfl⟩ := h5
  rw [show 2 * aabbs.length - 1 - aabbs.length = aabbs.length - 1 by omega] at h4
  obtain ⟨nodes, copy, aux, pe, tr, I', hf⟩ := loop_last (by omega) ht fuel _ _ _ _ _ _ _ I (by omega) _ h4
  rw [hlen] at hp I'
  exact ⟨sorted, nodes, copy, aux, pe, tr, hp, I', hf⟩

/-- In a finished build of at least three valid, finite boxes, no half area overflowed. -/
theorem success_scene {b : Builder F32} {order : List Nat} (h : b.Legal order) {t fuel : Nat} {bvh : Bvh F32}
    (h3 : 3 ≤ b.primitives.length) (hs : b.primitives.length ≤ 2 ^ 29) (ht : 0 < t)
    (hb : ∀ a ∈ b.boxes order, a.Valid ∧ a.min.Finite ∧ a.max.Finite)
    (e : b.constructLocb order t fuel = .ok (some (some bvh))) : ∃ w, LocScene w (b.boxes order) := by
  obtain ⟨sorted, nodes, copy, aux, pe, tr, hp, I, hf⟩ := constructLocb_main h h3 hs ht e
  have hlen := Builder.boxes_length h
  generalize hbb : b.boxes order = boxes at *
  have hnum : ∀ a ∈ boxes, a.Numeric := fun a ha => ⟨(hb a ha).1.num_left, (hb a ha).1.num_right⟩
  obtain ⟨nd1, g1, d1⟩ := I.dec 0 (by omega)
  obtain ⟨nd2, g2, d2⟩ := I.dec 1 (by omega)
  have l0 := locTree_bounds hnum _ (I.loc 0 (by omega))
  have l1 := locTree_bounds hnum _ (I.loc 1 (by omega))
  -- every padded box is finite and valid, so the clusters' boxes are
  have fin : ∀ T : BTree F32, LocTree sorted boxes T → T.bounds.min.Finite ∧ T.bounds.max.Finite ∧ T.bounds.Valid := by
    intro T hT
    induction T with
    | leaf bd f c =>
      obtain ⟨_, p, bb, _, h2, h3⟩ := hT
      obtain ⟨hv, ⟨f1, f2, f3⟩, f4, f5, f6⟩ := hb bb (List.mem_of_getElem? h2)
      simp only [BTree.bounds]
      rw [h3]
      have hpw := Aabb.within_offset_lit (a := bb) ⟨hv.num_left, hv.num_right⟩ (m := 1) (e := -4) (by decide) (by decide)
        (by decide) (by decide)
      exact ⟨⟨(f32_pad_fin f1).1, (f32_pad_fin f2).1, (f32_pad_fin f3).1⟩,
        ⟨(f32_pad_fin f4).2, (f32_pad_fin f5).2, (f32_pad_fin f6).2⟩, Vec3.Le.trans hpw.1 (Vec3.Le.trans hv hpw.2)⟩
    | node bd l r h1 h2 =>
      obtain ⟨h3, h4, h5⟩ := hT
      simp only [BTree.bounds]
      rw [h3]
      obtain ⟨a1, a2, a3⟩ := h1 h4
      obtain ⟨c1, c2, c3⟩ := h2 h5
      have na : l.bounds.Numeric := ⟨a3.num_left, a3.num_right⟩
      have nc : r.bounds.Numeric := ⟨c3.num_left, c3.num_right⟩
      have pick : ∀ {x y : F32}, Fin' x → Fin' y → Fin' (FloatOps.min x y) ∧ Fin' (FloatOps.max x y) := by
        intro x y hx hy
        constructor
        · rcases min_num (fin_num hx) (fin_num hy) with ⟨e, _⟩ | ⟨e, _⟩ <;> rw [e] <;> assumption
        · rcases max_num (fin_num hx) (fin_num hy) with ⟨e, _⟩ | ⟨e, _⟩ <;> rw [e] <;> assumption
      have hw := Aabb.within_unionOf_left nc na
      exact ⟨⟨(pick c1.1 a1.1).1, (pick c1.2.1 a1.2.1).1, (pick c1.2.2 a1.2.2).1⟩,
        ⟨(pick c2.1 a2.1).2, (pick c2.2.1 a2.2.1).2, (pick c2.2.2 a2.2.2).2⟩,
        Vec3.Le.trans hw.1 (Vec3.Le.trans c3 hw.2)⟩
  obtain ⟨m0, M0, v0⟩ := fin _ (I.loc 0 (by omega))
  obtain ⟨m1, M1, v1⟩ := fin _ (I.loc 1 (by omega))
  have n0 : (tr 0).bounds.Numeric := ⟨v0.num_left, v0.num_right⟩
  have n1 : (tr 1).bounds.Numeric := ⟨v1.num_left, v1.num_right⟩
  have w0 := Aabb.within_unionOf_left n0 n1
  have w1 := Aabb.within_unionOf_right n0 n1
  have pick : ∀ {x y : F32}, Fin' x → Fin' y → Fin' (FloatOps.min x y) ∧ Fin' (FloatOps.max x y) := by
    intro x y hx hy
    constructor
    · rcases min_num (fin_num hx) (fin_num hy) with ⟨e, _⟩ | ⟨e, _⟩ <;> rw [e] <;> assumption
    · rcases max_num (fin_num hx) (fin_num hy) with ⟨e, _⟩ | ⟨e, _⟩ <;> rw [e] <;> assumption
  refine ⟨(tr 0).bounds.unionOf (tr 1).bounds, areaOk_of_lt
    ⟨(pick m0.1 m1.1).1, (pick m0.2.1 m1.2.1).1, (pick m0.2.2 m1.2.2).1⟩
    ⟨(pick M0.1 M1.1).2, (pick M0.2.1 M1.2.1).2, (pick M0.2.2 M1.2.2).2⟩
    (Vec3.Le.trans w0.1 (Vec3.Le.trans v0 w0.2)) ?_, ?_⟩
  · have := found_lt hf
    have e : pd nodes 1 2 = ((tr 0).bounds.unionOf (tr 1).bounds).halfArea := by
      unfold pd pairDist
      rw [g1, g2, d1.bounds, d2.bounds]; rfl
    rwa [e] at this
  · intro a ha
    refine ⟨(hb a ha).1, ?_⟩
    obtain ⟨p, hp', hpa⟩ := List.mem_iff_getElem.1 ha
    have hmem : p ∈ sorted := hp.mem_iff.2 (List.mem_range.2 (by omega))
    obtain ⟨i, hi, hip⟩ := List.mem_iff_getElem.1 hmem
    have hil : i < b.primitives.length := by have := hp.length_eq; simp at this; omega
    have hr : ((i, 1) : Nat × Nat) ∈ ∑ k ∈ Finset.range 2, ((tr k).ranges : Multiset (Nat × Nat)) := by
      rw [I.ranges]
      simp only [Multiset.mem_coe, List.mem_map, List.mem_range]
      exact ⟨i, hil, rfl⟩
    rw [Finset.sum_range_succ, Finset.sum_range_succ, Finset.sum_range_zero, zero_add, Multiset.mem_add,
      Multiset.mem_coe, Multiset.mem_coe] at hr
    have hpad : padAt boxes p = a.offsetBy (lit 1 (-4)) := by
      unfold padAt boxAt
      rw [List.getD_eq_getElem?_getD, List.getElem?_eq_getElem hp', hpa]
      rfl
    have hin : ∀ T : BTree F32, (i, 1) ∈ T.ranges → p ∈ T.ids sorted := by
      intro T hT
      rw [ids_flatMap, List.mem_flatMap]
      refine ⟨(i, 1), hT, ?_⟩
      simp only [BTree.rangeIds]
      rw [List.drop_eq_getElem_cons hi, hip]
      simp
    rw [← hpad]
    rcases hr with hr | hr
    · exact (l0.1 p (hin _ hr)).trans w0
    · exact (l1.1 p (hin _ hr)).trans w1

/-- C10, exactly: three or more valid boxes with finite corners can be built (with enough rounds) if and only if, padded
by `1e-4`, they lie in a box whose half area does not overflow. -/
theorem C10_locb_completes_iff (b : Builder F32) (order : List Nat) (h : b.Legal order)
    (h3 : 3 ≤ b.primitives.length) (hs : b.primitives.length ≤ 2 ^ 29)
    (hb : ∀ a ∈ b.boxes order, a.Valid ∧ a.min.Finite ∧ a.max.Finite) (t : Nat) (ht : 0 < t) :
    (∃ fuel bvh, b.constructLocb order t fuel = .ok (some (some bvh))) ↔ ∃ w, LocScene w (b.boxes order) := by
  constructor
  · rintro ⟨fuel, bvh, e⟩
    exact success_scene h h3 hs ht hb e
  · rintro ⟨w, hw⟩
    obtain ⟨bvh, e⟩ := C10_locb_completes b order h w hw t (b.primitives.length - 1) ht (Nat.le_refl _)
    exact ⟨_, bvh, e⟩

/-- C72 for every finished build of three or more valid boxes with finite corners. -/
theorem C72_locb_rule_finished (b : Builder F32) (order : List Nat) (h : b.Legal order)
    (h3 : 3 ≤ b.primitives.length) (hs : b.primitives.length ≤ 2 ^ 29)
    (hb : ∀ a ∈ b.boxes order, a.Valid ∧ a.min.Finite ∧ a.max.Finite) (t fuel : Nat) (ht : 0 < t) (bvh : Bvh F32)
    (e : b.constructLocb order t fuel = .ok (some (some bvh))) :
    ∃ T, Unfolds bvh.nodes 0 T ∧
      StableSorted (b.primitives.map fun p => ((MortonEncoder.new (Aabb.unionOfList (b.boxes order))
        MortonEncoder.maxGridDim).encode p.center).toNat) bvh.indices ∧
      Clusters (startRow (b.boxes order) bvh.indices) T ∧
      ∀ T', Clusters (startRow (b.boxes order) bvh.indices) T' → T' = T := by
  obtain ⟨w, hw⟩ := success_scene h h3 hs ht hb e
  obtain ⟨bvh', T, e', h1⟩ := C72_locb_rule b order h w hw h3 t (fuel + b.primitives.length) ht (by omega)
  rw [C13_locb_rounds _ _ _ fuel _ (by rw [e]; simp), e] at e'
  cases e'
  exact ⟨T, h1⟩

/-- C87, clustering builder: whatever the input, a debug build that returns, returns what the release build returns; and
for valid boxes with finite corners the debug build returns whenever the release build does, so none of the three debug
assertions of the search can fail where the release build would have gone through. -/
theorem C87_locb_debug :
    (∀ (F : Type) [FloatOps F] (b : Builder F) (order : List Nat) (t fuel : Nat) (r : Option (Bvh F)),
      b.constructLocbD order t fuel = .ok (some r) → b.constructLocb order t fuel = .ok (some r)) ∧
    (∀ (b : Builder F32) (order : List Nat), b.Legal order → b.primitives.length ≤ 2 ^ 29 →
      (∀ a ∈ b.boxes order, a.Valid ∧ a.min.Finite ∧ a.max.Finite) → ∀ (t fuel : Nat) (bvh : Bvh F32), 0 < t →
      b.constructLocb order t fuel = .ok (some (some bvh)) → b.constructLocbD order t fuel = .ok (some (some bvh))) ∧
    (∀ (b : Builder F32) (order : List Nat), b.Legal order →
      (∀ a ∈ b.boxes order, a.Valid ∧ Moderate a.min ∧ Moderate a.max) → ∀ (t fuel : Nat), 0 < t →
      b.constructLocbD order t fuel = b.constructLocb order t fuel) := by
  have hM : Fin' (maxFinite : F32) := by unfold Fin'; decide +kernel
  have key : ∀ (b : Builder F32) (order : List Nat), b.Legal order → ∀ (w : Aabb F32), LocScene w (b.boxes order) →
      ∀ (t fuel : Nat), 0 < t → b.constructLocbD order t fuel = b.constructLocb order t fuel := by
    intro b order h w hw t fuel ht
    have hlen := Builder.boxes_length h
    unfold Builder.constructLocbD Builder.constructLocb
    rw [Builder.check_legal h]
    simp only
    rw [locbBuildD_eq hM hw ht (by rw [hlen]; simp) (by rw [hlen]; exact h.small)]
  refine ⟨?_, ?_, ?_⟩
  · intro F _ b order t fuel r e
    unfold Builder.constructLocbD at e
    unfold Builder.constructLocb
    split at e
    · cases e
    · rename_i aabbs hc
      rw [hc]
      injection e with e
      simp only
      rw [locbBuildD_sub e]
  · intro b order h hs hb t fuel bvh ht e
    by_cases h3 : 3 ≤ b.primitives.length
    · obtain ⟨w, hw⟩ := success_scene h h3 hs ht hb e
      rw [key b order h w hw t fuel ht, e]
    · have hlen := Builder.boxes_length h
      unfold Builder.constructLocb at e
      unfold Builder.constructLocbD
      rw [Builder.check_legal h] at e ⊢
      simp only at e ⊢
      rw [← e]
      unfold locbBuildD locbBuild
      simp only
      rw [if_pos (show (b.boxes order).length ≤ 2 by omega), if_pos (show (b.boxes order).length ≤ 2 by omega)]
  · intro b order h hb t fuel ht
    exact key b order h bigCube (moderate_scene _ hb) t fuel ht

/-- Non-vacuity: a legal scene of five boxes with moderate coordinates. -/
example : clusterScene.Legal (List.range 5) ∧
    (∀ a ∈ clusterScene.boxes (List.range 5), a.Valid ∧ a.min.Finite ∧ a.max.Finite) ∧
    (∃ bvh, clusterScene.constructLocbD (List.range 5) 4 4 = .ok (some (some bvh))) := by
  refine ⟨cubeScene_legal _ _ (by decide) (by decide), by unfold Aabb.Valid Vec3.Le Vec3.Finite Fin'; decide +kernel, ?_⟩
  have key : (match clusterScene.constructLocbD (List.range 5) 4 4 with | .ok (some (some _)) => true | _ => false) = true := by
    decide +kernel
  generalize clusterScene.constructLocbD (List.range 5) 4 4 = r at key
  split at key
  · exact ⟨_, rfl⟩
  · cases key

end Rtbvh
