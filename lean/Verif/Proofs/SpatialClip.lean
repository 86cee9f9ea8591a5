import Verif.Proofs.SpatialCut
/- Who gets which reference when the spatial builder cuts a node. -/
namespace Rtbvh
open FloatOps
variable {F : Type}

/-! ### Swapping and moving -/

theorem swapAt_up {α : Type} (X Y Z : List α) (a b : α) :
    swapAt (X ++ a :: (Y ++ b :: Z)) X.length (X.length + (Y.length + 1)) = some (X ++ b :: (Y ++ a :: Z)) := by
  unfold swapAt
  have h1 : (X ++ a :: (Y ++ b :: Z))[X.length]? = some a := by simp
  have h2 : (X ++ a :: (Y ++ b :: Z))[X.length + (Y.length + 1)]? = some b := by
    rw [List.getElem?_append_right (by omega)]
    simp [show X.length + (Y.length + 1) - X.length = Y.length + 1 by omega]
  rw [h1, h2]
  simp only [Option.some.injEq]
  rw [List.set_append_right _ _ (by omega), Nat.sub_self, List.set_cons_zero, List.set_append_right _ _ (by omega),
    show X.length + (Y.length + 1) - X.length = Y.length + 1 by omega, List.set_cons_succ,
    List.set_append_right _ _ (by omega), Nat.sub_self, List.set_cons_zero]

theorem swapAt_down {α : Type} (X Y Z : List α) (a b : α) :
    swapAt (X ++ a :: (Y ++ b :: Z)) (X.length + (Y.length + 1)) X.length = some (X ++ b :: (Y ++ a :: Z)) := by
  unfold swapAt
  have h1 : (X ++ a :: (Y ++ b :: Z))[X.length]? = some a := by simp
  have h2 : (X ++ a :: (Y ++ b :: Z))[X.length + (Y.length + 1)]? = some b := by
    rw [List.getElem?_append_right (by omega)]
    simp [show X.length + (Y.length + 1) - X.length = Y.length + 1 by omega]
  rw [h1, h2]
  simp only [Option.some.injEq]
  rw [List.set_append_right _ _ (by omega), show X.length + (Y.length + 1) - X.length = Y.length + 1 by omega,
    List.set_cons_succ, List.set_append_right _ _ (by omega), Nat.sub_self, List.set_cons_zero,
    List.set_append_right _ _ (by omega), Nat.sub_self, List.set_cons_zero]

theorem swapAt_self {α : Type} (X Z : List α) (a : α) : swapAt (X ++ a :: Z) X.length X.length = some (X ++ a :: Z) := by
  unfold swapAt
  have h1 : (X ++ a :: Z)[X.length]? = some a := by simp
  rw [h1]
  simp only [Option.some.injEq]
  rw [List.set_append_right _ _ (by omega), Nat.sub_self, List.set_cons_zero, List.set_append_right _ _ (by omega),
    Nat.sub_self, List.set_cons_zero]

theorem moveBackward_spec {α : Type} : ∀ (k : Nat) {l l' : List α} {first s : Nat},
    moveBackward l first k (first + k + s) = some l' → l'.length = l.length ∧ (0 < k → first + k + s ≤ l.length) ∧
      ∀ i, l'[i]? = if first + s ≤ i ∧ i < first + k + s then l[i - s]? else l[i]?
  | 0, l, l', first, s, h => by
    simp only [moveBackward, Option.some.injEq] at h
    subst h
    refine ⟨rfl, by omega, fun i => ?_⟩
    rw [if_neg (by omega)]
  | k + 1, l, l', first, s, h => by
    unfold moveBackward at h
    split at h
    · cases h
    · rename_i a ha
      split at h
      · rename_i hb
        have e : first + (k + 1) + s - 1 = first + k + s := by omega
        rw [e] at h hb
        obtain ⟨h1, h2, h3⟩ := moveBackward_spec k h
        rw [List.length_set] at h1
        refine ⟨h1, fun _ => by omega, fun i => ?_⟩
        rw [h3 i]
        by_cases c1 : first + s ≤ i ∧ i < first + k + s
        · rw [if_pos c1, if_pos (by omega), List.getElem?_set_ne (by omega)]
        · rw [if_neg c1]
          by_cases c2 : i = first + k + s
          · subst c2
            rw [List.getElem?_set_self hb.2, if_pos (by omega), show first + k + s - s = first + k by omega, ha]
          · rw [List.getElem?_set_ne (by omega), if_neg (by omega)]
      · cases h

variable [FloatOps F]

theorem refsBox_eq (l : List (Ref F)) : refsBox l = boxFront l := by
  unfold refsBox boxFront
  rw [List.foldl_map]

theorem leftSplitCount_eq (len : Nat) (r : SplitResult F) (h : r.stop ≤ len) :
    leftSplitCount len r = leftShare len r.mid r.stop r.leftBox r.rightBox := by
  unfold leftSplitCount leftShare
  by_cases e : len = r.stop
  · rw [if_pos e]; simp [e]
  · rw [if_neg e]
    simp only
    rw [if_neg (by omega)]

theorem shiftRight_spec {r : SplitResult F} {v : RefView F} (hm : r.mid ≤ r.stop) (hs : r.stop ≤ r.view.x.length)
    (hl : r.view.Len r.view.x.length) (h : shiftRight r = some v) (a : Fin 3) :
    Shifted r.mid r.stop (leftShare r.view.x.length r.mid r.stop r.leftBox r.rightBox) (r.view.get a) (v.get a) := by
  unfold shiftRight at h
  simp only at h
  rw [leftSplitCount_eq _ _ hs] at h
  generalize leftShare r.view.x.length r.mid r.stop r.leftBox r.rightBox = k at h
  split at h
  · rename_i hk
    cases h
    subst hk
    refine ⟨rfl, fun _ => by rw [hl.get a]; simpa using hs, fun i => ?_⟩
    simp
  · split at h
    · rename_i x y z hx hy hz
      cases h
      have e : r.stop + k = r.mid + (r.stop - r.mid) + k := by omega
      have key : ∀ {l l' : List (Ref F)}, moveBackward l r.mid (r.stop - r.mid) (r.stop + k) = some l' →
          Shifted r.mid r.stop k l l' := by
        intro l l' hh
        rw [e] at hh
        obtain ⟨h1, h2, h3⟩ := moveBackward_spec _ hh
        refine ⟨h1, fun hlt => ?_, fun i => ?_⟩
        · have := h2 (by omega); omega
        · rw [h3 i, show r.mid + (r.stop - r.mid) + k = r.stop + k by omega]
      match a with
      | 0 => exact key hx
      | 1 => exact key hy
      | 2 => exact key hz
    · cases h

/-! ### The object cut -/

theorem filter_perm_append {α : Type} (p : α → Bool) (l : List α) : l.Perm (l.filter p ++ l.filter fun x => !p x) := by
  induction l with
  | nil => exact .refl _
  | cons a l ih =>
    by_cases h : p a = true
    · simpa [h] using ih
    · simp only [Bool.not_eq_true] at h
      simp only [h, List.filter_cons, Bool.not_false, if_true, Bool.false_eq_true, if_false]
      exact (ih.cons a).trans List.perm_middle.symm

theorem applyObjectSplit_cut {M : Nat} {W : RefView F} {n s : Nat} {axis : Fin 3} {lb rb : Aabb F} {r : SplitResult F}
    (h : applyObjectSplit M W n s axis lb rb = some r) :
    ObjectCut W n axis s r ∧ r.leftBox = lb ∧ r.rightBox = rb := by
  unfold applyObjectSplit at h
  split at h
  · cases h
  · rename_i hs
    simp only [not_not] at hs
    split at h
    · cases h
    · simp only [Option.some.injEq] at h
      subst h
      refine ⟨⟨rfl, hs, rfl, ?_, fun b hb => ?_, rfl⟩, rfl, rfl⟩
      · simp only [RefView.get_ofFn, if_true]
      · simp only [RefView.get_ofFn, if_neg hb]
        have ht : ((W.get axis).take n).take s = (W.get axis).take s := by
          rw [List.take_take, Nat.min_eq_left (by omega)]
        simp only [ht]
        refine ⟨_, _, rfl, filter_perm_append _ _, List.filter_sublist, List.filter_sublist, ?_, ?_⟩
        · intro x hx
          have := (List.mem_filter.1 hx).2
          simpa [List.contains_iff_mem] using this
        · intro x hx
          have := (List.mem_filter.1 hx).2
          simp only [Bool.not_and, Bool.or_eq_true, Bool.not_eq_true', Bool.not_not, List.contains_iff_mem] at this
          rcases this with t | t
          · left
            intro hm
            rw [← List.contains_iff_mem, t] at hm
            cases hm
          · exact .inr t

/-! ### Clipping at a plane -/

/-- Entirely below the plane. -/
def Below (axis : Fin 3) (pos : F) (r : Ref F) : Prop := (r.aabb.max.get axis <=. pos) = true
/-- Entirely above the plane. -/
def Above (axis : Fin 3) (pos : F) (r : Ref F) : Prop :=
  (r.aabb.max.get axis <=. pos) = false ∧ (r.aabb.min.get axis >=. pos) = true
/-- On both sides of the plane. -/
def Across (axis : Fin 3) (pos : F) (r : Ref F) : Prop :=
  (r.aabb.max.get axis <=. pos) = false ∧ (r.aabb.min.get axis >=. pos) = false

theorem sidesLoop_spec {axis : Fin 3} {pos : F} : ∀ (k : Nat) {U A S H tl : List (Ref F)} {lb rb : Aabb F}
    {le rbeg : Nat} {refs : List (Ref F)} {lb2 rb2 : Aabb F}, U.length = k →
    sidesLoop axis pos k (A.length + S.length) A.length (A ++ (S ++ (U ++ (H ++ tl)))) lb rb =
      some (le, rbeg, refs, lb2, rb2) →
    (∀ r ∈ A, Below axis pos r) → (∀ r ∈ S, Across axis pos r) → (∀ r ∈ H, Above axis pos r) →
    lb = boxFront A → rb = boxFront H.reverse →
    ∃ A' S' H', refs = A' ++ (S' ++ (H' ++ tl)) ∧ le = A'.length ∧ rbeg = A'.length + S'.length ∧
      (A' ++ (S' ++ H')).Perm (A ++ (S ++ (U ++ H))) ∧ (∀ r ∈ A', Below axis pos r) ∧ (∀ r ∈ S', Across axis pos r) ∧
      (∀ r ∈ H', Above axis pos r) ∧ lb2 = boxFront A' ∧ rb2 = boxFront H'.reverse
  | 0, U, A, S, H, tl, lb, rb, le, rbeg, refs, lb2, rb2, hU, h, hA, hS, hH, h1, h2 => by
    have : U = [] := List.eq_nil_of_length_eq_zero hU
    subst this
    simp only [sidesLoop, Option.some.injEq, Prod.mk.injEq] at h
    obtain ⟨rfl, rfl, rfl, rfl, rfl⟩ := h
    exact ⟨A, S, H, by simp, rfl, rfl, by simp, hA, hS, hH, h1, h2⟩
  | k + 1, U, A, S, H, tl, lb, rb, le, rbeg, refs, lb2, rb2, hU, h, hA, hS, hH, h1, h2 => by
    match U, hU with
    | r :: U, hU =>
    simp only [List.length_cons, Nat.add_right_cancel_iff] at hU
    unfold sidesLoop at h
    have hget : (A ++ (S ++ (r :: U ++ (H ++ tl))))[A.length + S.length]? = some r := by
      rw [← List.append_assoc, List.getElem?_append_right (by simp)]; simp
    rw [hget] at h
    simp only at h
    split at h
    · rename_i hb
      have hA' : ∀ x ∈ A ++ [r], Below axis pos x := by
        intro x hx
        rcases List.mem_append.1 hx with hx | hx
        · exact hA x hx
        · rw [List.mem_singleton.1 hx]; exact hb
      have hbox : lb.growBB r.aabb = boxFront (A ++ [r]) := by rw [boxFront_snoc, h1]
      match S, hS with
      | [], _ =>
        have hsw : swapAt (A ++ ([] ++ (r :: U ++ (H ++ tl)))) (A.length + ([] : List (Ref F)).length) A.length =
            some (A ++ (r :: U ++ (H ++ tl))) := by
          simpa using swapAt_self A (U ++ (H ++ tl)) r
        rw [hsw] at h
        simp only at h
        have e1 : A.length + ([] : List (Ref F)).length + 1 = (A ++ [r]).length + ([] : List (Ref F)).length := by simp
        have e2 : A.length + 1 = (A ++ [r]).length := by simp
        have e3 : A ++ (r :: U ++ (H ++ tl)) = (A ++ [r]) ++ ([] ++ (U ++ (H ++ tl))) := by simp
        rw [e1, e2, e3] at h
        obtain ⟨A', S', H', a, b, c, d, e⟩ := sidesLoop_spec k hU h hA' (by simp) hH hbox h2
        exact ⟨A', S', H', a, b, c, by simpa using d, e⟩
      | s0 :: S, hS =>
        have hsw : swapAt (A ++ (s0 :: S ++ (r :: U ++ (H ++ tl)))) (A.length + (s0 :: S).length) A.length =
            some (A ++ r :: (S ++ s0 :: (U ++ (H ++ tl)))) := by
          simpa using swapAt_down A S (U ++ (H ++ tl)) s0 r
        rw [hsw] at h
        simp only at h
        have e1 : A.length + (s0 :: S).length + 1 = (A ++ [r]).length + (S ++ [s0]).length := by simp; omega
        have e2 : A.length + 1 = (A ++ [r]).length := by simp
        have e3 : A ++ r :: (S ++ s0 :: (U ++ (H ++ tl))) = (A ++ [r]) ++ ((S ++ [s0]) ++ (U ++ (H ++ tl))) := by simp
        rw [e1, e2, e3] at h
        have hS' : ∀ x ∈ S ++ [s0], Across axis pos x := by
          intro x hx
          rcases List.mem_append.1 hx with hx | hx
          · exact hS x (by simp [hx])
          · rw [List.mem_singleton.1 hx]; exact hS s0 (by simp)
        obtain ⟨A', S', H', a, b, c, d, e⟩ := sidesLoop_spec k hU h hA' hS' hH hbox h2
        refine ⟨A', S', H', a, b, c, d.trans ?_, e⟩
        simp only [List.append_assoc]
        refine List.Perm.append_left A ?_
        have p1 : ([r] ++ (S ++ ([s0] ++ (U ++ H)))).Perm (r :: s0 :: (S ++ (U ++ H))) := by
          simp only [List.singleton_append]
          exact (List.perm_middle).cons r
        refine p1.trans ?_
        have p2 : (s0 :: S ++ (r :: U ++ H)).Perm (r :: (s0 :: S ++ (U ++ H))) := by
          exact List.perm_middle
        exact p2.symm
    · rename_i hb
      simp only [Bool.not_eq_true] at hb
      split at h
      · rename_i hc
        have hH' : ∀ x ∈ r :: H, Above axis pos x := by
          intro x hx
          rcases List.mem_cons.1 hx with rfl | hx
          · exact ⟨hb, hc⟩
          · exact hH x hx
        have hbox : rb.growBB r.aabb = boxFront (r :: H).reverse := by
          rw [List.reverse_cons, boxFront_snoc, h2]
        rcases List.eq_nil_or_concat U with rfl | ⟨U', u, rfl⟩
        · simp only [List.length_nil] at hU
          subst hU
          have hsw : swapAt (A ++ (S ++ ([r] ++ (H ++ tl)))) (A.length + S.length) (A.length + S.length + 0) =
              some (A ++ (S ++ ([] ++ ((r :: H) ++ tl)))) := by
            have := swapAt_self (A ++ S) (H ++ tl) r
            simpa using this
          rw [hsw] at h
          obtain ⟨A', S', H', a, b, c, d, e⟩ := sidesLoop_spec 0 rfl h hA hS hH' h1 hbox
          exact ⟨A', S', H', a, b, c, by simpa using d, e⟩
        · have hk : k = U'.length + 1 := by rw [← hU]; simp
          have hsw : swapAt (A ++ (S ++ (r :: U'.concat u ++ (H ++ tl)))) (A.length + S.length) (A.length + S.length + k) =
              some (A ++ (S ++ ((u :: U') ++ ((r :: H) ++ tl)))) := by
            have := swapAt_up (A ++ S) U' (H ++ tl) r u
            rw [hk]
            simpa [List.concat_eq_append] using this
          rw [hsw] at h
          obtain ⟨A', S', H', a, b, c, d, e⟩ := sidesLoop_spec k (by simp [hk]) h hA hS hH' h1 hbox
          refine ⟨A', S', H', a, b, c, d.trans ?_, e⟩
          refine List.Perm.append_left A (List.Perm.append_left S ?_)
          simp only [List.concat_eq_append, List.cons_append, List.append_assoc, List.singleton_append]
          have p1 : (u :: (U' ++ r :: H)).Perm (u :: r :: (U' ++ H)) := List.perm_middle.cons u
          have p2 : (r :: (U' ++ (u :: ([] ++ H)))).Perm (r :: u :: (U' ++ H)) := List.perm_middle.cons r
          exact p1.trans ((List.Perm.swap r u _).trans p2.symm)
      · rename_i hc
        simp only [Bool.not_eq_true] at hc
        have hS' : ∀ x ∈ S ++ [r], Across axis pos x := by
          intro x hx
          rcases List.mem_append.1 hx with hx | hx
          · exact hS x hx
          · rw [List.mem_singleton.1 hx]; exact ⟨hb, hc⟩
        have e1 : A.length + S.length + 1 = A.length + (S ++ [r]).length := by simp; omega
        have e3 : A ++ (S ++ (r :: U ++ (H ++ tl))) = A ++ ((S ++ [r]) ++ (U ++ (H ++ tl))) := by simp
        rw [e1, e3] at h
        obtain ⟨A', S', H', a, b, c, d, e⟩ := sidesLoop_spec k hU h hA hS' hH h1 h2
        exact ⟨A', S', H', a, b, c, by simpa using d, e⟩

theorem straddleLoop_spec {prims : List (SpatialPrim F)} {axis : Fin 3} {pos : F} :
    ∀ (k : Nat) {U L R tl : List (Ref F)} {lb rb : Aabb F} {st : Straddle F}, U.length = k →
    straddleLoop prims axis pos k ⟨L.length, L.length + (U.length + R.length), L.length, R.length, L ++ (U ++ (R ++ tl)), lb, rb⟩ =
      some st → lb = boxFront L → (∃ R0 : List (Ref F), R0.Perm R ∧ rb = boxFront R0) →
    ∃ (L' R' wl wh : List (Ref F)) (cut : List (Ref F × Ref F × Ref F)),
      st.refs = L' ++ (R' ++ tl.drop cut.length) ∧ st.leftEnd = L'.length ∧ st.rightEnd = L'.length + R'.length ∧
      L'.Perm (L ++ (wl ++ cut.map fun c => c.2.1)) ∧ R'.Perm (R ++ (wh ++ cut.map fun c => c.2.2)) ∧
      U.Perm (wl ++ (wh ++ cut.map Prod.fst)) ∧
      (∀ c ∈ cut, lowPart prims axis pos c.1 c.2.1 ∧ highPart prims axis pos c.1 c.2.2) ∧
      cut.length = Min.min tl.length U.length ∧ (wl ≠ [] → L.length + wl.length ≤ R.length + wh.length) ∧
      (wh ≠ [] → R.length + wh.length ≤ L.length + wl.length + 1) ∧
      st.leftBox = boxFront L' ∧ ∃ R0 : List (Ref F), R0.Perm R' ∧ st.rightBox = boxFront R0
  | 0, U, L, R, tl, lb, rb, st, hU, h, h1, h2 => by
    have : U = [] := List.eq_nil_of_length_eq_zero hU
    subst this
    simp only [straddleLoop, Option.some.injEq] at h
    subst h
    exact ⟨L, R, [], [], [], by simp, rfl, by simp, by simp, by simp, by simp, by simp, by simp, by simp, by simp, h1, h2⟩
  | k + 1, U, L, R, tl, lb, rb, st, hU, h, h1, h2 => by
    match U, hU with
    | r :: U, hU =>
    simp only [List.length_cons, Nat.add_right_cancel_iff] at hU
    unfold straddleLoop at h
    have hget : (L ++ (r :: U ++ (R ++ tl)))[L.length]? = some r := by simp
    simp only [hget] at h
    split at h
    · cases h
    · rename_i p hp
      split at h
      · rename_i hroom
        match tl with
        | [] => exfalso; simp at hroom; omega
        | t :: tl =>
        obtain ⟨R0, hR0, rfl⟩ := h2
        generalize hlo : (⟨(p.split axis pos).1.shrink r.aabb, ((p.split axis pos).1.shrink r.aabb).center, r.primId⟩ : Ref F) = lo at h
        generalize hhi : (⟨(p.split axis pos).2.shrink r.aabb, ((p.split axis pos).2.shrink r.aabb).center, r.primId⟩ : Ref F) = hi at h
        have hset : ((L ++ (r :: U ++ (R ++ t :: tl))).set (L.length + ((r :: U).length + R.length)) hi).set L.length lo =
            (L ++ [lo]) ++ (U ++ ((R ++ [hi]) ++ tl)) := by
          have e : L ++ (r :: U ++ (R ++ t :: tl)) = L ++ (r :: (U ++ (R ++ t :: tl))) := by simp
          rw [e, List.set_append_right _ _ (by omega),
            show L.length + ((r :: U).length + R.length) - L.length = (U.length + R.length) + 1 by simp; omega,
            List.set_cons_succ, List.set_append_right (s := U) _ _ (by omega),
            show U.length + R.length - U.length = R.length by omega, List.set_append_right (s := R) _ _ (by omega), Nat.sub_self,
            List.set_cons_zero, List.set_append_right (s := L) _ _ (by omega), Nat.sub_self, List.set_cons_zero]
          simp
        rw [hset] at h
        have e1 : L.length + 1 = (L ++ [lo]).length := by simp
        have e2 : L.length + ((r :: U).length + R.length) + 1 = (L ++ [lo]).length + (U.length + (R ++ [hi]).length) := by
          simp; omega
        have e3 : R.length + 1 = (R ++ [hi]).length := by simp
        rw [e1, e2, e3] at h
        obtain ⟨L', R', wl, wh, cut, q1, q2, q3, q4, q5, q6, q7, q8, q9, q10, q11⟩ := straddleLoop_spec k hU h
          (by rw [boxFront_snoc, ← h1, ← hlo]) ⟨R0 ++ [hi], hR0.append_right _, by rw [boxFront_snoc, ← hhi]⟩
        refine ⟨L', R', wl, wh, (r, lo, hi) :: cut, by simpa using q1, q2, q3, ?_, ?_, ?_, ?_, ?_, ?_, ?_, q11⟩
        · refine q4.trans ?_
          simp only [List.append_assoc, List.map_cons, List.singleton_append]
          refine List.Perm.append_left L ?_
          exact List.perm_middle.symm
        · refine q5.trans ?_
          simp only [List.append_assoc, List.map_cons, List.singleton_append]
          refine List.Perm.append_left R ?_
          exact List.perm_middle.symm
        · simp only [List.map_cons]
          refine (q6.cons r).trans ?_
          rw [← List.append_assoc, ← List.append_assoc]
          exact List.perm_middle.symm
        · intro c hc
          rcases List.mem_cons.1 hc with rfl | hc
          · exact ⟨⟨p, hp, by simp [← hlo], by simp [← hlo], by simp [← hlo]⟩,
              ⟨p, hp, by simp [← hhi], by simp [← hhi], by simp [← hhi]⟩⟩
          · exact q7 c hc
        · simp only [List.length_cons, q8]; omega
        · intro hw; have := q9 hw; simp at this; omega
        · intro hw; have := q10 hw; simp at this; omega
      · rename_i hroom
        have htl : tl = [] := by
          cases tl with
          | nil => rfl
          | cons t tl => exfalso; apply hroom; simp; omega
        subst htl
        split at h
        · rename_i hlt
          have e1 : L.length + 1 = (L ++ [r]).length := by simp
          have e2 : L.length + ((r :: U).length + R.length) = (L ++ [r]).length + (U.length + R.length) := by simp; omega
          have e3 : L ++ (r :: U ++ (R ++ [])) = (L ++ [r]) ++ (U ++ (R ++ [])) := by simp
          rw [e1, e2, e3] at h
          obtain ⟨L', R', wl, wh, cut, q1, q2, q3, q4, q5, q6, q7, q8, q9, q10, q11⟩ := straddleLoop_spec k hU h
            (by rw [boxFront_snoc, ← h1]) h2
          refine ⟨L', R', r :: wl, wh, cut, q1, q2, q3, ?_, q5, ?_, q7, ?_, ?_, ?_, q11⟩
          · simpa using q4
          · simpa using q6.cons r
          · simp at q8 ⊢; exact q8
          · intro _
            simp only [List.length_cons]
            cases wl with
            | nil => simp only [List.length_nil]; omega
            | cons w wl => have := q9 (by simp); simp at this ⊢; omega
          · intro hw; have := q10 hw; simp at this ⊢; omega
        · rename_i hge
          obtain ⟨R0, hR0, rfl⟩ := h2
          have fin : ∀ {V : List (Ref F)}, V.Perm U → V.length = k →
              straddleLoop prims axis pos k ⟨L.length, L.length + (V.length + (r :: R).length), L.length, (r :: R).length,
                L ++ (V ++ ((r :: R) ++ [])), lb, (boxFront R0).growBB r.aabb⟩ = some st →
              ∃ (L' R' wl wh : List (Ref F)) (cut : List (Ref F × Ref F × Ref F)),
                st.refs = L' ++ (R' ++ ([] : List (Ref F)).drop cut.length) ∧ st.leftEnd = L'.length ∧
                st.rightEnd = L'.length + R'.length ∧
                L'.Perm (L ++ (wl ++ cut.map fun c => c.2.1)) ∧ R'.Perm (R ++ (wh ++ cut.map fun c => c.2.2)) ∧
                (r :: U).Perm (wl ++ (wh ++ cut.map Prod.fst)) ∧
                (∀ c ∈ cut, lowPart prims axis pos c.1 c.2.1 ∧ highPart prims axis pos c.1 c.2.2) ∧
                cut.length = Min.min ([] : List (Ref F)).length (r :: U).length ∧
                (wl ≠ [] → L.length + wl.length ≤ R.length + wh.length) ∧
                (wh ≠ [] → R.length + wh.length ≤ L.length + wl.length + 1) ∧
                st.leftBox = boxFront L' ∧ ∃ R0 : List (Ref F), R0.Perm R' ∧ st.rightBox = boxFront R0 := by
            intro V hV hVl h
            obtain ⟨L', R', wl, wh, cut, q1, q2, q3, q4, q5, q6, q7, q8, q9, q10, q11⟩ := straddleLoop_spec k hVl h h1
              ⟨R0 ++ [r], (hR0.append_right _).trans (by simpa using List.perm_append_comm (l₁ := R) (l₂ := [r])),
                by rw [boxFront_snoc]⟩
            refine ⟨L', R', wl, r :: wh, cut, q1, q2, q3, q4, ?_, ?_, q7, ?_, ?_, ?_, q11⟩
            · refine q5.trans ?_
              simp only [List.cons_append]
              exact List.perm_middle.symm
            · refine ((hV.symm.trans q6).cons r).trans ?_
              simp only [List.cons_append]
              exact List.perm_middle.symm
            · simp at q8 ⊢; exact q8
            · intro hw; have := q9 hw; simp at this ⊢; omega
            · intro _
              cases wh with
              | nil => simp only [List.length_cons, List.length_nil]; omega
              | cons w wh => have := q10 (by simp); simp at this ⊢; omega
          rcases List.eq_nil_or_concat U with rfl | ⟨U', u, rfl⟩
          · simp only [List.length_nil] at hU
            subst hU
            have hsw : swapAt (L ++ ([r] ++ (R ++ []))) (L.length + 0) L.length = some (L ++ ([] ++ ((r :: R) ++ []))) := by
              simpa using swapAt_self L R r
            rw [hsw] at h
            refine fin (V := []) (.refl _) rfl ?_
            convert h using 2
            simp; omega
          · have hk : k = U'.length + 1 := by rw [← hU]; simp
            have hsw : swapAt (L ++ (r :: U'.concat u ++ (R ++ []))) (L.length + k) L.length =
                some (L ++ ((u :: U') ++ ((r :: R) ++ []))) := by
              have := swapAt_down L U' R r u
              rw [hk]
              simpa [List.concat_eq_append] using this
            rw [hsw] at h
            refine fin (V := u :: U') ?_ (by simp [hk]) ?_
            · rw [List.concat_eq_append]
              simpa using (List.perm_append_comm (l₁ := U') (l₂ := [u])).symm
            · convert h using 2
              simp; omega


theorem applySpatialSplit_clip {ctx : SpatialCtx F} {W : RefView F} {begin n len : Nat} {plane : SpatialSplit F}
    {r : SplitResult F} (hl : W.Len len) (hn : n ≤ len) (h : applySpatialSplit ctx W begin n plane = some r) :
    ClipCut ctx W begin n plane r := by
  unfold applySpatialSplit at h
  split at h
  · cases h
  · rename_i le rbeg refs lb rb hsides
    have hU : ((W.get plane.axis).take n).length = n := by rw [List.length_take, hl.get]; omega
    obtain ⟨A, S, H, rfl, rfl, rfl, hperm, hA, hS, hH, rfl, rfl⟩ := sidesLoop_spec (axis := plane.axis)
      (pos := plane.position) n (U := (W.get plane.axis).take n) (A := []) (S := []) (H := [])
      (tl := (W.get plane.axis).drop n) hU (by simpa [boxFront] using hsides) (by simp) (by simp) (by simp) rfl rfl
    have htl : ((W.get plane.axis).drop n).length = len - n := by rw [List.length_drop, hl.get]
    have hlen : A.length + (S.length + H.length) = n := by
      have := hperm.length_eq
      simp only [List.length_append, List.length_nil, hU] at this
      omega
    have hx : W.x.length = len := hl.get 0
    have hdrop : ∀ k, ((W.get plane.axis).drop n).drop k = (W.get plane.axis).drop (n + k) := fun k => by
      rw [List.drop_drop]
    simp only [List.nil_append, List.append_nil] at hperm
    generalize htd : (W.get plane.axis).drop n = tl at *
    simp only at h
    by_cases hdeg : (A.length = 0 ∨ n - (A.length + S.length) = 0) ∧ A.length = A.length + S.length
    · rw [if_pos hdeg] at h
      have hS0 : S = [] := List.eq_nil_of_length_eq_zero (by omega)
      subst hS0
      simp only [List.nil_append, List.length_nil, Nat.add_zero, Nat.zero_add] at *
      have htake : (A ++ (H ++ tl)).take n = A ++ H := by
        rw [← List.append_assoc, List.take_left' (by simp; omega)]
      have hdropn : (A ++ (H ++ tl)).drop n = tl := by
        rw [← List.append_assoc, List.drop_left' (by simp; omega)]
      have hmem : ∀ x ∈ (W.get plane.axis).take n, x ∈ A ++ H := fun x hx => hperm.mem_iff.2 hx
      have fin : ∀ {mid : Nat}, mid ≤ n → 
          ((∀ x ∈ (W.get plane.axis).take n, (x.aabb.max.get plane.axis <=. plane.position) = true) ∧
            begin ≤ n / 2 ∧ mid = n / 2 - begin ∨
          (∀ x ∈ (W.get plane.axis).take n, (x.aabb.max.get plane.axis <=. plane.position) = false ∧
            (x.aabb.min.get plane.axis >=. plane.position) = true) ∧ mid = n / 2) →
          ClipCut ctx W begin n plane ⟨.ofFn fun a => if a = plane.axis then A ++ (H ++ tl) else
            (A ++ (H ++ tl)).take n ++ (W.get a).drop n, mid, n, refsBox ((A ++ (H ++ tl)).take mid),
            refsBox (((A ++ (H ++ tl)).take n).drop mid), false⟩ := by
        intro mid hmid hcase
        refine ⟨⟨hmid, by rw [hx]; exact hn⟩, .inr ⟨rfl, ?_, hcase⟩, ⟨(A ++ (H ++ tl)).take mid, ((A ++ (H ++ tl)).take n).drop mid,
          ?_, ?_, refsBox_eq _, refsBox_eq _⟩, fun b => ?_, rfl⟩
        · simp only [RefView.get_ofFn, if_true, htake]; exact hperm
        · simp only [RefView.get_ofFn, if_true]; exact .refl _
        · simp only [RefView.get_ofFn, if_true]; exact .refl _
        · simp only [RefView.get_ofFn, if_true]
          by_cases hb : b = plane.axis
          · subst hb
            rw [if_pos rfl, hdropn, htd]
            exact ⟨rfl, rfl⟩
          · rw [if_neg hb, htake]
            exact ⟨List.take_left' (by simp; omega), List.drop_left' (by simp; omega)⟩
      by_cases hpos : 0 < A.length
      · have hH0 : H = [] := List.eq_nil_of_length_eq_zero (by omega)
        have hAn : A.length = n := by rw [hH0] at hlen; simpa using hlen
        by_cases hpan : A.length / 2 < begin
        · rw [if_pos ⟨hpos, hpan⟩] at h; cases h
        · rw [if_neg (by omega), if_pos hpos] at h
          simp only [straddleLoop, Option.some.injEq] at h
          rw [← h]
          refine fin (by omega) (.inl ⟨fun x hx => ?_, by omega, by omega⟩)
          have := hmem x hx
          rw [hH0, List.append_nil] at this
          exact hA x this
      · have hA0 : A = [] := List.eq_nil_of_length_eq_zero (by omega)
        rw [if_neg (by omega), if_neg hpos] at h
        simp only [straddleLoop, Option.some.injEq] at h
        rw [← h]
        refine fin (by omega) (.inr ⟨fun x hx => ?_, by rw [hA0]; simp⟩)
        have := hmem x hx
        rw [hA0, List.nil_append] at this
        exact hH x this
    · rw [if_neg hdeg] at h
      split at h
      · cases h
      · rename_i st0 k0 hst0
        simp only [Option.some.injEq, Prod.mk.injEq] at hst0
        obtain ⟨rfl, rfl⟩ := hst0
        split at h
        · cases h
        · rename_i st hst
          simp only [Option.some.injEq] at h
          rw [← h]
          have e1 : A.length + S.length - A.length = S.length := by omega
          have e2 : n - (A.length + S.length) = H.length := by omega
          rw [e1, e2] at hst
          have e3 : (⟨A.length, n, A.length, H.length, A ++ (S ++ (H ++ tl)), boxFront A, boxFront H.reverse⟩ : Straddle F) =
              ⟨A.length, A.length + (S.length + H.length), A.length, H.length, A ++ (S ++ (H ++ tl)), boxFront A,
                boxFront H.reverse⟩ := by rw [hlen]
          rw [e3] at hst
          obtain ⟨L', R', wl, wh, cut, q1, q2, q3, q4, q5, q6, q7, q8, q9, q10, q11, R0, q12, q13⟩ :=
            straddleLoop_spec S.length rfl hst rfl ⟨H.reverse, List.reverse_perm _, rfl⟩
          have l4 := q4.length_eq
          have l5 := q5.length_eq
          have l6 := q6.length_eq
          simp only [List.length_append, List.length_map] at l4 l5 l6
          have hstop : L'.length + R'.length = n + cut.length := by omega
          have htakeL : st.refs.take st.leftEnd = L' := by rw [q1, q2]; exact List.take_left' rfl
          have htakeR : st.refs.take st.rightEnd = L' ++ R' := by
            rw [q1, q3, ← List.append_assoc]; exact List.take_left' (by simp)
          have hdropR : st.refs.drop st.rightEnd = tl.drop cut.length := by
            rw [q1, q3, ← List.append_assoc]; exact List.drop_left' (by simp)
          have hmidR : (st.refs.take st.rightEnd).drop st.leftEnd = R' := by
            rw [htakeR, q2]; exact List.drop_left' rfl
          refine ⟨⟨show st.leftEnd ≤ st.rightEnd by omega, show st.rightEnd ≤ W.x.length by omega⟩, .inl ⟨?_, ?_, A, H, wl, wh, cut, ?_, hA, hH, ?_, q7, ?_, q9, q10, ?_, ?_⟩,
            ⟨L', R0, ?_, ?_, q11, q13⟩, fun b => ?_, rfl⟩
          · intro hall
            refine hdeg ?_
            have hS0 : S = [] := List.eq_nil_iff_forall_not_mem.2 fun x hx => by
              have h1 := hall x (hperm.mem_iff.1 (by simp [hx]))
              rw [(hS x hx).1] at h1; cases h1
            have hH0 : H = [] := List.eq_nil_iff_forall_not_mem.2 fun x hx => by
              have h1 := hall x (hperm.mem_iff.1 (by simp [hx]))
              rw [(hH x hx).1] at h1; cases h1
            subst hS0 hH0
            simp only [List.length_nil] at *
            omega
          · intro hall
            refine hdeg ?_
            have hS0 : S = [] := List.eq_nil_iff_forall_not_mem.2 fun x hx => by
              have h1 := (hall x (hperm.mem_iff.1 (by simp [hx]))).2
              rw [(hS x hx).2] at h1; cases h1
            have hA0 : A = [] := List.eq_nil_iff_forall_not_mem.2 fun x hx => by
              have h1 := (hall x (hperm.mem_iff.1 (by simp [hx]))).1
              rw [hA x hx] at h1; cases h1
            subst hS0 hA0
            exact ⟨.inl rfl, rfl⟩
          · refine hperm.symm.trans ?_
            simp only [List.append_assoc]
            refine List.Perm.append_left A ?_
            exact List.perm_append_comm.trans (List.Perm.append_left H q6)
          · intro x hx
            exact hS x (q6.mem_iff.2 (by simpa using hx))
          · rw [q8, hx, ← htl]
            simp only [List.length_append, List.length_map]
            omega
          · simp only [RefView.get_ofFn, if_true, htakeL]
            simpa using q4
          · simp only [RefView.get_ofFn, if_true, hmidR]
            simpa using q5
          · simp only [RefView.get_ofFn, if_true, htakeL]; exact .refl _
          · simp only [RefView.get_ofFn, if_true, hmidR]; exact q12
          · simp only [RefView.get_ofFn, if_true]
            by_cases hb : b = plane.axis
            · subst hb
              rw [if_pos rfl, hdropR, hdrop, q3, hstop]
              exact ⟨rfl, rfl⟩
            · rw [if_neg hb]
              have hlen' : (st.refs.take st.rightEnd).length = st.rightEnd := by rw [htakeR, q3]; simp
              exact ⟨List.take_left' hlen', List.drop_left' hlen'⟩

end Rtbvh
