import Verif.Proofs.LocbMain
import Verif.Proofs.Box
import Verif.Spec.Loc
/- Every clustering round merges a pair. -/
namespace Rtbvh
open FloatOps LawfulFloat
variable {F : Type} [FloatOps F] [LawfulFloat F]

theorem lt_le_trans' {a b c : F} (h : (a <. b) = true) (h' : (b <=. c) = true) : (a <. c) = true := by
  have h1 := lt_iff.1 h
  refine lt_iff.2 ⟨h1.1, (le_num h').2, ?_⟩
  cases hc : (c <=. a) with
  | false => rfl
  | true => rw [le_trans h' hc] at h1; exact absurd h1.2.2 (by simp)
theorem le_lt_trans' {a b c : F} (h : (a <=. b) = true) (h' : (b <. c) = true) : (a <. c) = true := by
  have h1 := lt_iff.1 h'
  refine lt_iff.2 ⟨(le_num h).1, h1.2.1, ?_⟩
  cases hc : (c <=. a) with
  | false => rfl
  | true => rw [le_trans hc h] at h1; exact absurd h1.2.2 (by simp)
theorem le_of_lt' {a b : F} (h : (a <. b) = true) : (a <=. b) = true := by
  have h1 := lt_iff.1 h
  rcases le_total h1.1 h1.2.1 with h | h
  · exact h
  · rw [h] at h1; exact absurd h1.2.2 (by simp)
theorem not_lt_self' {a b : F} (h : (a <. b) = true) (h' : (b <=. a) = true) : False := by
  have h1 := lt_iff.1 h
  rw [h'] at h1; exact absurd h1.2.2 (by simp)
theorem le_of_not_lt' {a b : F} (ha : Num a) (hb : Num b) (h : ¬ (a <. b) = true) : (b <=. a) = true := by
  cases hc : (b <=. a) with
  | true => rfl
  | false => exact absurd (lt_iff.2 ⟨ha, hb, hc⟩) h

/-- The fold over the candidates finds the first one of least distance. -/
theorem offers_best (l : List (Nat × F)) (best : Best F) (hb : Num best.distance) (hl : ∀ p ∈ l, Num p.2) :
    (l.foldl (fun best p => best.offer p.2 p.1) best = best ∧ ∀ q ∈ l, (best.distance <=. q.2) = true) ∨
    ∃ l1 p l2, l = l1 ++ p :: l2 ∧ l.foldl (fun best p => best.offer p.2 p.1) best = ⟨p.2, (p.1 : Int)⟩ ∧
      (p.2 <. best.distance) = true ∧ (∀ q ∈ l1, (p.2 <. q.2) = true) ∧ ∀ q ∈ l2, (p.2 <=. q.2) = true := by
  induction l generalizing best with
  | nil => exact .inl ⟨rfl, fun q hq => by cases hq⟩
  | cons a l ih =>
    have ha := hl a List.mem_cons_self
    have hl' : ∀ p ∈ l, Num p.2 := fun p hp => hl p (List.mem_cons_of_mem _ hp)
    simp only [List.foldl_cons]
    by_cases h : (a.2 <. best.distance) = true
    · have hof : best.offer a.2 a.1 = ⟨a.2, (a.1 : Int)⟩ := by unfold Best.offer; rw [if_pos h]
      rw [hof]
      rcases ih ⟨a.2, (a.1 : Int)⟩ ha hl' with ⟨h1, h2⟩ | ⟨l1, p, l2, h1, h2, h3, h4, h5⟩
      · exact .inr ⟨[], a, l, rfl, h1, h, by simp, h2⟩
      · refine .inr ⟨a :: l1, p, l2, by rw [h1]; rfl, h2, lt_le_trans' h3 (le_of_lt' h), ?_, h5⟩
        intro q hq
        rcases List.mem_cons.1 hq with rfl | hq
        · exact h3
        · exact h4 q hq
    · have hof : best.offer a.2 a.1 = best := by unfold Best.offer; rw [if_neg h]
      rw [hof]
      have hle := le_of_not_lt' ha hb h
      rcases ih best hb hl' with ⟨h1, h2⟩ | ⟨l1, p, l2, h1, h2, h3, h4, h5⟩
      · refine .inl ⟨h1, fun q hq => ?_⟩
        rcases List.mem_cons.1 hq with rfl | hq
        · exact hle
        · exact h2 q hq
      · refine .inr ⟨a :: l1, p, l2, by rw [h1]; rfl, h2, h3, ?_, h5⟩
        intro q hq
        rcases List.mem_cons.1 hq with rfl | hq
        · exact lt_le_trans' h3 hle
        · exact h4 q hq

/-- The symmetric distance the search works with. -/
def sd (input : List (BvhNode F)) (i j : Nat) : F := if i < j then pd input i j else pd input j i

omit [LawfulFloat F] in
theorem sd_comm (input : List (BvhNode F)) {i j : Nat} (h : i ≠ j) : sd input i j = sd input j i := by
  unfold sd
  rcases Nat.lt_or_gt_of_ne h with h | h
  · rw [if_pos h, if_neg (by omega)]
  · rw [if_neg (by omega), if_pos h]

/-- `j` is in the search window of `i`. -/
def InWindow (r b e i j : Nat) : Prop := b ≤ j ∧ j < e ∧ j ≠ i ∧ j ≤ i + r ∧ i ≤ j + r

omit [LawfulFloat F] in
theorem mem_candidates {r : Nat} {input : List (BvhNode F)} {b e i : Nat} (hb : b ≤ i) (he : i < e) (p : Nat × F) :
    p ∈ candidates r input b e i ↔ InWindow r b e i p.1 ∧ p.2 = sd input i p.1 := by
  have sb : (searchRange r i b e).1 = if i > b + r then i - r else b := rfl
  have se : (searchRange r i b e).2 = Min.min (i + r + 1) e := rfl
  unfold candidates InWindow
  rw [List.mem_append, List.mem_map, List.mem_map]
  constructor
  · rintro (⟨j, h1, rfl⟩ | ⟨j, h1, rfl⟩)
    · rw [List.mem_range'_1, sb] at h1
      simp only [sd]
      rw [if_neg (by split at h1 <;> omega)]
      exact ⟨by split at h1 <;> omega, rfl⟩
    · rw [List.mem_range'_1, se] at h1
      simp only [sd]
      rw [if_pos (by omega)]
      exact ⟨by omega, rfl⟩
  · rintro ⟨⟨h1, h2, h3, h4, h5⟩, h6⟩
    rcases Nat.lt_or_gt_of_ne h3 with h | h
    · left
      refine ⟨p.1, ?_, ?_⟩
      · rw [List.mem_range'_1, sb]; split <;> omega
      · apply Prod.ext
        · rfl
        · rw [h6]; unfold sd; rw [if_neg (by omega)]
    · right
      refine ⟨p.1, ?_, ?_⟩
      · rw [List.mem_range'_1, se]; omega
      · apply Prod.ext
        · rfl
        · rw [h6]; unfold sd; rw [if_pos h]

omit [LawfulFloat F] in
theorem candidates_sorted (r : Nat) (input : List (BvhNode F)) (b e i : Nat) :
    (candidates r input b e i).Pairwise fun p q => p.1 < q.1 := by
  have sb : (searchRange r i b e).1 = if i > b + r then i - r else b := rfl
  unfold candidates
  rw [List.pairwise_append]
  refine ⟨?_, ?_, ?_⟩
  · rw [List.pairwise_map]; exact List.pairwise_lt_range'
  · rw [List.pairwise_map]; exact List.pairwise_lt_range'
  · intro p hp q hq
    rw [List.mem_map] at hp hq
    obtain ⟨j, h1, rfl⟩ := hp
    obtain ⟨k, h2, rfl⟩ := hq
    rw [List.mem_range'_1] at h1 h2
    simp only
    omega

/-- The neighbour found for `i`: the lowest one of least distance. -/
theorem nb_spec {r : Nat} {input : List (BvhNode F)} {b e i : Nat} (hr : 1 ≤ r) (hb : b ≤ i) (he : i < e)
    (hc : b + 2 ≤ e) (hs : e ≤ 2 ^ 32)
    (hd : ∀ j, InWindow r b e i j → (sd input i j <. (maxFinite : F)) = true) :
    InWindow r b e i (nbOf r input b e i) ∧ ∀ j, InWindow r b e i j →
      (sd input i (nbOf r input b e i) <=. sd input i j) = true ∧
      (j < nbOf r input b e i → (sd input i (nbOf r input b e i) <. sd input i j) = true) := by
  have hnum : ∀ p ∈ candidates r input b e i, Num p.2 := by
    intro p hp
    obtain ⟨h1, h2⟩ := (mem_candidates hb he p).1 hp
    rw [h2]; exact (lt_iff.1 (hd _ h1)).1
  obtain ⟨j0, hj0⟩ : ∃ j, InWindow r b e i j := by
    by_cases h : i = b
    · exact ⟨b + 1, by omega, by omega, by omega, by omega, by omega⟩
    · exact ⟨i - 1, by omega, by omega, by omega, by omega, by omega⟩
  have hmax : Num (maxFinite : F) := (lt_iff.1 (hd j0 hj0)).2.1
  rcases offers_best (candidates r input b e i) ⟨maxFinite, -1⟩ hmax hnum with ⟨h1, h2⟩ | ⟨l1, p, l2, h1, h2, h3, h4, h5⟩
  · exact absurd (h2 (j0, sd input i j0) ((mem_candidates hb he _).2 ⟨hj0, rfl⟩)) (fun h => not_lt_self' (hd j0 hj0) h)
  · have hp : p ∈ candidates r input b e i := by rw [h1]; simp
    obtain ⟨w1, w2⟩ := (mem_candidates hb he p).1 hp
    have hnb : nbOf r input b e i = p.1 := by
      unfold nbOf bestOf
      rw [h2]
      simp only
      exact asU32_nat (by have := w1.2.1; omega)
    rw [hnb, ← w2]
    refine ⟨w1, fun j hj => ?_⟩
    have hm := (mem_candidates hb he (j, sd input i j)).2 ⟨hj, rfl⟩
    rw [h1] at hm
    have hsort := candidates_sorted r input b e i
    rw [h1, List.pairwise_append, List.pairwise_cons] at hsort
    rcases List.mem_append.1 hm with hm | hm
    · have := h4 _ hm
      exact ⟨le_of_lt' this, fun _ => this⟩
    · rcases List.mem_cons.1 hm with hm | hm
      · rw [← hm]
        exact ⟨le_refl (by have := hnum p hp; rwa [← hm] at this), fun h => by simp at h⟩
      · refine ⟨h5 _ hm, fun hlt => ?_⟩
        have := hsort.2.1.1 _ hm
        simp only at this
        omega

/-- First minimum of a list. -/
theorem exists_first_min {α : Type} (d : α → F) (l : List α) (hl : l ≠ []) (hn : ∀ a ∈ l, Num (d a)) :
    ∃ l1 p l2, l = l1 ++ p :: l2 ∧ (∀ q ∈ l1, (d p <. d q) = true) ∧ ∀ q ∈ l2, (d p <=. d q) = true := by
  induction l with
  | nil => exact absurd rfl hl
  | cons a l ih =>
    have ha := hn a List.mem_cons_self
    by_cases hl' : l = []
    · subst hl'
      exact ⟨[], a, [], rfl, by simp, by simp⟩
    · obtain ⟨l1, p, l2, h1, h2, h3⟩ := ih hl' (fun q hq => hn q (List.mem_cons_of_mem _ hq))
      have hp : Num (d p) := hn p (by rw [h1]; simp)
      by_cases h : (d p <. d a) = true
      · refine ⟨a :: l1, p, l2, by rw [h1]; rfl, ?_, h3⟩
        intro q hq
        rcases List.mem_cons.1 hq with rfl | hq
        · exact h
        · exact h2 q hq
      · have hle := le_of_not_lt' hp ha h
        refine ⟨[], a, l, rfl, fun q hq => (by cases hq), ?_⟩
        intro q hq
        rw [h1] at hq
        rcases List.mem_append.1 hq with hq | hq
        · exact le_trans hle (le_of_lt' (h2 q hq))
        · rcases List.mem_cons.1 hq with rfl | hq
          · exact hle
          · exact le_trans hle (h3 q hq)

/-- If all distances are numbers below `f32::MAX`, the round merges a pair. -/
theorem round_progress {r : Nat} {input : List (BvhNode F)} {b e : Nat} (hr : 1 ≤ r) (hc : b + 2 ≤ e)
    (hs : e ≤ 2 ^ 32)
    (hd : ∀ i j, b ≤ i → i < j → j < e → (pd input i j <. (maxFinite : F)) = true) :
    AllFound r input b e ∧ 0 < pairsOf r input b e := by
  have hd' : ∀ i, b ≤ i → i < e → ∀ j, InWindow r b e i j → (sd input i j <. (maxFinite : F)) = true := by
    intro i hb he j ⟨h1, h2, h3, _, _⟩
    unfold sd
    rcases Nat.lt_or_gt_of_ne h3 with h | h
    · rw [if_neg (by omega)]; exact hd j i h1 h he
    · rw [if_pos h]; exact hd i j hb h h2
  have nb := fun i hb he => nb_spec hr hb he hc hs (hd' i hb he)
  refine ⟨fun i hb he => ?_, ?_⟩
  · obtain ⟨⟨h1, h2, h3, _⟩, _⟩ := nb i hb he
    exact ⟨h1, h2, h3⟩
  · -- the first cluster of least distance to its neighbour
    obtain ⟨l1, i0, l2, h1, h2, h3⟩ := exists_first_min (fun i => sd input i (nbOf r input b e i))
      (List.range' b (e - b)) (by intro h; have := congrArg List.length h; simp at this; omega) (by
        intro i hi
        rw [List.mem_range'_1] at hi
        exact (lt_iff.1 (hd' i (by omega) (by omega) _ (nb i (by omega) (by omega)).1)).1)
    have hsort : (List.range' b (e - b)).Pairwise (· < ·) := List.pairwise_lt_range'
    rw [h1, List.pairwise_append, List.pairwise_cons] at hsort
    have hi0 : b ≤ i0 ∧ i0 < e := by
      have : i0 ∈ List.range' b (e - b) := by rw [h1]; simp
      rw [List.mem_range'_1] at this; omega
    have low : ∀ i, b ≤ i → i < e → i < i0 →
        (sd input i0 (nbOf r input b e i0) <. sd input i (nbOf r input b e i)) = true := by
      intro i hb he hlt
      have : i ∈ List.range' b (e - b) := by rw [List.mem_range'_1]; omega
      rw [h1] at this
      rcases List.mem_append.1 this with h | h
      · exact h2 i h
      · rcases List.mem_cons.1 h with h | h
        · omega
        · have := hsort.2.1.1 i h; omega
    have all : ∀ i, b ≤ i → i < e →
        (sd input i0 (nbOf r input b e i0) <=. sd input i (nbOf r input b e i)) = true := by
      intro i hb he
      have : i ∈ List.range' b (e - b) := by rw [List.mem_range'_1]; omega
      rw [h1] at this
      rcases List.mem_append.1 this with h | h
      · exact le_of_lt' (h2 i h)
      · rcases List.mem_cons.1 h with h | h
        · subst h
          exact le_refl (lt_iff.1 (hd' i hb he _ (nb i hb he).1)).1
        · exact h3 i h
    obtain ⟨wi, mi⟩ := nb i0 hi0.1 hi0.2
    generalize hj0 : nbOf r input b e i0 = j0 at wi mi low all
    obtain ⟨w1, w2, w3, w4, w5⟩ := wi
    obtain ⟨wj, mj⟩ := nb j0 w1 w2
    have hback : InWindow r b e j0 i0 := ⟨hi0.1, hi0.2, fun h => w3 h.symm, w5, w4⟩
    have hcomm := sd_comm input w3
    have hgt : i0 < j0 := by
      by_contra hn
      have hlt : j0 < i0 := by omega
      have a1 := low j0 w1 w2 hlt
      have a2 := (mj i0 hback).1
      rw [hcomm] at a2
      exact not_lt_self' a1 a2
    generalize hk : nbOf r input b e j0 = k at wj mj
    obtain ⟨v1, v2, v3, v4, v5⟩ := wj
    have hki : k = i0 := by
      by_contra hne
      rcases Nat.lt_or_gt_of_ne hne with hlt | hlt
      · have a1 := low k v1 v2 hlt
        have a2 := ((nb k v1 v2).2 j0 ⟨w1, w2, fun h => v3 h.symm, v5, v4⟩).1
        have a3 := (mj i0 hback).1
        rw [sd_comm input v3] at a2
        rw [hcomm] at a3
        exact not_lt_self' a1 (le_trans a2 a3)
      · have a1 := (mj i0 hback).2 hlt
        have a2 := all j0 w1 w2
        rw [hk] at a2
        rw [hcomm] at a1
        exact not_lt_self' a1 a2
    unfold pairsOf
    have hf : flag (fun k => nbOf r input b e (b + k) - b) (i0 - b) = true := by
      rw [flag_true]
      have e1 : b + (i0 - b) = i0 := by omega
      have e2 : b + (j0 - b) = j0 := by omega
      simp only [e1, hj0, e2, hk]
      omega
    have := cnt_lt hf (show i0 - b < e - b by omega)
    omega

/-- Boxes inside `w` with `min <= max`. -/
def InBox (w a : Aabb F) : Prop := a.Within w ∧ a.Valid

theorem InBox.union {w a b : Aabb F} (ha : InBox w a) (hb : InBox w b) : InBox w (a.unionOf b) := by
  refine ⟨Aabb.unionOf_within ha.1 hb.1, ?_⟩
  have h1 := Aabb.within_unionOf_left ha.1.num_left hb.1.num_left
  exact Vec3.Le.trans h1.1 (Vec3.Le.trans ha.2 h1.2)

theorem diff_facts {wl wh l h : F} (h1 : Fin' wl) (h2 : Fin' wh) (hw : Fin' (wh -. wl))
    (a : (wl <=. l) = true) (b : (l <=. h) = true) (c : (h <=. wh) = true) :
    Fin' (h -. l) ∧ (zero <=. h -. l) = true ∧ (h -. l <=. wh -. wl) = true := by
  have fl : Fin' l := fin_between h1 h2 a (le_trans b c)
  have fh : Fin' h := fin_between h1 h2 (le_trans a b) c
  have n1 : Num (h -. l) := sub_fin (fin_num fh) fl
  have n2 : Num (wh -. l) := sub_fin (fin_num h2) fl
  have e1 := sub_mono l c n1 n2
  have e2 := sub_anti wh a (fin_num hw) n2
  have e3 := le_trans e1 e2
  have e4 : (zero <=. h -. l) = true := sub_nonneg fl b
  exact ⟨fin_between (lit_fin (by decide) (by decide) (by decide)) hw e4 e3, e4, e3⟩

theorem mul_mono2 {a b c d : F} (ha : (zero <=. a) = true) (hb : (zero <=. b) = true)
    (h : (a <=. c) = true) (h' : (b <=. d) = true) (n1 : Num (a *. b)) (n2 : Num (c *. b)) (n3 : Num (c *. d)) :
    (a *. b <=. c *. d) = true := by
  have e1 := mul_mono hb h n1 n2
  have e2 : (b *. c <=. d *. c) = true := mul_mono (le_trans ha h) h' (by rw [LawfulFloat.mul_comm]; exact n2) (by rw [LawfulFloat.mul_comm]; exact n3)
  rw [LawfulFloat.mul_comm b c, LawfulFloat.mul_comm d c] at e2
  exact le_trans e1 e2

/-- Half areas grow with the box, in rounded arithmetic, as long as the differences do not overflow. -/
theorem halfArea_le {w a : Aabb F} (hmin : w.min.Finite) (hmax : w.max.Finite) (hdg : w.diagonal.Finite)
    (hsum : Fin' (w.diagonal.x +. w.diagonal.y)) (ha : InBox w a) : (a.halfArea <=. w.halfArea) = true := by
  obtain ⟨⟨⟨a1, a2, a3⟩, b1, b2, b3⟩, c1, c2, c3⟩ := ha
  obtain ⟨f1, f2, f3⟩ := hmin
  obtain ⟨g1, g2, g3⟩ := hmax
  obtain ⟨d1, d2, d3⟩ := hdg
  obtain ⟨x1, x2, x3⟩ := diff_facts f1 g1 d1 a1 c1 b1
  obtain ⟨y1, y2, y3⟩ := diff_facts f2 g2 d2 a2 c2 b2
  obtain ⟨z1, z2, z3⟩ := diff_facts f3 g3 d3 a3 c3 b3
  change Fin' ((w.max.x -. w.min.x) +. (w.max.y -. w.min.y)) at hsum
  show (((a.max.x -. a.min.x) +. (a.max.y -. a.min.y)) *. (a.max.z -. a.min.z) +.
    (a.max.x -. a.min.x) *. (a.max.y -. a.min.y) <=. ((w.max.x -. w.min.x) +. (w.max.y -. w.min.y)) *.
    (w.max.z -. w.min.z) +. (w.max.x -. w.min.x) *. (w.max.y -. w.min.y)) = true
  generalize a.max.x -. a.min.x = dx at *
  generalize a.max.y -. a.min.y = dy at *
  generalize a.max.z -. a.min.z = dz at *
  change Fin' (w.max.x -. w.min.x) at d1
  change Fin' (w.max.y -. w.min.y) at d2
  change Fin' (w.max.z -. w.min.z) at d3
  generalize w.max.x -. w.min.x = wx at *
  generalize w.max.y -. w.min.y = wy at *
  generalize w.max.z -. w.min.z = wz at *
  have hn1 : Num ((wx +. wy) *. wz) := mul_fin_fin hsum d3
  have hn2 : Num (wx *. wy) := mul_fin_fin d1 d2
  have s0 : (zero <=. dx +. dy) = true := add_nonneg x2 y2
  have s1 : (dx +. dy <=. wx +. wy) = true := by
    have e1 : (dx +. dy <=. wx +. dy) = true := add_mono dy x3 (add_fin (fin_num x1) y1) (add_fin (fin_num d1) y1)
    have e2 : (dy +. wx <=. wy +. wx) = true := add_mono wx y3 (add_fin (fin_num y1) d1) (add_fin (fin_num d2) d1)
    rw [add_comm dy wx, add_comm wy wx] at e2
    exact le_trans e1 e2
  have fs : Fin' (dx +. dy) := fin_between (lit_fin (m := 0) (e := 0) (by decide) (by decide) (by decide)) hsum s0 s1
  have p1 : ((dx +. dy) *. dz <=. (wx +. wy) *. wz) = true :=
    mul_mono2 s0 z2 s1 z3 (mul_fin_fin fs z1) (mul_fin_fin hsum z1) hn1
  have p2 : (dx *. dy <=. wx *. wy) = true := mul_mono2 x2 y2 x3 y3 (mul_fin_fin x1 y1) (mul_fin_fin d1 y1) hn2
  have q1 := mul_nonneg s0 z2 (mul_fin_fin fs z1)
  have q2 := mul_nonneg x2 y2 (mul_fin_fin x1 y1)
  have num : ∀ {u v : F}, (zero <=. u) = true → (zero <=. v) = true → Num (u +. v) :=
    fun hu hv => (le_num (add_nonneg hu hv)).2
  have e1 := add_mono (dx *. dy) p1 (num q1 q2) (num (le_trans q1 p1) q2)
  have e2 := add_mono ((wx +. wy) *. wz) p2 (num q2 (le_trans q1 p1)) (num (le_trans q2 p2) (le_trans q1 p1))
  rw [add_comm (dx *. dy) ((wx +. wy) *. wz), add_comm (wx *. wy) ((wx +. wy) *. wz)] at e2
  exact le_trans e1 e2

theorem halfArea_lt {w a : Aabb F} (hw : w.AreaOk) (ha : InBox w a) : (a.halfArea <. (maxFinite : F)) = true :=
  le_lt_trans' (halfArea_le hw.min hw.max hw.diagonal hw.sum ha) hw.area

/-- All boxes of a clustering tree stay in the scene box. -/
theorem locTree_inBox {w : Aabb F} {sorted : List Nat} {boxes : List (Aabb F)}
    (h : ∀ a ∈ boxes, InBox w (a.offsetBy (lit 1 (-4)))) (T : BTree F) (hT : LocTree sorted boxes T) :
    InBox w T.bounds := by
  induction T with
  | leaf bd f c =>
    obtain ⟨_, p, bb, _, h2, h3⟩ := hT
    simp only [BTree.bounds]
    rw [h3]
    exact h bb (List.mem_of_getElem? h2)
  | node bd l r h1 h2 =>
    obtain ⟨h3, h4, h5⟩ := hT
    simp only [BTree.bounds]
    rw [h3]
    exact (h2 h5).union (h1 h4)

theorem scene_inBox {w : Aabb F} {boxes : List (Aabb F)} (h : LocScene w boxes) :
    ∀ a ∈ boxes, InBox w (a.offsetBy (lit 1 (-4))) := by
  intro a ha
  obtain ⟨h1, h2⟩ := h.2 a ha
  have hp := Aabb.within_offset_lit (a := a) ⟨h1.num_left, h1.num_right⟩ (m := 1) (e := -4) (by decide) (by decide)
    (by decide) (by decide)
  exact ⟨h2, Vec3.Le.trans hp.1 (Vec3.Le.trans h1 hp.2)⟩

theorem inv_progress {w : Aabb F} {n : Nat} {sorted : List Nat} {boxes : List (Aabb F)}
    {nodes copy : List (BvhNode F)} {aux : List Nat} {b e pe : Nat} {tr : Nat → BTree F} (hs : LocScene w boxes)
    (hn : n ≤ 2 ^ 30) (I : LocInv n sorted boxes nodes copy aux b e pe tr) (hb : 0 < b) :
    AllFound 14 nodes b e ∧ 0 < pairsOf 14 nodes b e := by
  have h1 := I.count
  have h2 := I.le
  have h3 := I.peLe
  refine round_progress (by omega) (by omega) (by omega) ?_
  intro i j hi hij hj
  obtain ⟨nd1, g1, d1⟩ := I.dec (i - b) (by omega)
  obtain ⟨nd2, g2, d2⟩ := I.dec (j - b) (by omega)
  rw [show b + (i - b) = i by omega] at g1
  rw [show b + (j - b) = j by omega] at g2
  have p1 := locTree_inBox (scene_inBox hs) _ (I.loc (i - b) (by omega))
  have p2 := locTree_inBox (scene_inBox hs) _ (I.loc (j - b) (by omega))
  rw [d1.bounds] at p1
  rw [d2.bounds] at p2
  have : pd nodes i j = (nd1.bounds.unionOf nd2.bounds).halfArea := by
    unfold pd pairDist
    rw [g1, g2]; rfl
  rw [this]
  exact halfArea_lt hs.1 (InBox.union (a := nd1.bounds.clean) (b := nd2.bounds.clean) p1 p2)

end Rtbvh
