import Verif.Spec.SpatialRule
import Verif.Spec.Lawful
import Verif.Proofs.SpatialPure
/- The object cut of the spatial builder is the first one of least cost. -/
namespace Rtbvh
open FloatOps
variable {F : Type} [FloatOps F]

/-- The cut after `k` references as the builder's record. -/
def candidate (l : List (Ref F)) (a : Fin 3) (k : Nat) : ObjectSplit F :=
  ⟨objectCost l k, some k, a, boxFront (l.take k), boxBack (l.drop k)⟩

/-- Keep the cheaper one, the old one if neither is. -/
def pick (best c : ObjectSplit F) : ObjectSplit F := if c.cost <. best.cost then c else best

theorem accBoxes_head (l : List (Ref F)) : (accBoxes (l.map Ref.aabb)).headD Aabb.empty = boxBack l := by
  induction l with
  | nil => rfl
  | cons b l ih => simp only [List.map_cons, accBoxes, List.headD_cons, ih]; simp [boxBack]

theorem accBoxes_cons (b : Ref F) (l : List (Ref F)) :
    accBoxes ((b :: l).map Ref.aabb) = boxBack (b :: l) :: accBoxes (l.map Ref.aabb) := by
  simp only [List.map_cons, accBoxes, accBoxes_head]; simp [boxBack]

theorem boxFront_snoc (l : List (Ref F)) (b : Ref F) : boxFront (l ++ [b]) = (boxFront l).growBB b.aabb := by
  simp [boxFront]

theorem objectSweep_eq (axis : Fin 3) (l : List (Ref F)) : ∀ (rest pre : List (Ref F)) (best : ObjectSplit F), l = pre ++ rest →
    objectSweep axis l.length ((rest.map Ref.aabb).zip (accBoxes (rest.map Ref.aabb)).tail) pre.length (boxFront pre) best =
      ((List.range' (pre.length + 1) (rest.length - 1)).map (candidate l axis)).foldl pick best
  | [], pre, best, _ => rfl
  | [b], pre, best, _ => rfl
  | b :: c :: r, pre, best, e => by
    rw [accBoxes_cons, List.tail_cons, accBoxes_cons, List.map_cons, List.zip_cons_cons, objectSweep]
    have ih := objectSweep_eq axis l (c :: r) (pre ++ [b]) (pick best (candidate l axis (pre.length + 1)))
      (by simp [e])
    rw [accBoxes_cons, List.tail_cons, boxFront_snoc, List.length_append, List.length_singleton] at ih
    have hl : (b :: c :: r).length - 1 = ((c :: r).length - 1) + 1 := by simp
    rw [hl, List.range'_succ, List.map_cons (f := candidate l axis), List.foldl_cons, ← ih]
    congr 1
    unfold pick candidate objectCost
    have h1 : l.take (pre.length + 1) = pre ++ [b] := by
      rw [e, List.take_length_add_append]; simp
    have h2 : l.drop (pre.length + 1) = c :: r := by
      rw [e, List.drop_length_add_append]; simp
    simp only [h1, h2, boxFront_snoc]

theorem findObjectSplit_eq {view : RefView F} {n len : Nat} (hl : view.Len len) (hn : n ≤ len) :
    findObjectSplit view n = (((List.finRange 3).flatMap fun a =>
      (List.range' 1 (n - 1)).map (candidate ((view.get a).take n) a)).foldl pick ObjectSplit.default) := by
  have key : ∀ a best, objectSweep a n ((((view.get a).take n).map Ref.aabb).zip
      (accBoxes (((view.get a).take n).map Ref.aabb)).tail) 0 Aabb.empty best =
      ((List.range' 1 (n - 1)).map (candidate ((view.get a).take n) a)).foldl pick best := by
    intro a best
    have h := objectSweep_eq a ((view.get a).take n) ((view.get a).take n) [] best rfl
    have hlen : ((view.get a).take n).length = n := by rw [List.length_take, hl.get a]; omega
    rw [hlen] at h
    exact h
  unfold findObjectSplit
  simp only [key]
  have : List.finRange 3 = [0, 1, 2] := by decide
  rw [this]
  simp only [List.flatMap_cons, List.flatMap_nil, List.append_nil, List.foldl_append]

variable [LawfulFloat F]
open LawfulFloat

theorem lt_of_le_of_lt' {a b c : F} (h1 : (a <=. b) = true) (h2 : (b <. c) = true) : (a <. c) = true := by
  rw [lt_iff] at h2 ⊢
  refine ⟨(le_num h1).1, h2.2.1, ?_⟩
  cases e : (c <=. a) with
  | false => rfl
  | true => rw [le_trans e h1] at h2; exact absurd h2.2.2 (by simp)

theorem le_of_lt' {a b : F} (h : (a <. b) = true) : (a <=. b) = true := by
  rw [lt_iff] at h
  rcases le_total h.1 h.2.1 with h1 | h1
  · exact h1
  · rw [h1] at h; exact absurd h.2.2 (by simp)

theorem not_lt_self {a : F} : (a <. a) = false := by
  cases e : (a <. a) with
  | false => rfl
  | true => rw [lt_iff] at e; rw [le_refl e.1] at e; exact absurd e.2.2 (by simp)

/-- The fold keeps the first of the cheapest. -/
theorem pick_spec (l : List (ObjectSplit F)) : ∀ b : ObjectSplit F,
    (l.foldl pick b = b ∧ ∀ c ∈ l, (c.cost <. b.cost) = false) ∨
    ∃ l1 r l2, l = l1 ++ r :: l2 ∧ l.foldl pick b = r ∧ (r.cost <. b.cost) = true ∧
      (∀ c ∈ l1, (c.cost <=. r.cost) = false) ∧ ∀ c ∈ l2, (c.cost <. r.cost) = false := by
  induction l with
  | nil => intro b; exact .inl ⟨rfl, by simp⟩
  | cons c l ih =>
    intro b
    rw [List.foldl_cons]
    unfold pick
    cases e : (c.cost <. b.cost) with
    | true =>
      simp only [if_true]
      right
      rcases ih c with ⟨h1, h2⟩ | ⟨l1, r, l2, rfl, h1, h2, h3, h4⟩
      · exact ⟨[], c, l, rfl, h1, e, by simp, h2⟩
      · refine ⟨c :: l1, r, l2, rfl, h1, lt_of_le_of_lt' (le_of_lt' h2) e, ?_, h4⟩
        intro d hd
        rcases List.mem_cons.1 hd with rfl | hd
        · exact (lt_iff.1 h2).2.2
        · exact h3 d hd
    | false =>
      simp only [Bool.false_eq_true, if_false]
      rcases ih b with ⟨h1, h2⟩ | ⟨l1, r, l2, rfl, h1, h2, h3, h4⟩
      · left
        refine ⟨h1, ?_⟩
        intro d hd
        rcases List.mem_cons.1 hd with rfl | hd
        · exact e
        · exact h2 d hd
      · right
        refine ⟨c :: l1, r, l2, rfl, h1, h2, ?_, h4⟩
        intro d hd
        rcases List.mem_cons.1 hd with rfl | hd
        · cases e' : (d.cost <=. r.cost) with
          | false => rfl
          | true => rw [lt_of_le_of_lt' e' h2] at e; cases e
        · exact h3 d hd

omit [LawfulFloat F] in
/-- All cuts in the order they are looked at. -/
theorem mem_cuts {L : Fin 3 → List (Ref F)} {n : Nat} {c : ObjectSplit F} :
    c ∈ ((List.finRange 3).flatMap fun a => (List.range' 1 (n - 1)).map (candidate (L a) a)) ↔
      ∃ a k, 1 ≤ k ∧ k < n ∧ c = candidate (L a) a k := by
  simp only [List.mem_flatMap, List.mem_map, List.mem_range'_1, List.mem_finRange, true_and]
  constructor
  · rintro ⟨a, k, hk, rfl⟩; exact ⟨a, k, hk.1, by omega, rfl⟩
  · rintro ⟨a, k, h1, h2, rfl⟩; exact ⟨a, k, ⟨h1, by omega⟩, rfl⟩

omit [LawfulFloat F] in
/-- Earlier in the order means a smaller axis or fewer references on the left. -/
theorem cuts_sorted (L : Fin 3 → List (Ref F)) (n : Nat) :
    ((List.finRange 3).flatMap fun a => (List.range' 1 (n - 1)).map (candidate (L a) a)).Pairwise
      fun c c' => c.axis < c'.axis ∨ c.axis = c'.axis ∧ c.index.getD 0 < c'.index.getD 0 := by
  have one : ∀ a, ((List.range' 1 (n - 1)).map (candidate (L a) a)).Pairwise
      fun c c' => c.axis < c'.axis ∨ c.axis = c'.axis ∧ c.index.getD 0 < c'.index.getD 0 := by
    intro a
    rw [List.pairwise_map]
    exact (List.pairwise_lt_range' ..).imp fun h => .inr ⟨rfl, by simpa [candidate] using h⟩
  have : List.finRange 3 = [0, 1, 2] := by decide
  rw [this]
  simp only [List.flatMap_cons, List.flatMap_nil, List.append_nil, List.pairwise_append]
  refine ⟨one 0, ⟨one 1, one 2, ?_⟩, ?_⟩
  · intro c hc c' hc'
    obtain ⟨_, _, rfl⟩ := List.mem_map.1 hc
    obtain ⟨_, _, rfl⟩ := List.mem_map.1 hc'
    exact .inl (by simp [candidate])
  · intro c hc c' hc'
    obtain ⟨_, _, rfl⟩ := List.mem_map.1 hc
    rcases List.mem_append.1 hc' with hc' | hc'
    · obtain ⟨_, _, rfl⟩ := List.mem_map.1 hc'
      exact .inl (by simp [candidate])
    · obtain ⟨_, _, rfl⟩ := List.mem_map.1 hc'
      exact .inl (by simp [candidate])

/-- The best cut of the model's record. -/
def ObjectSplit.cut (o : ObjectSplit F) : Option (Fin 3 × Nat) := o.index.map fun k => (o.axis, k)

theorem findObjectSplit_best {view : RefView F} {n len : Nat} (hl : view.Len len) (hn : n ≤ len) :
    BestObject (fun a => (view.get a).take n) n (findObjectSplit view n).cut (findObjectSplit view n).cost ∧
    ((findObjectSplit view n).leftBox.shrink (findObjectSplit view n).rightBox).area =
      overlapOf (fun a => (view.get a).take n) (findObjectSplit view n).cut ∧
    ∀ k, (findObjectSplit view n).index = some k →
      (findObjectSplit view n).leftBox = boxFront (((view.get (findObjectSplit view n).axis).take n).take k) ∧
      (findObjectSplit view n).rightBox = boxBack (((view.get (findObjectSplit view n).axis).take n).drop k) := by
  rw [findObjectSplit_eq hl hn]
  have hs := cuts_sorted (fun a => (view.get a).take n) n
  have hm := fun c => mem_cuts (L := fun a => (view.get a).take n) (n := n) (c := c)
  generalize ((List.finRange 3).flatMap fun a => (List.range' 1 (n - 1)).map (candidate ((view.get a).take n) a)) = cuts at *
  rcases pick_spec cuts ObjectSplit.default with ⟨h1, h2⟩ | ⟨l1, r, l2, rfl, h1, h2, h3, h4⟩
  · rw [h1]
    refine ⟨⟨rfl, fun a k hk hk' => ?_⟩, rfl, fun k hk => by simp [ObjectSplit.default] at hk⟩
    exact h2 _ ((hm _).2 ⟨a, k, hk, hk', rfl⟩)
  · rw [h1]
    obtain ⟨a, k, hk, hk', rfl⟩ := (hm r).1 (by simp)
    refine ⟨⟨hk, hk', rfl, h2, fun a' k' hk1 hk2 => ?_⟩, rfl, ?_⟩
    · have hc := (hm (candidate ((view.get a').take n) a' k')).2 ⟨a', k', hk1, hk2, rfl⟩
      have hworse : ∀ c ∈ l1, (c.cost <. (candidate ((view.get a).take n) a k).cost) = false := by
        intro c hc
        cases e : (c.cost <. (candidate ((view.get a).take n) a k).cost) with
        | false => rfl
        | true => rw [← h3 c hc, le_of_lt' e]
      rw [List.pairwise_append, List.pairwise_cons] at hs
      rcases List.mem_append.1 hc with hc | hc
      · exact ⟨hworse _ hc, fun _ => h3 _ hc⟩
      · rcases List.mem_cons.1 hc with hc | hc
        · have e1 := congrArg ObjectSplit.axis hc
          have e2 := congrArg ObjectSplit.index hc
          simp only [candidate, Option.some.injEq] at e1 e2
          subst e1; subst e2
          exact ⟨not_lt_self, fun h => by
            rcases h with h | h
            · exact absurd h (Fin.lt_irrefl _)
            · exact absurd h.2 (Nat.lt_irrefl _)⟩
        · refine ⟨h4 _ hc, fun h => ?_⟩
          have := hs.2.1.1 _ hc
          simp only [candidate, Option.getD_some] at this
          exfalso
          change a' < a ∨ a' = a ∧ k' < k at h
          rcases this with t | ⟨t1, t2⟩ <;> rcases h with h | ⟨h5, h6⟩ <;> omega
    · intro k0 hk0
      simp only [candidate, Option.some.injEq] at hk0
      subst hk0
      exact ⟨rfl, rfl⟩

end Rtbvh
