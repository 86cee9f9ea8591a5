import Verif.Spec.SpatialPlane
import Verif.Proofs.SpatialCut
/- The search for a clipping plane does what Spec/SpatialPlane says. -/
namespace Rtbvh
open FloatOps
variable {F : Type} [FloatOps F]

theorem map_modify {β : Type} (c j : Nat) (f : Nat → β) (h : β → β) :
    ((List.range c).map f).modify j h = (List.range c).map fun i => if i = j then h (f i) else f i := by
  apply List.ext_getElem?
  intro i
  rw [List.getElem?_modify]
  simp only [List.getElem?_map]
  by_cases hi : i < c
  · rw [List.getElem?_range hi]
    simp only [Option.map_some]
    by_cases e : j = i
    · subst e; simp
    · rw [if_neg (fun h => e h.symm)]
      show some (if j = i then h (f i) else f i) = _
      rw [if_neg e]
  · rw [List.getElem?_eq_none (by simpa using hi)]; rfl

theorem usable_eq (refs : List (Ref F)) : Slabs.usable refs = refs.takeWhile fun r => r.aabb.isValid := rfl

/-- What is left of a box after cutting at `k` planes, the first one after slab `j`. -/
def cutRest (split : F → Aabb F × Aabb F) (pl : Nat → F) (cur : Aabb F) (j : Nat) : Nat → Aabb F
  | 0 => cur
  | k + 1 => (cutRest split pl cur j k).shrink (split (pl (j + k + 1))).2

theorem cutRest_head (split : F → Aabb F × Aabb F) (pl : Nat → F) (cur : Aabb F) (j : Nat) : ∀ k,
    cutRest split pl (cur.shrink (split (pl (j + 1))).2) (j + 1) k = cutRest split pl cur j (k + 1)
  | 0 => rfl
  | k + 1 => by
    rw [cutRest, cutRest_head split pl cur j k, cutRest, show j + 1 + k + 1 = j + (k + 1) + 1 by omega]
    rfl

theorem clipLoop_eq (s : Slabs F) (split : Fin 3 → F → Aabb F × Aabb F) (c : Nat) :
    ∀ (k j : Nat) (cur : Aabb F) (f : Nat → SpatialBin F),
      clipLoop split s.axis s.start s.width k j cur ((List.range c).map f) =
        (cutRest (split s.axis) s.plane cur j k, (List.range c).map fun i =>
          if j ≤ i ∧ i < j + k then
            { f i with aabb := (f i).aabb.growBB ((split s.axis (s.plane (i + 1))).1.shrink
                (cutRest (split s.axis) s.plane cur j (i - j))) }
          else f i)
  | 0, j, cur, f => by
    rw [clipLoop, cutRest]
    congr 1
    apply List.map_congr_left
    intro i _
    rw [if_neg (by omega)]
  | k + 1, j, cur, f => by
    rw [clipLoop]
    simp only []
    rw [map_modify, clipLoop_eq s split c k (j + 1) _ _]
    rw [show s.start +. ofNat (j + 1) *. s.width = s.plane (j + 1) from rfl, cutRest_head]
    congr 1
    apply List.map_congr_left
    intro i _
    by_cases h1 : i = j
    · subst h1
      rw [if_neg (by omega), if_pos rfl, if_pos (by omega), Nat.sub_self]
      rfl
    · by_cases h2 : j + 1 ≤ i ∧ i < j + 1 + k
      · rw [if_pos h2, if_neg h1, if_pos (by omega), cutRest_head, show i - (j + 1) + 1 = i - j by omega]
      · rw [if_neg h2, if_neg h1, if_neg (by omega)]

namespace Slabs
variable {s : Slabs F} {prims : List (SpatialPrim F)}

theorem rest_eq {r : Ref F} {p : SpatialPrim F} (hp : prims[r.primId]? = some p) : ∀ k,
    s.rest prims r k = cutRest (p.split s.axis) s.plane r.aabb (s.first r) k
  | 0 => rfl
  | k + 1 => by rw [rest, cutRest, rest_eq hp k, cutAt, hp]

/-- A bin after some references: what the specification says, on top of what was there. -/
def binAfter (s : Slabs F) (prims : List (SpatialPrim F)) (f : Nat → SpatialBin F) (l : List (Ref F)) (j : Nat) :
    SpatialBin F :=
  { aabb := (l.filterMap fun r => s.part prims r j).foldl Aabb.growBB (f j).aabb
    entry := (f j).entry + (l.filter fun r => decide (s.first r = j)).length
    exit := (f j).exit + (l.filter fun r => decide (s.first r = j)).length }

theorem binRefs_eq {ctx : SpatialCtx F} (hc : s.count = ctx.binCount) (c : Nat) : ∀ (refs : List (Ref F)) (f : Nat → SpatialBin F),
    (∀ r ∈ usable refs, ¬ s.PanicsAt ctx.prims r) →
    binRefs ctx s.axis s.start s.width (one /. s.width) refs ((List.range c).map f) =
      some ((List.range c).map (s.binAfter ctx.prims f (usable refs)))
  | [], f, _ => by
    rw [binRefs]
    congr 2
  | r :: rs, f, hp => by
    rw [binRefs]
    have hfirst : spatialBinIndex ctx.binCount (one /. s.width) s.start (r.aabb.min.get s.axis) = s.first r := by
      rw [← hc]; rfl
    have hlast : spatialBinIndex ctx.binCount (one /. s.width) s.start (r.aabb.max.get s.axis) = s.last r := by
      rw [← hc]; rfl
    simp only [hfirst, hlast]
    cases hv : r.aabb.isValid with
    | false =>
      have : usable (r :: rs) = [] := by rw [usable_eq, List.takeWhile_cons, hv]; rfl
      rw [this]
      rfl
    | true =>
      have hu : usable (r :: rs) = r :: usable rs := by rw [usable_eq, List.takeWhile_cons, hv]; rfl
      rw [hu] at hp ⊢
      have h0 := hp r (List.mem_cons_self ..)
      have hle : s.first r ≤ s.last r := by
        by_cases h : s.last r < s.first r
        · exact absurd (.inl h) h0
        · omega
      simp only [Bool.not_true, Bool.false_eq_true, if_false]
      rw [if_neg (by omega)]
      -- the bins after this reference
      have step : ∀ g : Nat → SpatialBin F, (∀ j, g j = s.binAfter ctx.prims f [r] j) →
          binRefs ctx s.axis s.start s.width (one /. s.width) rs ((List.range c).map g) =
            some ((List.range c).map (s.binAfter ctx.prims f (r :: usable rs))) := by
        intro g hg
        rw [binRefs_eq hc c rs g fun r' h' => hp r' (List.mem_cons_of_mem _ h')]
        congr 1
        apply List.map_congr_left
        intro j _
        have : binAfter s ctx.prims f (r :: usable rs) j = binAfter s ctx.prims (binAfter s ctx.prims f [r]) (usable rs) j := by
          simp only [binAfter]
          rw [← List.singleton_append, List.filterMap_append, List.foldl_append, List.filter_append, List.length_append]
          simp only [Nat.add_assoc]
        rw [this]
        unfold binAfter
        simp only [hg]
        rfl
      by_cases he : s.first r = s.last r
      · simp only [if_pos he]
        rw [map_modify, map_modify]
        refine step _ fun j => ?_
        by_cases hj : j = s.last r
        · subst hj
          have hpart : s.part ctx.prims r (s.last r) = some r.aabb := by
            unfold part
            rw [if_neg (by omega), if_pos rfl, ← he, Nat.sub_self]; rfl
          simp only [binAfter, List.filterMap_cons, hpart, List.filterMap_nil, List.foldl_cons,
            List.foldl_nil, List.filter_cons, he, decide_true, if_true, List.filter_nil, List.length_singleton]
        · have hpart : s.part ctx.prims r j = none := by
            unfold part
            rw [if_pos (by omega)]
          have hd : decide (s.first r = j) = false := by rw [decide_eq_false_iff_not]; omega
          simp only [binAfter, if_neg hj, if_neg (show ¬ j = s.first r by omega), List.filterMap_cons, hpart,
            List.filterMap_nil, List.foldl_nil, List.filter_cons, hd, Bool.false_eq_true, if_false, List.filter_nil,
            List.length_nil, Nat.add_zero]
      · simp only [if_neg he]
        have hsome : ∃ p, ctx.prims[r.primId]? = some p := by
          cases hx : ctx.prims[r.primId]? with
          | some p => exact ⟨p, rfl⟩
          | none => exact absurd (.inr ⟨he, hx⟩) h0
        obtain ⟨p, hpm⟩ := hsome
        rw [hpm]
        simp only [Option.map_some]
        rw [clipLoop_eq s p.split c]
        simp only []
        rw [map_modify, map_modify]
        refine step _ fun j => ?_
        by_cases hj : j < s.first r ∨ s.last r < j
        · have hpart : s.part ctx.prims r j = none := by
            unfold part
            rw [if_pos hj]
          have hd : decide (s.first r = j) = false := by rw [decide_eq_false_iff_not]; omega
          simp only [binAfter, if_neg (show ¬ j = s.first r by omega), if_neg (show ¬ j = s.last r by omega),
            if_neg (show ¬ (s.first r ≤ j ∧ j < s.first r + (s.last r - s.first r)) by omega), List.filterMap_cons, hpart,
            List.filterMap_nil, List.foldl_nil, List.filter_cons, hd, Bool.false_eq_true, if_false, List.filter_nil,
            List.length_nil, Nat.add_zero]
        · by_cases hl : j = s.last r
          · subst hl
            have hpart : s.part ctx.prims r (s.last r) = some (cutRest (p.split s.axis) s.plane r.aabb (s.first r)
                (s.last r - s.first r)) := by
              unfold part
              rw [if_neg hj, if_pos rfl, rest_eq hpm]
            have hd : decide (s.first r = s.last r) = false := by rw [decide_eq_false_iff_not]; omega
            simp only [binAfter, if_neg (show ¬ s.last r = s.first r by omega), if_true,
              if_neg (show ¬ (s.first r ≤ s.last r ∧ s.last r < s.first r + (s.last r - s.first r)) by omega),
              List.filterMap_cons, hpart, List.filterMap_nil, List.foldl_cons, List.foldl_nil, List.filter_cons, hd,
              Bool.false_eq_true, if_false, List.filter_nil, List.length_nil, Nat.add_zero]
          · have hpart : s.part ctx.prims r j = some ((p.split s.axis (s.plane (j + 1))).1.shrink
                (cutRest (p.split s.axis) s.plane r.aabb (s.first r) (j - s.first r))) := by
              unfold part
              rw [if_neg hj, if_neg hl, rest_eq hpm, cutAt, hpm]
            have hin : s.first r ≤ j ∧ j < s.first r + (s.last r - s.first r) := by omega
            simp only [binAfter, if_neg hl, if_pos hin, List.filterMap_cons, hpart,
              List.filterMap_nil, List.foldl_cons, List.foldl_nil, List.filter_cons, List.filter_nil]
            by_cases hf : j = s.first r
            · have hd : decide (s.first r = j) = true := by rw [decide_eq_true_iff]; omega
              rw [if_pos hf]
              simp only [hd, if_true, List.length_singleton]
            · have hd : decide (s.first r = j) = false := by rw [decide_eq_false_iff_not]; omega
              rw [if_neg hf]
              simp only [hd, Bool.false_eq_true, if_false, List.length_nil, Nat.add_zero]

theorem binRefs_none {ctx : SpatialCtx F} (hc : s.count = ctx.binCount) : ∀ (refs : List (Ref F)) (bins : List (SpatialBin F)),
    binRefs ctx s.axis s.start s.width (one /. s.width) refs bins = none → ∃ r ∈ usable refs, s.PanicsAt ctx.prims r
  | [], bins, h => by simp [binRefs] at h
  | r :: rs, bins, h => by
    rw [binRefs] at h
    have hfirst : spatialBinIndex ctx.binCount (one /. s.width) s.start (r.aabb.min.get s.axis) = s.first r := by
      rw [← hc]; rfl
    have hlast : spatialBinIndex ctx.binCount (one /. s.width) s.start (r.aabb.max.get s.axis) = s.last r := by
      rw [← hc]; rfl
    simp only [hfirst, hlast] at h
    cases hv : r.aabb.isValid with
    | false => rw [hv] at h; simp at h
    | true =>
      have hu : usable (r :: rs) = r :: usable rs := by rw [usable_eq, List.takeWhile_cons, hv]; rfl
      rw [hu]
      rw [hv] at h
      simp only [Bool.not_true, Bool.false_eq_true, if_false] at h
      split at h
      · rename_i hlt
        exact ⟨r, List.mem_cons_self .., .inl hlt⟩
      · split at h
        · rename_i hr
          split at hr
          · cases hr
          · rename_i hne
            rw [Option.map_eq_none_iff] at hr
            exact ⟨r, List.mem_cons_self .., .inr ⟨hne, hr⟩⟩
        · obtain ⟨r', h1, h2⟩ := binRefs_none hc rs _ h
          exact ⟨r', List.mem_cons_of_mem _ h1, h2⟩

theorem binRefs_some {ctx : SpatialCtx F} (hc : s.count = ctx.binCount) : ∀ (refs : List (Ref F)) (bins res : List (SpatialBin F)),
    binRefs ctx s.axis s.start s.width (one /. s.width) refs bins = some res → ∀ r ∈ usable refs, ¬ s.PanicsAt ctx.prims r
  | [], bins, res, h => by intro r hr; cases hr
  | r :: rs, bins, res, h => by
    rw [binRefs] at h
    have hfirst : spatialBinIndex ctx.binCount (one /. s.width) s.start (r.aabb.min.get s.axis) = s.first r := by
      rw [← hc]; rfl
    have hlast : spatialBinIndex ctx.binCount (one /. s.width) s.start (r.aabb.max.get s.axis) = s.last r := by
      rw [← hc]; rfl
    simp only [hfirst, hlast] at h
    cases hv : r.aabb.isValid with
    | false =>
      have : usable (r :: rs) = [] := by rw [usable_eq, List.takeWhile_cons, hv]; rfl
      rw [this]
      intro r hr; cases hr
    | true =>
      have hu : usable (r :: rs) = r :: usable rs := by rw [usable_eq, List.takeWhile_cons, hv]; rfl
      rw [hu]
      rw [hv] at h
      simp only [Bool.not_true, Bool.false_eq_true, if_false] at h
      split at h
      · cases h
      · rename_i hlt
        split at h
        · cases h
        · rename_i cur bins' hr
          have ih := binRefs_some hc rs _ _ h
          intro r' hr'
          rcases List.mem_cons.1 hr' with rfl | hr'
          · rintro (h1 | ⟨h1, h2⟩)
            · exact hlt h1
            · rw [if_neg h1, h2] at hr; cases hr
          · exact ih r' hr'

variable (s prims)

theorem acc_eq (refs : List (Ref F)) (c : Nat) (hc : s.count = c) :
    accBoxes ((List.range c).map (s.slabBox prims refs)) = (List.range c).map (s.boxFrom prims refs) := by
  subst hc
  have key : ∀ k j, j + k = s.count → accBoxes ((List.range' j k).map (s.slabBox prims refs)) =
      (List.range' j k).map (s.boxFrom prims refs) := by
    intro k
    induction k with
    | zero => intro j _; rfl
    | succ k ih =>
      intro j hj
      rw [List.range'_succ, List.map_cons, List.map_cons, accBoxes, ih (j + 1) (by omega)]
      congr 1
      have h1 : s.boxFrom prims refs j = (s.boxFrom prims refs (j + 1)).growBB (s.slabBox prims refs j) := by
        unfold boxFrom
        rw [show s.count - j = (s.count - (j + 1)) + 1 by omega, List.range'_succ, List.foldr_cons]
      rw [h1]
      congr 1
      cases k with
      | zero =>
        unfold boxFrom
        rw [show s.count - (j + 1) = 0 by omega]; rfl
      | succ k => rw [List.range'_succ]; rfl
  rw [List.range_eq_range']
  exact key s.count 0 (by omega)

variable [LawfulFloat F]
open LawfulFloat

/-- The sweep over the candidate planes, from plane `i` on. -/
theorem sweep_eq (refs : List (Ref F)) (cost : Nat → F) (lc : Nat → Nat) (cur : Nat → Aabb F) (n m : Nat)
    (L : List (SpatialBin F × Aabb F)) (hm : L.length = m)
    (hlc : ∀ i b nb, L[i]? = some (b, nb) → lc (i + 1) = lc i + b.entry ∧ b.exit = b.entry)
    (hcur : ∀ i b nb, L[i]? = some (b, nb) → cur (i + 1) = (cur i).growBB b.aabb)
    (hcost : ∀ i b nb, L[i]? = some (b, nb) →
      cost i = ofNat (lc (i + 1)) *. (cur (i + 1)).halfArea +. ofNat (n - lc (i + 1)) *. nb.halfArea) :
    ∀ k i, i + k = m → ∀ best : SpatialSplit F × Bool,
      let r := spatialSweep s.axis s.start s.width (L.drop i) i (lc i) (n - lc i) (cur i) best
      (r = best ∧ ∀ j, i ≤ j → j < m → (cost j <. best.1.cost) = false) ∨
        ∃ j, i ≤ j ∧ j < m ∧ r = (⟨cost j, s.plane (j + 1), s.axis⟩, true) ∧ (cost j <. best.1.cost) = true ∧
          (∀ j', i ≤ j' → j' < m → (cost j' <. cost j) = false) ∧
          ∀ j', i ≤ j' → j' < j → (cost j' <=. cost j) = false := by
  intro k
  induction k with
  | zero =>
    intro i hi best
    rw [List.drop_eq_nil_of_le (by omega)]
    exact .inl ⟨rfl, fun j h1 h2 => by omega⟩
  | succ k ih =>
    intro i hi best
    have hlt : i < L.length := by omega
    obtain ⟨b, nb, hL⟩ : ∃ b nb, L[i]? = some (b, nb) := ⟨_, _, List.getElem?_eq_getElem hlt⟩
    have hd : L.drop i = (b, nb) :: L.drop (i + 1) := by
      rw [List.drop_eq_getElem_cons hlt]
      rw [List.getElem?_eq_getElem hlt, Option.some.injEq] at hL
      rw [hL]
    obtain ⟨e1, e2⟩ := hlc i b nb hL
    have e3 := hcur i b nb hL
    have e4 := hcost i b nb hL
    have step : spatialSweep s.axis s.start s.width (L.drop i) i (lc i) (n - lc i) (cur i) best =
        spatialSweep s.axis s.start s.width (L.drop (i + 1)) (i + 1) (lc (i + 1)) (n - lc (i + 1)) (cur (i + 1))
          (if cost i <. best.1.cost then (⟨cost i, s.plane (i + 1), s.axis⟩, true) else best) := by
      rw [hd, spatialSweep]
      rw [e2, show n - lc i - b.entry = n - lc (i + 1) by omega, ← e1, ← e3, ← e4]
      rfl
    simp only [step]
    cases hb : (cost i <. best.1.cost) with
    | true =>
      rw [if_pos rfl]
      rcases ih (i + 1) (by omega) (⟨cost i, s.plane (i + 1), s.axis⟩, true) with ⟨h1, h2⟩ | ⟨j, h1, h2, h3, h4, h5, h6⟩
      · refine .inr ⟨i, by omega, by omega, h1, hb, fun j' g1 g2 => ?_, fun j' g1 g2 => by omega⟩
        by_cases he : j' = i
        · subst he
          cases e : (cost j' <. cost j') with
          | false => rfl
          | true =>
            rw [lt_iff] at e
            rw [le_refl e.1] at e
            exact absurd e.2.2 (by simp)
        · exact h2 j' (by omega) g2
      · have q : (cost i <=. cost j) = false := by
          rw [lt_iff] at h4
          exact h4.2.2
        refine .inr ⟨j, by omega, h2, h3, lt_of_le_of_lt' (le_of_lt' h4) hb, fun j' g1 g2 => ?_, fun j' g1 g2 => ?_⟩
        · by_cases he : j' = i
          · subst he
            cases e : (cost j' <. cost j) with
            | false => rfl
            | true => rw [le_of_lt' e] at q; cases q
          · exact h5 j' (by omega) g2
        · by_cases he : j' = i
          · subst he; exact q
          · exact h6 j' (by omega) g2
    | false =>
      rw [if_neg (by simp)]
      rcases ih (i + 1) (by omega) best with ⟨h1, h2⟩ | ⟨j, h1, h2, h3, h4, h5, h6⟩
      · refine .inl ⟨h1, fun j' g1 g2 => ?_⟩
        by_cases he : j' = i
        · subst he; exact hb
        · exact h2 j' (by omega) g2
      · have q : (cost i <=. cost j) = false := by
          cases e : (cost i <=. cost j) with
          | false => rfl
          | true => rw [lt_of_le_of_lt' e h4] at hb; cases hb
        refine .inr ⟨j, by omega, h2, h3, h4, fun j' g1 g2 => ?_, fun j' g1 g2 => ?_⟩
        · by_cases he : j' = i
          · subst he
            cases e : (cost j' <. cost j) with
            | false => rfl
            | true => rw [le_of_lt' e] at q; cases q
          · exact h5 j' (by omega) g2
        · by_cases he : j' = i
          · subst he; exact q
          · exact h6 j' (by omega) g2

omit [FloatOps F] [LawfulFloat F] in
theorem filter_split (l : List (Ref F)) (g : Ref F → Nat) (i : Nat) :
    (l.filter fun r => decide (g r < i + 1)).length =
      (l.filter fun r => decide (g r < i)).length + (l.filter fun r => decide (g r = i)).length := by
  induction l with
  | nil => rfl
  | cons a l ih =>
    simp only [List.filter_cons]
    rcases Nat.lt_trichotomy (g a) i with h | h | h
    · simp only [show (g a < i + 1) = True by simp; omega, show (g a < i) = True by simp; omega, show (g a = i) = False by simp; omega,
        decide_true, decide_false, if_true, Bool.false_eq_true, if_false, List.length_cons]
      omega
    · simp only [show (g a < i + 1) = True by simp; omega, show (g a < i) = False by simp; omega, show (g a = i) = True by simp; omega,
        decide_true, decide_false, if_true, Bool.false_eq_true, if_false, List.length_cons]
      omega
    · simp only [show (g a < i + 1) = False by simp; omega, show (g a < i) = False by simp; omega, show (g a = i) = False by simp; omega,
        decide_false, Bool.false_eq_true, if_false]
      omega

/-- A pass finds what the specification says. -/
theorem pass_spec {ctx : SpatialCtx F} {refs : List (Ref F)} {best new : SpatialSplit F} {axis : Fin 3} {lo hi : F}
    {next : Option (F × F)} (h : runBinningPass ctx refs best axis lo hi = some (new, next)) :
    (∀ r ∈ usable refs, ¬ (of axis ctx.binCount lo hi).PanicsAt ctx.prims r) ∧
    ((next = none ∧ new = best ∧ (of axis ctx.binCount lo hi).Keeps ctx.prims refs best) ∨
      ((of axis ctx.binCount lo hi).Improves ctx.prims refs best new ∧
        next = some (new.position -. (of axis ctx.binCount lo hi).width,
          new.position +. (of axis ctx.binCount lo hi).width))) := by
  let s := of axis ctx.binCount lo hi
  unfold runBinningPass at h
  simp only [] at h
  cases hb : binRefs ctx axis lo ((hi -. lo) /. ofNat ctx.binCount) (one /. ((hi -. lo) /. ofNat ctx.binCount)) refs
      (List.replicate ctx.binCount ⟨Aabb.empty, 0, 0⟩) with
  | none => rw [hb] at h; cases h
  | some bins =>
    rw [hb] at h
    simp only [Option.some.injEq, Prod.mk.injEq] at h
    have hp := binRefs_some (s := s) rfl refs _ _ hb
    refine ⟨hp, ?_⟩
    have hrep : List.replicate ctx.binCount (⟨Aabb.empty, 0, 0⟩ : SpatialBin F) =
        (List.range ctx.binCount).map fun _ => ⟨Aabb.empty, 0, 0⟩ := by
      apply List.ext_getElem <;> simp
    have hbins : bins = (List.range ctx.binCount).map (s.binAfter ctx.prims (fun _ => ⟨Aabb.empty, 0, 0⟩) (usable refs)) := by
      have := binRefs_eq (s := s) rfl ctx.binCount refs (fun _ => ⟨Aabb.empty, 0, 0⟩) hp
      rw [← hrep] at this
      exact Option.some.inj (hb.symm.trans this)
    have hacc : accBoxes (bins.map SpatialBin.aabb) = (List.range ctx.binCount).map (s.boxFrom ctx.prims refs) := by
      rw [hbins, List.map_map]
      exact acc_eq s ctx.prims refs ctx.binCount rfl
    rw [hacc] at h
    -- the pairs the sweep runs over
    let cnt : Nat → Nat := fun j => ((usable refs).filter fun r => decide (s.first r = j)).length
    have hz : bins.zipWith (fun b a => ({ b with aabb := a } : SpatialBin F)) ((List.range ctx.binCount).map (s.boxFrom ctx.prims refs)) =
        (List.range ctx.binCount).map fun j => (⟨s.boxFrom ctx.prims refs j, cnt j, cnt j⟩ : SpatialBin F) := by
      rw [hbins, List.zipWith_map, List.zipWith_self]
      apply List.map_congr_left
      intro j _
      simp only [binAfter, Nat.zero_add, cnt]
    rw [hz] at h
    let L := ((List.range ctx.binCount).map fun j => (⟨s.boxFrom ctx.prims refs j, cnt j, cnt j⟩ : SpatialBin F)).zip
      ((List.range ctx.binCount).map (s.boxFrom ctx.prims refs)).tail
    have hlen : L.length = ctx.binCount - 1 := by simp [L]
    have hget : ∀ i b nb, L[i]? = some (b, nb) → i < ctx.binCount - 1 ∧
        b = ⟨s.boxFrom ctx.prims refs i, cnt i, cnt i⟩ ∧ nb = s.boxFrom ctx.prims refs (i + 1) := by
      intro i b nb hi
      have hlt : i < ctx.binCount - 1 := by
        have := (List.getElem?_eq_some_iff.1 hi).1
        omega
      simp only [L, List.getElem?_zip_eq_some, List.getElem?_tail, List.getElem?_map] at hi
      rw [List.getElem?_range (by omega), List.getElem?_range (by omega)] at hi
      simp only [Option.map_some, Option.some.injEq] at hi
      exact ⟨hlt, hi.1.symm, hi.2.symm⟩
    let lc : Nat → Nat := fun i => ((usable refs).filter fun r => decide (s.first r < i)).length
    let cur : Nat → Aabb F := fun i => ((List.range i).map (s.boxFrom ctx.prims refs)).foldl Aabb.growBB Aabb.empty
    have hbegun : ∀ i, lc (i + 1) = s.begun refs i := by
      intro i
      simp only [lc, begun, Nat.lt_succ_iff]
    have key := sweep_eq s refs (s.cost ctx.prims refs) lc cur refs.length (ctx.binCount - 1) L hlen
      (by
        intro i b nb hi
        obtain ⟨_, rfl, rfl⟩ := hget i b nb hi
        exact ⟨filter_split (usable refs) s.first i, rfl⟩)
      (by
        intro i b nb hi
        obtain ⟨_, rfl, rfl⟩ := hget i b nb hi
        simp only [cur, List.range_succ, List.map_append, List.foldl_append]
        rfl)
      (by
        intro i b nb hi
        obtain ⟨_, rfl, rfl⟩ := hget i b nb hi
        rw [hbegun]; rfl)
      (ctx.binCount - 1) 0 (by omega) (best, false)
    have hlc0 : lc 0 = 0 := by
      simp [lc]
    simp only [hlc0, Nat.sub_zero, List.drop_zero] at key
    obtain ⟨h1, h2⟩ := h
    have e : spatialSweep axis lo ((hi -. lo) /. ofNat ctx.binCount) L 0 0 refs.length Aabb.empty (best, false) =
      spatialSweep s.axis s.start s.width L 0 0 refs.length (cur 0) (best, false) := rfl
    have h1' : (spatialSweep axis lo ((hi -. lo) /. ofNat ctx.binCount) L 0 0 refs.length Aabb.empty (best, false)).1 = new := h1
    have h2' : (if (spatialSweep axis lo ((hi -. lo) /. ofNat ctx.binCount) L 0 0 refs.length Aabb.empty (best, false)).2 = true then
      some ((spatialSweep axis lo ((hi -. lo) /. ofNat ctx.binCount) L 0 0 refs.length Aabb.empty (best, false)).1.position -. s.width,
        (spatialSweep axis lo ((hi -. lo) /. ofNat ctx.binCount) L 0 0 refs.length Aabb.empty (best, false)).1.position +. s.width)
      else none) = next := h2
    rw [e] at h1' h2'
    rcases key with ⟨k1, k2⟩ | ⟨j, _, g2, g3, g4, g5, g6⟩
    · rw [k1] at h1' h2'
      refine .inl ⟨?_, h1'.symm, fun j hj => k2 j (by omega) hj⟩
      simpa using h2'.symm
    · rw [g3] at h1' h2'
      refine .inr ⟨⟨j, g2, h1'.symm, g4, fun i hi => g5 i (by omega) hi, fun i hi => g6 i (by omega) hi⟩, ?_⟩
      rw [if_pos rfl] at h2'
      rw [← h2', ← h1']

theorem pass_panic {ctx : SpatialCtx F} {refs : List (Ref F)} {best : SpatialSplit F} {axis : Fin 3} {lo hi : F}
    (h : runBinningPass ctx refs best axis lo hi = none) :
    ∃ r ∈ usable refs, (of axis ctx.binCount lo hi).PanicsAt ctx.prims r := by
  unfold runBinningPass at h
  simp only [] at h
  split at h
  · rename_i hb
    exact binRefs_none (s := of axis ctx.binCount lo hi) rfl refs _ hb
  · cases h

end Slabs

variable [LawfulFloat F]

theorem passes_spec {ctx : SpatialCtx F} {refs : List (Ref F)} {axis : Fin 3} : ∀ {k : Nat} {lo hi : F} {best final : SpatialSplit F},
    binningPasses ctx refs axis k lo hi best = some final → Passes ctx refs axis k lo hi best final
  | 0, lo, hi, best, final, h => by
    rw [binningPasses, Option.some.injEq] at h
    subst h; exact .done
  | k + 1, lo, hi, best, final, h => by
    rw [binningPasses] at h
    split at h
    · cases h
    · rename_i new hr
      obtain ⟨h1, ⟨_, h2, h3⟩ | ⟨_, h3⟩⟩ := Slabs.pass_spec hr
      · rw [Option.some.injEq] at h
        subst h; subst h2
        exact .keep h1 h3
      · cases h3
    · rename_i new lo' hi' hr
      obtain ⟨h1, ⟨h2, _⟩ | ⟨h2, h3⟩⟩ := Slabs.pass_spec hr
      · cases h2
      · simp only [Option.some.injEq, Prod.mk.injEq] at h3
        rw [h3.1, h3.2] at h
        exact .better h1 h2 (passes_spec h)

theorem passes_panic {ctx : SpatialCtx F} {refs : List (Ref F)} {axis : Fin 3} : ∀ {k : Nat} {lo hi : F} {best : SpatialSplit F},
    binningPasses ctx refs axis k lo hi best = none → PassPanics ctx refs axis k lo hi best
  | 0, lo, hi, best, h => by rw [binningPasses] at h; cases h
  | k + 1, lo, hi, best, h => by
    rw [binningPasses] at h
    split at h
    · rename_i hr
      obtain ⟨r, h1, h2⟩ := Slabs.pass_panic hr
      exact .here h1 h2
    · cases h
    · rename_i new lo' hi' hr
      obtain ⟨h1, ⟨h2, _⟩ | ⟨h2, h3⟩⟩ := Slabs.pass_spec hr
      · cases h2
      · simp only [Option.some.injEq, Prod.mk.injEq] at h3
        rw [h3.1, h3.2] at h
        exact .later h2 (passes_panic h)

theorem findSpatialSplit_spec {ctx : SpatialCtx F} {B : Aabb F} {refs : List (Ref F)} {plane : SpatialSplit F}
    (h : findSpatialSplit ctx B refs = some plane) : ClipPlane ctx B refs plane := by
  unfold findSpatialSplit at h
  simp only [Option.bind_eq_some_iff] at h
  obtain ⟨px, h1, py, h2, h3⟩ := h
  exact ⟨px, py, passes_spec h1, passes_spec h2, passes_spec h3⟩

theorem findSpatialSplit_panics {ctx : SpatialCtx F} {B : Aabb F} {refs : List (Ref F)}
    (h : findSpatialSplit ctx B refs = none) : ClipPanics ctx B refs := by
  unfold findSpatialSplit at h
  rw [Option.bind_eq_none_iff] at h
  cases e : binningPasses ctx refs 0 ctx.binningPassCount (B.min.get 0) (B.max.get 0) SpatialSplit.default with
  | none => exact .inl (passes_panic e)
  | some px =>
    have h := h px e
    rw [Option.bind_eq_none_iff] at h
    refine .inr ⟨px, passes_spec e, ?_⟩
    cases e' : binningPasses ctx refs 1 ctx.binningPassCount (B.min.get 1) (B.max.get 1) px with
    | none => exact .inl (passes_panic e')
    | some py => exact .inr ⟨py, passes_spec e', passes_panic (h py e')⟩

end Rtbvh
