import Verif.Proofs.LocbProgress
import Verif.Props.Mbvh
import Verif.Props.Refit
import Verif.Props.Validate
/- Properties C10-C13 and the clustering parts of C09, C18, C26, C55. -/
namespace Rtbvh
open FloatOps Aabb
variable {F : Type} [FloatOps F]

theorem Builder.constructLocb_eq {b : Builder F} {order : List Nat} (h : b.Legal order) (t fuel : Nat) :
    b.constructLocb order t fuel = .ok (locbBuild t fuel (b.boxes order) (b.primitives.map Prim.center)) := by
  unfold Builder.constructLocb
  rw [Builder.check_legal h]

/-- The single leaf of a scene of one or two primitives. -/
theorem locb_small {aabbs : List (Aabb F)} {centers : List (Vec3 F)} (hl : centers.length = aabbs.length)
    (h1 : aabbs ≠ []) (h2 : aabbs.length ≤ 2) (t fuel : Nat) :
    locbBuild t fuel aabbs centers = some (some
      { nodes := [{ bounds := { Aabb.unionOfList aabbs with extra1 := (aabbs.length : Int), extra2 := 0 } }]
        primIndices := List.range aabbs.length, buildType := .locallyOrderedClustered }) := by
  unfold locbBuild
  simp only
  rw [if_neg (by
    rintro (h | h | h)
    · exact h hl
    · rw [h] at hl; exact h1 (List.length_eq_zero_iff.1 hl.symm)
    · exact h1 h), if_pos h2]
  have : asI32 aabbs.length = (aabbs.length : Int) := asI32_lt (by omega)
  simp only [BvhNode.setLeftFirst, BvhNode.setCount, this]
  rfl

/-- Everything the structural theorems need about a finished clustering build. -/
theorem locb_built {b : Builder F} {order : List Nat} (h : b.Legal order) {t fuel : Nat} (ht : 0 < t)
    (hs : b.primitives.length ≤ 2 ^ 29) {bvh : Bvh F} (e : b.constructLocb order t fuel = .ok (some (some bvh))) :
    (3 ≤ b.primitives.length ∧ ∃ sorted T, LocResult b.primitives.length (b.boxes order) sorted bvh T) ∨
    (b.primitives.length ≤ 2 ∧ bvh =
      { nodes := [{ bounds := { Aabb.unionOfList (b.boxes order) with
                      extra1 := (b.primitives.length : Int), extra2 := 0 } }]
        primIndices := List.range b.primitives.length, buildType := .locallyOrderedClustered }) := by
  have hlen := Builder.boxes_length h
  have hl : (b.primitives.map Prim.center).length = (b.boxes order).length := by rw [hlen]; simp
  rw [Builder.constructLocb_eq h] at e
  injection e with e
  by_cases h3 : 3 ≤ b.primitives.length
  · left
    refine ⟨h3, ?_⟩
    rw [← hlen]
    exact locb_main ht hl (by omega) (by omega) e
  · right
    refine ⟨by omega, ?_⟩
    rw [locb_small hl (by
      intro hh; rw [hh] at hlen
      exact h.nonempty (List.length_eq_zero_iff.1 hlen.symm)) (by omega)] at e
    injection e with e
    injection e with e
    rw [← e, hlen]

/-- C11. Whatever the floating-point behaviour: if the clustering build returns, then for three or more primitives there
are exactly `2n-1` nodes, forming one binary tree rooted at node 0 without spare nodes; each leaf holds exactly one
primitive, and every primitive id is in exactly one leaf; the tree is at most `n-1` deep.  For one or two primitives the
BVH is a single leaf with all primitives. -/
theorem C11_locb_structure (b : Builder F) (order : List Nat) (h : b.Legal order) (t fuel : Nat) (ht : 0 < t)
    (hs : b.primitives.length ≤ 2 ^ 29) (bvh : Bvh F) (e : b.constructLocb order t fuel = .ok (some (some bvh))) :
    bvh.indices.Perm (List.range b.primitives.length) ∧ bvh.buildType = .locallyOrderedClustered ∧
    ∃ T, Unfolds bvh.nodes 0 T ∧ T.size = bvh.nodes.length ∧ T.RangesIn bvh.indices ∧
      (T.ids bvh.indices).Perm (List.range b.primitives.length) ∧
      (∀ p < b.primitives.length, (T.ids bvh.indices).count p = 1) ∧
      (3 ≤ b.primitives.length → bvh.nodes.length = 2 * b.primitives.length - 1 ∧
        T.leaves = b.primitives.length ∧ (∀ f c, (f, c) ∈ T.ranges → c = 1) ∧ T.depth ≤ b.primitives.length - 1) ∧
      (b.primitives.length ≤ 2 → ∃ bb, T = .leaf bb 0 b.primitives.length) := by
  have cnt1 : ∀ (l : List Nat) (n : Nat), l.Perm (List.range n) → ∀ p < n, l.count p = 1 := by
    intro l n hp p hlt
    rw [hp.count_eq, List.nodup_range.count, if_pos (by simpa using hlt)]
  rcases locb_built h ht hs e with ⟨h3, sorted, T, R⟩ | ⟨h2, rfl⟩
  · have hidx : bvh.indices = sorted := R.indices
    have hsl : sorted.length = b.primitives.length := by simpa using R.perm.length_eq
    have hids : (T.ids sorted).Perm sorted := by
      rw [ids_flatMap]
      have hr := R.ranges
      rw [← hsl] at hr
      have := hr.flatMap_right (fun p => BTree.rangeIds sorted p.1 p.2)
      rwa [flatMap_singles] at this
    have hleaves : ∀ T : BTree F, T.leaves = T.ranges.length := by
      intro T
      induction T with
      | leaf => rfl
      | node _ l r h1 h2 => simp [BTree.leaves, BTree.ranges, h1, h2]
    have hd := two_depth_lt_size T
    rw [hidx]
    have hbt : bvh.buildType = .locallyOrderedClustered := by
      rw [Builder.constructLocb_eq h] at e
      injection e with e
      unfold locbBuild at e
      have hlen := Builder.boxes_length h
      simp only at e
      split at e
      · rename_i hc
        exfalso
        rcases hc with hc | hc | hc
        · exact hc (by rw [hlen]; simp)
        · exact h.nonempty (List.map_eq_nil_iff.1 hc)
        · rw [hc] at hlen; simp at hlen; omega
      · split at e
        · omega
        · simp only [Option.bind_eq_some_iff, Option.map_eq_some_iff] at e
          obtain ⟨_, _, _, _, _, _, _, _, rfl⟩ := e
          rfl
    refine ⟨R.perm, hbt, T, R.unfolds, by rw [R.size, R.nodes], R.inRange, hids.trans R.perm,
      cnt1 _ _ (hids.trans R.perm), fun _ => ⟨R.nodes, ?_, ?_, by have := R.size; omega⟩, fun h2 => by omega⟩
    · rw [hleaves, R.ranges.length_eq]; simp
    · intro f c hm
      have := R.ranges.mem_iff.1 hm
      simp only [List.mem_map, Prod.mk.injEq] at this
      obtain ⟨_, _, _, rfl⟩ := this
      rfl
  · refine ⟨List.Perm.refl _, rfl, .leaf _ 0 b.primitives.length, .leaf (nd := _) rfl rfl rfl, rfl, ?_, ?_, ?_,
      fun h3 => by omega, fun _ => ⟨_, rfl⟩⟩
    · simp [BTree.RangesIn, Bvh.indices]
    · simp [BTree.ids, BTree.rangeIds, Bvh.indices]
    · apply cnt1
      simp [BTree.ids, BTree.rangeIds, Bvh.indices]

/-- C13. The result does not depend on the number of CPUs; nothing is assumed about the floats, and panics and endless
clustering are included. -/
theorem C13_locb_cpu_independent (b : Builder F) (order : List Nat) (fuel t t' : Nat) (ht : 0 < t) (ht' : 0 < t') :
    b.constructLocb order t fuel = b.constructLocb order t' fuel := by
  unfold Builder.constructLocb
  cases hc : b.check order with
  | error e => rfl
  | ok aabbs =>
    simp only
    congr 1
    unfold locbBuild
    simp only
    split
    · rfl
    · split
      · rfl
      · rename_i h1 h2
        apply Option.bind_congr
        intro sorted _
        apply Option.bind_congr
        intro leaves hl
        congr 1
        have hll : leaves.length = 2 * aabbs.length - 1 := by
          refine (forRange_reach (fun _ (o : List (BvhNode F)) => o.length = 2 * aabbs.length - 1) (by simp) ?_ hl).1
          intro i o o' _ _ q hf
          simp only [Option.bind_eq_some_iff] at hf
          obtain ⟨_, _, _, _, hf⟩ := hf
          obtain ⟨_, rfl⟩ := setAt_some hf
          simpa using q
        exact loop_threads ht ht' fuel _ _ _ _ _ _ (by omega) (by omega) (by simp) (by simp; omega)

/-- Giving the clustering loop more rounds does not change a finished result, nor a panic. -/
theorem C13_locb_rounds (b : Builder F) (order : List Nat) (t fuel k : Nat)
    (e : b.constructLocb order t fuel ≠ .ok (some none)) :
    b.constructLocb order t (fuel + k) = b.constructLocb order t fuel := by
  unfold Builder.constructLocb at e ⊢
  cases hc : b.check order with
  | error e' => rfl
  | ok aabbs =>
    rw [hc] at e
    simp only at e ⊢
    congr 1
    unfold locbBuild at e ⊢
    simp only at e ⊢
    split
    · rfl
    · rename_i h1
      rw [if_neg h1] at e
      split
      · rfl
      · rename_i h2
        rw [if_neg h2] at e
        apply Option.bind_congr
        intro sorted hsort
        rw [hsort] at e
        apply Option.bind_congr
        intro leaves hl
        simp only [Option.bind_some, hl] at e
        rw [loop_fuel]
        intro hne
        rw [hne] at e
        exact e rfl

/-- C09 for the clustering builder: a BVH it returns validates (the recursion is at most `n-1` deep). -/
theorem C09_locb_validates (b : Builder F) (order : List Nat) (h : b.Legal order) (t rounds : Nat) (ht : 0 < t)
    (hs : b.primitives.length ≤ 2 ^ 29) (bvh : Bvh F) (e : b.constructLocb order t rounds = .ok (some (some bvh)))
    (fuel : Nat) (hf : b.primitives.length ≤ fuel) :
    bvh.validate fuel b.primitives.length = some true := by
  obtain ⟨hp, _, T, hU, hsz, hR, hids, _, h3, h2⟩ := C11_locb_structure b order h t rounds ht hs bvh e
  have hpos := List.length_pos_iff.2 h.nonempty
  have hil : bvh.indices.length = b.primitives.length := by simpa using hp.length_eq
  have hd : T.depth < fuel := by
    by_cases h' : 3 ≤ b.primitives.length
    · have := (h3 h').2.2.2; omega
    · obtain ⟨bb, rfl⟩ := h2 (by omega)
      simp only [BTree.depth]; omega
  have hnl : bvh.nodes.length < 2 ^ 31 := by
    by_cases h' : 3 ≤ b.primitives.length
    · have := (h3 h').1; omega
    · obtain ⟨bb, rfl⟩ := h2 (by omega)
      simp only [BTree.size] at hsz; omega
  obtain ⟨r, h1, h2⟩ := (C08_validate_exact bvh T ⟨hU, hR⟩ hnl (by omega) fuel b.primitives.length hd).1
    (fun id hid => by simpa using hids.mem_iff.1 hid)
  rw [h1]
  congr 1
  rw [h2]
  intro p hlt
  exact hids.mem_iff.2 (by simpa using hlt)

/-- What the clustering builder returns meets the requirements of `Mbvh::construct`. -/
theorem C26_locb_compact (b : Builder F) (order : List Nat) (h : b.Legal order) (t fuel : Nat) (ht : 0 < t)
    (hs : b.primitives.length ≤ 2 ^ 29) (bvh : Bvh F) (e : b.constructLocb order t fuel = .ok (some (some bvh))) :
    ∃ T, bvh.Compact T ∧ (T.ids bvh.indices).Perm (List.range b.primitives.length) ∧
      T.depth ≤ b.primitives.length - 1 := by
  obtain ⟨hp, _, T, hU, hsz, hR, hids, _, h3, h2⟩ := C11_locb_structure b order h t fuel ht hs bvh e
  have hil : bvh.indices.length = b.primitives.length := by simpa using hp.length_eq
  refine ⟨T, ⟨⟨hU, hR⟩, hsz, ?_, ?_, by omega⟩, hids, ?_⟩
  · rintro bb f c rfl
    by_cases h' : 3 ≤ b.primitives.length
    · have := (h3 h').1; simp only [BTree.size] at hsz; omega
    · obtain ⟨bb', e'⟩ := h2 (by omega)
      injection e'
  · by_cases h' : 3 ≤ b.primitives.length
    · have := (h3 h').1; omega
    · obtain ⟨bb', rfl⟩ := h2 (by omega)
      simp only [BTree.size] at hsz; omega
  · by_cases h' : 3 ≤ b.primitives.length
    · exact (h3 h').2.2.2
    · obtain ⟨bb', rfl⟩ := h2 (by omega)
      simp only [BTree.depth]; omega

/-- C18 for the clustering builder: its BVHs satisfy the link hypotheses of the refit theorems. -/
theorem C18_refit_after_locb (b : Builder F) (order : List Nat) (h : b.Legal order) (t fuel : Nat) (ht : 0 < t)
    (hs : b.primitives.length ≤ 2 ^ 29) (bvh : Bvh F) (e : b.constructLocb order t fuel = .ok (some (some bvh))) :
    bvh.LinksOk ∧ ∀ newAabbs : List (Aabb F), newAabbs.length = b.primitives.length →
      ∃ bvh', bvh.refit newAabbs = some bvh' := by
  have hl : bvh.LinksOk := by
    rcases locb_built h ht hs e with ⟨_, _, _, R⟩ | ⟨_, rfl⟩
    · exact R.links
    · intro i nd hi
      have : i = 0 := by
        have := (List.getElem?_eq_some_iff.1 hi).1
        simp only [List.length_singleton] at this
        omega
      subst this
      simp only [List.getElem?_cons_zero, Option.some.injEq] at hi
      subst hi
      refine ⟨fun _ => ⟨Int.le_refl _, ?_⟩, fun h => ?_⟩
      · simp
      · simp only at h; omega
  obtain ⟨hp, _, T, hU, hsz, hR, hids, _, h3, h2⟩ := C11_locb_structure b order h t fuel ht hs bvh e
  have hil : bvh.indices.length = b.primitives.length := by simpa using hp.length_eq
  refine ⟨hl, fun newAabbs hn => ?_⟩
  have hnl : bvh.nodes.length < 2 ^ 31 := by
    by_cases h' : 3 ≤ b.primitives.length
    · have := (h3 h').1; omega
    · obtain ⟨bb, rfl⟩ := h2 (by omega)
      simp only [BTree.size] at hsz; omega
  obtain ⟨b', e', _⟩ := C18_refit_total bvh newAabbs hl (by omega) (by omega)
    (by intro p hp'; rw [hn]; simpa using hp.mem_iff.1 hp')
  exact ⟨b', e'⟩

section lawful
variable [LawfulFloat F]
open LawfulFloat

/-- C10. For every scene of valid boxes that, padded, lie in some box whose half area does not overflow, the clustering
build returns, whatever the number of CPUs; `n-1` clustering rounds are always enough. -/
theorem C10_locb_completes (b : Builder F) (order : List Nat) (h : b.Legal order) (w : Aabb F)
    (hw : LocScene w (b.boxes order)) (t fuel : Nat) (ht : 0 < t) (hf : b.primitives.length - 1 ≤ fuel) :
    ∃ bvh, b.constructLocb order t fuel = .ok (some (some bvh)) := by
  have hlen := Builder.boxes_length h
  have hl : (b.primitives.map Prim.center).length = (b.boxes order).length := by rw [hlen]; simp
  have hsm := h.small
  rw [Builder.constructLocb_eq h]
  by_cases h3 : 3 ≤ b.primitives.length
  · obtain ⟨bvh, e, _⟩ := locb_total ht hl (by omega) (by omega) (fuel := fuel) (by omega)
      (fun sorted nodes copy aux b' e pe tr I hb => inv_progress hw (by omega) I hb)
    exact ⟨bvh, by rw [e]⟩
  · have hne : b.boxes order ≠ [] := by
      intro hh; rw [hh] at hlen
      exact h.nonempty (List.length_eq_zero_iff.1 hlen.symm)
    exact ⟨_, by rw [locb_small hl hne (by omega)]⟩

theorem locTree_bounds {sorted : List Nat} {boxes : List (Aabb F)} (hn : ∀ a ∈ boxes, a.Numeric) (T : BTree F)
    (hT : LocTree sorted boxes T) :
    (∀ p ∈ T.ids sorted, (padAt boxes p).Within T.bounds) ∧
    (∀ c, (∀ p ∈ T.ids sorted, (padAt boxes p).Within c) → T.bounds.Within c) ∧
    T.Forall sorted (fun a ids => (∀ p ∈ ids, (padAt boxes p).Within a) ∧
      ∀ c, (∀ p ∈ ids, (padAt boxes p).Within c) → a.Within c) := by
  induction T with
  | leaf bd f c =>
    obtain ⟨rfl, p, bb, h1, h2, h3⟩ := hT
    have hids : BTree.rangeIds sorted f 1 = [p] := by
      unfold BTree.rangeIds
      rw [List.take_one, List.head?_drop, h1]; rfl
    have hpad : padAt boxes p = bb.offsetBy (lit 1 (-4)) := by
      unfold padAt boxAt
      simp [List.getD, h2]
    have hbb := hn bb (List.mem_of_getElem? h2)
    have hnum : (bb.offsetBy (lit 1 (-4))).Numeric :=
      (within_offset_lit hbb (by decide) (by decide) (by decide) (by decide)).num_right
    have k1 : ∀ q ∈ BTree.rangeIds sorted f 1, (padAt boxes q).Within bd := by
      intro q hq
      rw [hids, List.mem_singleton] at hq
      subst hq
      rw [hpad, h3]
      exact Within.refl hnum
    have k2 : ∀ c, (∀ q ∈ BTree.rangeIds sorted f 1, (padAt boxes q).Within c) → bd.Within c := by
      intro c hc
      have := hc p (by rw [hids]; simp)
      rw [hpad] at this
      rw [h3]; exact this
    exact ⟨k1, k2, k1, k2⟩
  | node bd l r i1 i2 =>
    obtain ⟨h1, h2, h3⟩ := hT
    obtain ⟨a1, a2, a3⟩ := i1 h2
    obtain ⟨b1, b2, b3⟩ := i2 h3
    have ne : ∀ T : BTree F, LocTree sorted boxes T → T.bounds.Numeric := by
      intro T hT
      induction T with
      | leaf bd f c =>
        obtain ⟨rfl, p, bb, _, h2, h3⟩ := hT
        have hbb := hn bb (List.mem_of_getElem? h2)
        simp only [BTree.bounds]
        rw [h3]
        exact (within_offset_lit hbb (by decide) (by decide) (by decide) (by decide)).num_right
      | node bd l r j1 j2 =>
        obtain ⟨h1, h2, h3⟩ := hT
        simp only [BTree.bounds]
        rw [h1]
        exact unionOf_numeric (j2 h3) (j1 h2)
    have nl := ne l h2
    have nr := ne r h3
    have k1 : ∀ p ∈ l.ids sorted ++ r.ids sorted, (padAt boxes p).Within bd := by
      intro p hp
      rw [h1]
      rcases List.mem_append.1 hp with hp | hp
      · exact (a1 p hp).trans (within_unionOf_right nr nl)
      · exact (b1 p hp).trans (within_unionOf_left nr nl)
    have k2 : ∀ c, (∀ p ∈ l.ids sorted ++ r.ids sorted, (padAt boxes p).Within c) → bd.Within c := by
      intro c hc
      rw [h1]
      exact unionOf_within (b2 c fun p hp => hc p (List.mem_append.2 (.inr hp)))
        (a2 c fun p hp => hc p (List.mem_append.2 (.inl hp)))
    exact ⟨k1, k2, ⟨k1, k2⟩, a3, b3⟩

omit [FloatOps F] [LawfulFloat F] in
theorem forall_mono {idx : List Nat} {P Q : Aabb F → List Nat → Prop} (T : BTree F)
    (h : ∀ a ids, (∀ p ∈ ids, p ∈ T.ids idx) → P a ids → Q a ids) (hT : T.Forall idx P) : T.Forall idx Q := by
  induction T with
  | leaf b f c => exact h _ _ (fun p hp => hp) hT
  | node b l r i1 i2 =>
    refine ⟨h _ _ (fun p hp => hp) hT.1, i1 (fun a ids hi => h a ids fun p hp => ?_) hT.2.1,
      i2 (fun a ids hi => h a ids fun p hp => ?_) hT.2.2⟩
    · exact List.mem_append.2 (.inl (hi p hp))
    · exact List.mem_append.2 (.inr (hi p hp))

theorem within_padAt {boxes : List (Aabb F)} (hn : ∀ a ∈ boxes, a.Numeric) {p : Nat} (hp : p < boxes.length) :
    (boxAt boxes p).Within (padAt boxes p) :=
  within_offset_lit (hn _ (boxAt_mem hp)) (by decide) (by decide) (by decide) (by decide)

/-- C12. Every node's box contains the box of every primitive below it; for three or more primitives it is moreover the
least box containing the padded boxes of these primitives. -/
theorem C12_locb_bounds (b : Builder F) (order : List Nat) (h : b.Legal order) (t fuel : Nat) (ht : 0 < t)
    (hs : b.primitives.length ≤ 2 ^ 29) (bvh : Bvh F) (T : BTree F)
    (e : b.constructLocb order t fuel = .ok (some (some bvh))) (hU : Unfolds bvh.nodes 0 T)
    (hn : ∀ a ∈ b.boxes order, a.Numeric) :
    T.Bounds bvh.indices (boxAt (b.boxes order)) ∧
    (3 ≤ b.primitives.length → T.Forall bvh.indices fun a ids => (∀ p ∈ ids, (padAt (b.boxes order) p).Within a) ∧
      ∀ c, (∀ p ∈ ids, (padAt (b.boxes order) p).Within c) → a.Within c) := by
  have hlen := Builder.boxes_length h
  rcases locb_built h ht hs e with ⟨h3, sorted, T', R⟩ | ⟨h2, rfl⟩
  · have := hU.det R.unfolds
    subst this
    rw [show bvh.indices = sorted from R.indices]
    have key := (locTree_bounds hn T R.loc).2.2
    refine ⟨?_, fun _ => key⟩
    refine forall_mono T ?_ key
    intro a ids hi hP p hp
    have hmem : p ∈ sorted := by
      have := hi p hp
      rw [ids_flatMap, List.mem_flatMap] at this
      obtain ⟨q, _, hq⟩ := this
      exact List.mem_of_mem_drop (List.mem_of_mem_take hq)
    have hpl : p < (b.boxes order).length := by
      rw [hlen]; simpa using R.perm.mem_iff.1 hmem
    exact (within_padAt hn hpl).trans (hP.1 p hp)
  · refine ⟨?_, fun h3 => by omega⟩
    have hleaf : T = .leaf (Aabb.clean { Aabb.unionOfList (b.boxes order) with
        extra1 := (b.primitives.length : Int), extra2 := 0 }) 0 b.primitives.length :=
      hU.det (.leaf rfl rfl rfl)
    subst hleaf
    intro p hp
    simp only [BTree.rangeIds, Bvh.indices, List.drop_zero] at hp
    have hpl : p < (b.boxes order).length := by
      rw [hlen]; exact List.mem_range.1 (List.mem_of_mem_take hp)
    exact unionOfList_contains hn _ (boxAt_mem hpl)

/-- C12, padded: every node's box contains the box of every primitive below it padded by 1e-4, for any number of
primitives. -/
theorem C12_locb_padded (b : Builder F) (order : List Nat) (h : b.Legal order) (t fuel : Nat) (ht : 0 < t)
    (hs : b.primitives.length ≤ 2 ^ 29) (bvh : Bvh F) (T : BTree F)
    (e : b.constructLocb order t fuel = .ok (some (some bvh))) (hU : Unfolds bvh.nodes 0 T)
    (hn : ∀ a ∈ b.boxes order, a.Numeric) : T.Bounds bvh.indices (padAt (b.boxes order)) := by
  have hlen := Builder.boxes_length h
  rcases locb_built h ht hs e with ⟨h3, sorted, T', R⟩ | ⟨h2, rfl⟩
  · have := hU.det R.unfolds
    subst this
    rw [show bvh.indices = sorted from R.indices]
    exact forall_mono T (fun _ _ _ hh => hh.1) (locTree_bounds hn T R.loc).2.2
  · have hleaf : T = .leaf (Aabb.clean { Aabb.unionOfList (b.boxes order) with
        extra1 := (b.primitives.length : Int), extra2 := 0 }) 0 b.primitives.length :=
      hU.det (.leaf rfl rfl rfl)
    subst hleaf
    intro p hp
    simp only [BTree.rangeIds, Bvh.indices, List.drop_zero] at hp
    have hpl : p < (b.boxes order).length := by
      rw [hlen]; exact List.mem_range.1 (List.mem_of_mem_take hp)
    exact pad_within ((foldl_growBB hn new_numeric).2 _ (boxAt_mem hpl))

/-- C55 for the clustering builder, over any lawful float type. -/
theorem C55_locb_contains_padded (b : Builder F) (order : List Nat) (h : b.Legal order) (t fuel : Nat) (ht : 0 < t)
    (hs : b.primitives.length ≤ 2 ^ 29) (bvh : Bvh F) (e : b.constructLocb order t fuel = .ok (some (some bvh)))
    (hn : ∀ a ∈ b.boxes order, a.Numeric) (a : Aabb F) (ha : a ∈ b.boxes order) (v : Vec3 F) (hv : a.Has v)
    (hp : PadStrict v.x ∧ PadStrict v.y ∧ PadStrict v.z) : bvh.bounds.contains v = true := by
  obtain ⟨_, _, T, hU, _, _, hids, _⟩ := C11_locb_structure b order h t fuel ht hs bvh e
  have hlen := Builder.boxes_length h
  rcases locb_built h ht hs e with ⟨h3, sorted, T', R⟩ | ⟨h2, rfl⟩
  · have := hU.det R.unfolds
    subst this
    obtain ⟨i, hi, rfl⟩ := List.getElem_of_mem ha
    have k1 := (locTree_bounds hn T R.loc).1 i (by
      rw [show bvh.indices = sorted from R.indices] at hids
      exact hids.mem_iff.2 (by simpa [← hlen] using hi))
    have hpad : padAt (b.boxes order) i = ((b.boxes order)[i]).offsetBy (lit 1 (-4)) := by
      unfold padAt boxAt; simp [List.getD, hi]
    rw [hpad] at k1
    have k2 := contains_mono k1 (contains_offset hv hp)
    rw [← Bvh.bounds_eq hU] at k2
    exact k2
  · have h1 := (foldl_growBB hn new_numeric).2 a ha
    have h2 : (unionOfList (b.boxes order)).contains v = true := contains_offset (h1.has hv) hp
    exact h2

end lawful

/-- The cube with corners `±2^61`. -/
def bigCube : Aabb F := ofPoints2 (Vec3.splat (lit (-(2 ^ 61)) 0)) (Vec3.splat (lit (2 ^ 61) 0))

theorem bigCube_ok : (bigCube : Aabb F32).AreaOk := by
  constructor
  · unfold Vec3.Finite Fin'; decide +kernel
  · unfold Vec3.Finite Fin'; decide +kernel
  · unfold Vec3.Finite Fin'; decide +kernel
  · unfold Fin'; decide +kernel
  · decide +kernel

/-- Coordinates of magnitude at most `2^60` (about 1.15e18). -/
def Moderate (v : Vec3 F) : Prop := (Vec3.splat (lit (-(2 ^ 60)) 0)).Le v ∧ v.Le (Vec3.splat (lit (2 ^ 60) 0))

/-- In binary32, scenes of valid boxes with coordinates up to `2^60` satisfy the area condition. -/
theorem moderate_scene (boxes : List (Aabb F32)) (h : ∀ a ∈ boxes, a.Valid ∧ Moderate a.min ∧ Moderate a.max) :
    LocScene bigCube boxes := by
  refine ⟨bigCube_ok, fun a ha => ?_⟩
  obtain ⟨hv, ⟨⟨m1, m2, m3⟩, _⟩, _, ⟨M1, M2, M3⟩⟩ := h a ha
  have hf : Fin' (lit 1 (-4) : F32) := LawfulFloat.lit_fin (by decide) (by decide) (by decide)
  have lo : ∀ x : F32, ((lit (-(2 ^ 60)) 0 : F32) <=. x) = true →
      ((lit (-(2 ^ 61)) 0 : F32) <=. x -. lit 1 (-4)) = true := by
    intro x hx
    refine LawfulFloat.le_trans (b := (lit (-(2 ^ 60)) 0 : F32) -. lit 1 (-4)) (by decide +kernel) ?_
    exact LawfulFloat.sub_mono _ hx (LawfulFloat.sub_fin (LawfulFloat.le_num hx).1 hf)
      (LawfulFloat.sub_fin (LawfulFloat.le_num hx).2 hf)
  have hi : ∀ x : F32, (x <=. (lit (2 ^ 60) 0 : F32)) = true →
      (x +. lit 1 (-4) <=. (lit (2 ^ 61) 0 : F32)) = true := by
    intro x hx
    refine LawfulFloat.le_trans (b := (lit (2 ^ 60) 0 : F32) +. lit 1 (-4)) ?_ (by decide +kernel)
    exact LawfulFloat.add_mono _ hx (LawfulFloat.add_fin (LawfulFloat.le_num hx).1 hf)
      (LawfulFloat.add_fin (LawfulFloat.le_num hx).2 hf)
  exact ⟨hv, ⟨lo _ m1, lo _ m2, lo _ m3⟩, ⟨hi _ M1, hi _ M2, hi _ M3⟩⟩

/-- C10 in binary32: all scenes of valid boxes with coordinates up to `2^60`. -/
theorem C10_locb_completes_f32 (b : Builder F32) (order : List Nat) (h : b.Legal order)
    (hb : ∀ a ∈ b.boxes order, a.Valid ∧ Moderate a.min ∧ Moderate a.max) (t fuel : Nat) (ht : 0 < t)
    (hf : b.primitives.length - 1 ≤ fuel) : ∃ bvh, b.constructLocb order t fuel = .ok (some (some bvh)) :=
  C10_locb_completes b order h bigCube (moderate_scene _ hb) t fuel ht hf

/-- Three finite, valid boxes at coordinates around `1e20`. -/
def hugeScene : Builder F32 := cubeScene [(10 ^ 20, 10 ^ 19), (3 * 10 ^ 20, 10 ^ 19), (9 * 10 ^ 20, 10 ^ 19)] none

/-- C10: the area condition is needed.  For three finite valid boxes around `1e20` in binary32 every merged half area
overflows, no cluster finds a neighbour, and the code indexes with `u32::MAX`. -/
theorem C10_area_needed (t fuel : Nat) (ht : 0 < t) : hugeScene.Legal (List.range 3) ∧
    (∀ a ∈ hugeScene.boxes (List.range 3), a.Valid ∧ a.min.Finite ∧ a.max.Finite) ∧
    hugeScene.constructLocb (List.range 3) t (fuel + 1) = .ok none := by
  refine ⟨cubeScene_legal _ _ (by decide) (by decide), ?_, ?_⟩
  · unfold Aabb.Valid Vec3.Le Vec3.Finite Fin'; decide +kernel
  · rw [C13_locb_cpu_independent _ _ _ t 1 ht (by omega)]
    have key : (match hugeScene.constructLocb (List.range 3) 1 1 with | .ok none => true | _ => false) = true := by
      decide +kernel
    have key' : hugeScene.constructLocb (List.range 3) 1 1 = .ok none := by
      generalize hugeScene.constructLocb (List.range 3) 1 1 = r at key
      split at key
      · rfl
      · cases key
    rw [Nat.add_comm, C13_locb_rounds _ _ _ 1 fuel (by rw [key']; simp), key']

/-- Non-vacuity for C10-C13, C18, C26, C55: the demo scene satisfies the binary32 condition, and its build has 7 nodes
with the primitives in Morton order. -/
example : (cubeScene [(20, 1), (0, 1), (30, 1), (10, 1)] none : Builder F32).Legal (List.range 4) ∧
    (∀ a ∈ (cubeScene [(20, 1), (0, 1), (30, 1), (10, 1)] none : Builder F32).boxes (List.range 4),
      a.Valid ∧ Moderate a.min ∧ Moderate a.max ∧ a.Numeric) ∧
    (built ((cubeScene [(20, 1), (0, 1), (30, 1), (10, 1)] none : Builder F32).constructLocb (List.range 4) 3 3)).map
      (fun b => (b.nodes.length, b.indices, b.nodes.map fun n => (n.bounds.extra1, n.bounds.extra2))) =
    some (7, [1, 3, 0, 2], [(-1, 1), (-1, 3), (-1, 5), (1, 0), (1, 1), (1, 2), (1, 3)]) := by
  refine ⟨cubeScene_legal _ _ (by decide) (by decide), ?_, by decide +kernel⟩
  unfold Aabb.Valid Moderate Aabb.Numeric Vec3.Numeric Vec3.Le Num; decide +kernel

end Rtbvh
