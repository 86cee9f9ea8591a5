import Verif.Model.Debug
import Verif.Proofs.LocbProgress
/- Debug builds of the clustering builder, and what a finished build says about the scene. -/
namespace Rtbvh
open FloatOps
variable {F : Type}

/-- Two loops whose bodies agree on the states that occur. -/
theorem forRange_same {σ : Type} {f g : Nat → σ → Option σ} (P : Nat → σ → Prop) {k a : Nat} {s : σ} (h0 : P a s)
    (step : ∀ i s, a ≤ i → i < a + k → P i s → g i s = f i s ∧ ∀ s', f i s = some s' → P (i + 1) s') :
    forRange g k a s = forRange f k a s := by
  induction k generalizing a s with
  | zero => rfl
  | succ k ih =>
    obtain ⟨e, hp⟩ := step a s (Nat.le_refl _) (by omega) h0
    simp only [forRange, e]
    cases hf : f a s with
    | none => rfl
    | some s' => exact ih (hp s' hf) (fun i s h1 h2 => step i s (by omega) (by omega))

/-- A loop whose body does less. -/
theorem forRange_sub {σ : Type} {f g : Nat → σ → Option σ} (h : ∀ i s s', g i s = some s' → f i s = some s') {k a : Nat}
    {s s' : σ} (e : forRange g k a s = some s') : forRange f k a s = some s' := by
  induction k generalizing a s with
  | zero => exact e
  | succ k ih =>
    simp only [forRange, Option.bind_eq_some_iff] at e ⊢
    obtain ⟨s1, e1, e2⟩ := e
    exact ⟨s1, h _ _ _ e1, ih e2⟩

theorem dbg_some {α : Type} {c : Bool} {r : Option α} {x : α} (h : dbg c r = some x) : c = true ∧ r = some x := by
  unfold dbg at h
  split at h
  · exact ⟨by assumption, h⟩
  · cases h

section
variable [FloatOps F]

/-! ### A debug build that returns, returns what a release build returns -/

theorem searchOneD_sub {r : Nat} {input : List (BvhNode F)} {b e i : Nat} {m : DistMat F} {x : DistMat F × Best F}
    (h : searchOneD r input b e i m = some x) : searchOne r input b e i m = some x := by
  unfold searchOneD at h
  unfold searchOne
  simp only [Option.bind_eq_some_iff] at h ⊢
  obtain ⟨best, h1, s, h2, h3⟩ := h
  obtain ⟨_, h3⟩ := dbg_some h3
  cases h3
  refine ⟨best, forRange_sub ?_ h1, forRange_sub ?_ h2⟩
  · intro i s s' h
    simp only [Option.bind_eq_some_iff] at h
    obtain ⟨d, e1, e2⟩ := h
    obtain ⟨_, e2⟩ := dbg_some e2
    cases e2
    rw [e1]; rfl
  · intro i s s' h
    simp only [Option.bind_eq_some_iff] at h ⊢
    obtain ⟨d, e1, e2⟩ := h
    exact ⟨d, e1, (dbg_some e2).2⟩

theorem searchChunkD_sub {r : Nat} {input : List (BvhNode F)} {b e cb ce : Nat} {aux x : List Nat}
    (h : searchChunkD r input b e cb ce aux = some x) : searchChunk r input b e cb ce aux = some x := by
  unfold searchChunkD at h
  unfold searchChunk
  simp only [Option.bind_eq_some_iff, Option.map_eq_some_iff] at h ⊢
  obtain ⟨m, h1, s, h2, h3⟩ := h
  refine ⟨m, h1, s, forRange_sub ?_ h2, h3⟩
  intro i s s' h
  simp only [Option.bind_eq_some_iff] at h ⊢
  obtain ⟨a, e1, e2⟩ := h
  exact ⟨a, searchOneD_sub e1, e2⟩

theorem searchAllD_sub {r t : Nat} {input : List (BvhNode F)} {b e : Nat} {aux x : List Nat}
    (h : searchAllD r t input b e aux = some x) : searchAll r t input b e aux = some x :=
  forRange_sub (fun _ _ _ h => searchChunkD_sub h) h

theorem locbClusterD_sub {r t nc : Nat} {input output : List (BvhNode F)} {aux : List Nat} {b e pe : Nat}
    {x : List (BvhNode F) × List Nat × Nat × Nat} (h : locbClusterD r t nc input output aux b e pe = some x) :
    locbCluster r t nc input output aux b e pe = some x := by
  unfold locbClusterD at h
  unfold locbCluster
  rw [Option.bind_eq_some_iff] at h ⊢
  obtain ⟨a, h1, h2⟩ := h
  exact ⟨a, searchAllD_sub h1, h2⟩

theorem locbLoopD_sub {r t nc : Nat} (fuel : Nat) : ∀ {nodes copy : List (BvhNode F)} {aux : List Nat} {b e pe : Nat}
    {x : Option (List (BvhNode F))}, locbLoopD r t nc fuel nodes copy aux b e pe = some x →
    locbLoop r t nc fuel nodes copy aux b e pe = some x := by
  induction fuel with
  | zero => intro _ _ _ _ _ _ _ h; exact h
  | succ fuel ih =>
    intro nodes copy aux b e pe x h
    unfold locbLoopD at h
    unfold locbLoop
    by_cases hc : e - b > 1
    · rw [if_pos hc] at h ⊢
      rw [Option.bind_eq_some_iff] at h ⊢
      obtain ⟨s, h1, h2⟩ := h
      exact ⟨s, locbClusterD_sub h1, ih h2⟩
    · rw [if_neg hc] at h ⊢
      exact h

theorem locbBuildD_sub {t fuel : Nat} {aabbs : List (Aabb F)} {centers : List (Vec3 F)} {x : Option (Bvh F)}
    (h : locbBuildD t fuel aabbs centers = some x) : locbBuild t fuel aabbs centers = some x := by
  unfold locbBuildD at h
  unfold locbBuild
  simp only at h ⊢
  split
  · rename_i hc; rw [if_pos hc] at h; exact h
  · rename_i hc
    rw [if_neg hc] at h
    split
    · rename_i hc'; rw [if_pos hc'] at h; exact h
    · rename_i hc'
      rw [if_neg hc'] at h
      simp only [Option.bind_eq_some_iff, Option.map_eq_some_iff] at h ⊢
      obtain ⟨a, h1, l, h2, r, h3, h4⟩ := h
      exact ⟨a, h1, l, h2, r, locbLoopD_sub fuel h3, h4⟩

/-! ### No assertion fails when all distances are ordinary numbers -/

/-- Every pair of active clusters has a finite distance below `f32::MAX`. -/
def GoodDists (input : List (BvhNode F)) (b e : Nat) : Prop :=
  ∀ i j, b ≤ i → i < j → j < e → (pd input i j <. (maxFinite : F)) = true ∧ isInfinite (pd input i j) = false

theorem searchOneD_eq {r : Nat} {input : List (BvhNode F)} {b e i : Nat} (hb : b ≤ i) (he : i < e)
    (hin : e ≤ input.length) (hg : GoodDists input b e) (hn : (bestOf r input b e i).neighbour ≠ -1) {m : DistMat F}
    (hm : MatInv r input b e i m) : searchOneD r input b e i m = searchOne r input b e i m := by
  have sb : b ≤ (searchRange r i b e).1 ∧ (searchRange r i b e).1 ≤ i ∧ i - (searchRange r i b e).1 ≤ r := by
    unfold searchRange; simp only; split <;> omega
  have se : (searchRange r i b e).2 = Min.min (i + r + 1) e := rfl
  obtain ⟨m', e1, _⟩ := searchOne_spec r input b e i hb he hin m hm
  rw [e1]
  unfold searchOne at e1
  unfold searchOneD
  rw [forRange_same (f := fun j best => (m.read (i - j) (i - j - 1)).map fun d => best.offer d j)
    (fun _ _ => True) trivial (by
      intro j s h1 h2 _
      refine ⟨?_, fun _ _ => trivial⟩
      rw [hm.vals j i (by omega) (by omega) (by omega) (by omega) (by omega) he]
      simp only [Option.bind_some, Option.map_some, dbg, (hg j i (by omega) (by omega) he).2, Bool.not_false, if_true])]
  rw [Option.bind_eq_some_iff] at e1
  obtain ⟨best, g1, g2⟩ := e1
  rw [g1]
  simp only [Option.bind_some]
  rw [forRange_same (f := fun j (s : DistMat F × Best F) =>
      (pairDist input i j).bind fun d => (s.1.write 0 (j - i - 1) d).map fun m => (m, s.2.offer d j))
    (fun _ _ => True) trivial (by
      intro j s h1 h2 _
      refine ⟨?_, fun _ _ => trivial⟩
      rw [pairDist_eq (show i < input.length by omega) (show j < input.length by omega)]
      simp only [Option.bind_some, dbg, (hg i j (by omega) (by omega) (by omega)).2, Bool.not_false, if_true]), g2]
  simp only [Option.bind_some, dbg]
  rw [if_pos (by simpa using hn)]

theorem searchChunkD_eq {r : Nat} {input : List (BvhNode F)} {b e cb ce : Nat} (hb : b ≤ cb) (he : cb ≤ ce) (hce : ce ≤ e)
    (hin : e ≤ input.length) (hg : GoodDists input b e)
    (hn : ∀ i, b ≤ i → i < e → (bestOf r input b e i).neighbour ≠ -1) (aux : List Nat) :
    searchChunkD r input b e cb ce aux = searchChunk r input b e cb ce aux := by
  obtain ⟨m, e1, hm⟩ := fillMatrix_spec r input b e cb hb (by omega) hin
  unfold searchChunkD searchChunk
  rw [e1]
  simp only [Option.bind_some]
  congr 1
  refine forRange_same (fun i s => MatInv r input b e i s.1) hm ?_
  rintro i ⟨m1, aux1⟩ hi hi' q1
  simp only at q1
  refine ⟨by rw [searchOneD_eq (by omega) (by omega) hin hg (hn i (by omega) (by omega)) q1], ?_⟩
  intro s' hs
  obtain ⟨m2, s1, s2, s3, s4, s5⟩ := searchOne_spec r input b e i (by omega) (by omega) hin m1 q1
  obtain ⟨m3, t1, t2, t3, t4⟩ := rotate_spec s2 s3
  simp only [s1, Option.bind_some, t1, Option.map_some, Option.bind_eq_some_iff] at hs
  obtain ⟨a, _, ha⟩ := hs
  cases ha
  refine ⟨t2, t3, ?_⟩
  intro j k g1 g2 g3 g4 g5 g6
  by_cases hji : j = i
  · subst hji
    rw [show j + 1 - j = 0 + 1 by omega, t4 0 _ (by omega)]
    exact s5 k g4 g5 g6
  · rw [show i + 1 - j = (i - j) + 1 by omega, t4 _ _ (by omega), s4 _ _ (by omega)]
    exact q1.vals j k g1 (by omega) (by omega) g4 g5 g6

theorem searchAllD_eq {r t : Nat} {input : List (BvhNode F)} {b e : Nat} (ht : 0 < t) (hbe : b ≤ e)
    (hin : e ≤ input.length) (hg : GoodDists input b e)
    (hn : ∀ i, b ≤ i → i < e → (bestOf r input b e i).neighbour ≠ -1) (aux : List Nat) :
    searchAllD r t input b e aux = searchAll r t input b e aux := by
  unfold searchAllD searchAll
  simp only
  generalize hcs : (e - b) / t = cs
  have hcs' : t * cs ≤ e - b := by rw [← hcs]; exact Nat.mul_div_le _ _
  have hle : ∀ id, id ≤ t → b + id * cs ≤ e := by
    intro id hid
    have : id * cs ≤ t * cs := Nat.mul_le_mul_right _ hid
    omega
  refine forRange_same (fun _ _ => True) trivial ?_
  intro id s _ hid _
  have h1 := hle id (by omega)
  have h2 : b + id * cs + cs = b + (id + 1) * cs := by rw [Nat.add_mul]; omega
  have h3 := hle (id + 1) (by omega)
  exact ⟨searchChunkD_eq (by omega) (by split <;> omega) (by split <;> omega) hin hg hn s, fun _ _ => trivial⟩

theorem best_ne {r : Nat} {input : List (BvhNode F)} {b e i : Nat} (hs : e ≤ 2 ^ 32 - 1)
    (h : nbOf r input b e i < e) : (bestOf r input b e i).neighbour ≠ -1 := by
  intro hc
  unfold nbOf at h
  rw [hc] at h
  have : asU32 (-1) = 2 ^ 32 - 1 := rfl
  omega

end

/-! ### The scene condition -/

section
variable [FloatOps F] [LawfulFloat F]
open LawfulFloat

theorem halfArea_nonneg {w a : Aabb F} (hmin : w.min.Finite) (hmax : w.max.Finite) (hdg : w.diagonal.Finite)
    (hsum : Fin' (w.diagonal.x +. w.diagonal.y)) (ha : InBox w a) : ((zero : F) <=. a.halfArea) = true := by
  obtain ⟨⟨⟨a1, a2, a3⟩, b1, b2, b3⟩, c1, c2, c3⟩ := ha
  obtain ⟨f1, f2, f3⟩ := hmin
  obtain ⟨g1, g2, g3⟩ := hmax
  obtain ⟨d1, d2, d3⟩ := hdg
  obtain ⟨x1, x2, x3⟩ := diff_facts f1 g1 d1 a1 c1 b1
  obtain ⟨y1, y2, y3⟩ := diff_facts f2 g2 d2 a2 c2 b2
  obtain ⟨z1, z2, z3⟩ := diff_facts f3 g3 d3 a3 c3 b3
  change Fin' ((w.max.x -. w.min.x) +. (w.max.y -. w.min.y)) at hsum
  show (zero <=. ((a.max.x -. a.min.x) +. (a.max.y -. a.min.y)) *. (a.max.z -. a.min.z) +.
    (a.max.x -. a.min.x) *. (a.max.y -. a.min.y)) = true
  generalize a.max.x -. a.min.x = dx at *
  generalize a.max.y -. a.min.y = dy at *
  generalize a.max.z -. a.min.z = dz at *
  change Fin' (w.max.x -. w.min.x) at d1
  change Fin' (w.max.y -. w.min.y) at d2
  generalize w.max.x -. w.min.x = wx at *
  generalize w.max.y -. w.min.y = wy at *
  have s0 : (zero <=. dx +. dy) = true := add_nonneg x2 y2
  have s1 : (dx +. dy <=. wx +. wy) = true := by
    have e1 : (dx +. dy <=. wx +. dy) = true := add_mono dy x3 (add_fin (fin_num x1) y1) (add_fin (fin_num d1) y1)
    have e2 : (dy +. wx <=. wy +. wx) = true := add_mono wx y3 (add_fin (fin_num y1) d1) (add_fin (fin_num d2) d1)
    rw [add_comm dy wx, add_comm wy wx] at e2
    exact le_trans e1 e2
  have fs : Fin' (dx +. dy) := fin_between (lit_fin (m := 0) (e := 0) (by decide) (by decide) (by decide)) hsum s0 s1
  exact add_nonneg (mul_nonneg s0 z2 (mul_fin_fin fs z1)) (mul_nonneg x2 y2 (mul_fin_fin x1 y1))

theorem good_dists {w : Aabb F} {n : Nat} {sorted : List Nat} {boxes : List (Aabb F)}
    {nodes copy : List (BvhNode F)} {aux : List Nat} {b e pe : Nat} {tr : Nat → BTree F} (hM : Fin' (maxFinite : F))
    (hs : LocScene w boxes) (I : LocInv n sorted boxes nodes copy aux b e pe tr) : GoodDists nodes b e := by
  have h1 := I.count
  have h2 := I.le
  have h3 := I.peLe
  intro i j hi hij hj
  obtain ⟨nd1, g1, d1⟩ := I.dec (i - b) (by omega)
  obtain ⟨nd2, g2, d2⟩ := I.dec (j - b) (by omega)
  rw [show b + (i - b) = i by omega] at g1
  rw [show b + (j - b) = j by omega] at g2
  have p1 := locTree_inBox (scene_inBox hs) _ (I.loc (i - b) (by omega))
  have p2 := locTree_inBox (scene_inBox hs) _ (I.loc (j - b) (by omega))
  rw [d1.bounds] at p1
  rw [d2.bounds] at p2
  have : pd nodes i j = (nd1.bounds.unionOf nd2.bounds).halfArea := by
    unfold pd pairDist
    rw [g1, g2]; rfl
  rw [this]
  have hu := InBox.union (a := nd1.bounds.clean) (b := nd2.bounds.clean) p1 p2
  have hlt : ((nd1.bounds.unionOf nd2.bounds).halfArea <. (maxFinite : F)) = true := halfArea_lt hs.1 hu
  have h0 : ((zero : F) <=. (nd1.bounds.unionOf nd2.bounds).halfArea) = true :=
    halfArea_nonneg hs.1.min hs.1.max hs.1.diagonal hs.1.sum hu
  refine ⟨hlt, ?_⟩
  have hf : Fin' (nd1.bounds.unionOf nd2.bounds).halfArea :=
    fin_between (lit_fin (m := 0) (e := 0) (by decide) (by decide) (by decide)) hM h0 (le_of_lt' hlt)
  unfold isInfinite
  cases hc : ((maxFinite : F) <. FloatOps.abs (nd1.bounds.unionOf nd2.bounds).halfArea) with
  | false => rfl
  | true => exact (not_lt_self' hc hf).elim

theorem locbLoopD_eq {w : Aabb F} {n : Nat} {sorted : List Nat} {boxes : List (Aabb F)} {t : Nat}
    (hM : Fin' (maxFinite : F)) (hs : LocScene w boxes) (hn : n ≤ 2 ^ 30) (ht : 0 < t) (fuel : Nat) :
    ∀ (nodes copy : List (BvhNode F)) (aux : List Nat) (b e pe : Nat) (tr : Nat → BTree F),
      LocInv n sorted boxes nodes copy aux b e pe tr →
      locbLoopD 14 t (2 * n - 1) fuel nodes copy aux b e pe = locbLoop 14 t (2 * n - 1) fuel nodes copy aux b e pe := by
  induction fuel with
  | zero => intro nodes copy aux b e pe tr I; rfl
  | succ fuel ih =>
    intro nodes copy aux b e pe tr I
    have hcnt := I.count
    have hle := I.le
    have hpe := I.peLe
    unfold locbLoopD locbLoop
    by_cases h : e - b > 1
    · obtain ⟨p1, p2⟩ := inv_progress hs hn I (by omega)
      obtain ⟨out, aux', e1, _, I'⟩ := round_spec I hn 14 t ht (by omega) p1
      have e2 : locbClusterD 14 t (2 * n - 1) nodes copy aux b e pe = locbCluster 14 t (2 * n - 1) nodes copy aux b e pe := by
        unfold locbClusterD locbCluster
        rw [searchAllD_eq ht (by omega) (by rw [I.lenN]; omega) (good_dists hM hs I)
          (fun i h1 h2 => best_ne (by omega) (p1 i h1 h2).2.1)]
      rw [if_pos h, if_pos h, e2, e1]
      simp only [Option.bind_some]
      exact ih _ _ _ _ _ _ _ I'
    · rw [if_neg h, if_neg h]

theorem locbBuildD_eq {w : Aabb F} {aabbs : List (Aabb F)} {centers : List (Vec3 F)} {t fuel : Nat}
    (hM : Fin' (maxFinite : F)) (hsc : LocScene w aabbs) (ht : 0 < t)
    (hl : centers.length = aabbs.length) (hs : aabbs.length ≤ 2 ^ 30) :
    locbBuildD t fuel aabbs centers = locbBuild t fuel aabbs centers := by
  unfold locbBuildD locbBuild
  simp only
  by_cases hc : centers.length ≠ aabbs.length ∨ centers = [] ∨ aabbs = []
  · rw [if_pos hc, if_pos hc]
  · rw [if_neg hc, if_neg hc]
    by_cases h2 : aabbs.length ≤ 2
    · rw [if_pos h2, if_pos h2]
    · rw [if_neg h2, if_neg h2]
      obtain ⟨sorted, codes, e1, hp⟩ := sorted_of hl
        (MortonEncoder.new (Aabb.unionOfList aabbs) MortonEncoder.maxGridDim)
      rw [e1]
      simp only [Option.bind_some]
      obtain ⟨leaves, tr, e2, I, _⟩ := init_inv (n := aabbs.length) rfl hp (by omega) (by omega)
        (List.replicate (2 * aabbs.length - 1) ((({ bounds := Aabb.ofPoints2 (Vec3.splat zero) (Vec3.splat zero) }
          : BvhNode F).setCount none).setLeftFirst (some 0))) (by simp)
      rw [e2]
      simp only [Option.bind_some]
      rw [show 2 * aabbs.length - 1 - aabbs.length = aabbs.length - 1 by omega,
        locbLoopD_eq hM hsc hs ht fuel _ _ _ _ _ _ _ I]

end
end Rtbvh
