import Verif.Spec.Triangle
import Verif.Proofs.Box
import Verif.Proofs.ExactRay
import Verif.Proofs.F32Laws
import Verif.Props.Slab
import Mathlib.Tactic.Ring
import Mathlib.Tactic.FieldSimp
import Mathlib.Tactic.Linarith
/- Properties C38-C41 of the triangle tests and of the triangle split. -/
namespace Rtbvh
open FloatOps

section
variable {F : Type} [FloatOps F]

/-- C38, any float behaviour: if `intersect` returns true, the new `t` is above `t_min` and below the old `t` and
nothing else changed; if it returns false the ray is unchanged. -/
theorem C38_intersect_protocol (tr : Triangle F) (ray : Ray F) :
    ((tr.intersect ray).2 = true → (tr.intersect ray).1 = { ray with t := (tr.intersect ray).1.t } ∧
      (ray.tMin <. (tr.intersect ray).1.t) = true ∧ ((tr.intersect ray).1.t <. ray.t) = true) ∧
    ((tr.intersect ray).2 = false → (tr.intersect ray).1 = ray) := by
  unfold Triangle.intersect
  simp only
  split
  · simp
  · split
    · simp
    · split
      · simp
      · split
        · rename_i h
          simp only [Bool.and_eq_true] at h
          refine ⟨fun _ => ⟨rfl, h.1, h.2⟩, fun h => by cases h⟩
        · simp

/-- Whether and where a triangle would be hit does not depend on `ray.t`, which is only the upper limit. -/
theorem intersect_limit (tr : Triangle F) (ray : Ray F) :
    (∃ c, ∀ t, tr.intersect { ray with t := t } =
      if (c <. t) = true then ({ ray with t := c }, true) else ({ ray with t := t }, false)) ∨
    (∀ t, tr.intersect { ray with t := t } = ({ ray with t := t }, false)) := by
  unfold Triangle.intersect
  simp only
  split
  · exact .inr fun _ => rfl
  · split
    · exact .inr fun _ => rfl
    · split
      · exact .inr fun _ => rfl
      · by_cases hm : (FloatOps.gt ((one : F) /. (tr.v1.sub tr.v0).dot (ray.direction.cross (tr.v2.sub tr.v0)) *.
          (tr.v2.sub tr.v0).dot ((ray.origin.sub tr.v0).cross (tr.v1.sub tr.v0))) ray.tMin) = true
        · refine .inl ⟨(one : F) /. (tr.v1.sub tr.v0).dot (ray.direction.cross (tr.v2.sub tr.v0)) *.
            (tr.v2.sub tr.v0).dot ((ray.origin.sub tr.v0).cross (tr.v1.sub tr.v0)), fun t => ?_⟩
          simp only [hm, Bool.true_and]
        · refine .inr fun t => ?_
          simp only [Bool.not_eq_true] at hm
          simp [hm]

variable [LawfulFloat F]

/-- C38: `intersect` returns true exactly when it changed `ray.t`. -/
theorem C38_intersect_changes (tr : Triangle F) (ray : Ray F) :
    (tr.intersect ray).2 = true ↔ (tr.intersect ray).1.t ≠ ray.t := by
  obtain ⟨h1, h2⟩ := C38_intersect_protocol tr ray
  constructor
  · intro h e
    have := (h1 h).2.2
    rw [e] at this
    obtain ⟨hn, _, hf⟩ := LawfulFloat.lt_iff.1 this
    rw [LawfulFloat.le_refl hn] at hf
    cases hf
  · intro h
    cases hb : (tr.intersect ray).2 with
    | true => rfl
    | false => rw [h2 hb] at h; exact absurd rfl h

/-- Intersect a ray with a sequence of triangles, one after the other. -/
def intersectAll (tris : List (Triangle F)) (ray : Ray F) : Ray F := tris.foldl (fun r tr => (tr.intersect r).1) ray

/-- C38 for any sequence of triangles: only `t` changes; the final `t` is the old one or what one of the triangles
reports alone; it never increases; and no triangle of the sequence reports anything nearer. -/
theorem C38_sequence (tris : List (Triangle F)) (ray : Ray F) (hn : Num ray.t) :
    (intersectAll tris ray) = { ray with t := (intersectAll tris ray).t } ∧
    ((intersectAll tris ray).t <=. ray.t) = true ∧
    ((intersectAll tris ray).t = ray.t ∨
      ∃ tr ∈ tris, (tr.intersect ray).2 = true ∧ (intersectAll tris ray).t = (tr.intersect ray).1.t) ∧
    ∀ tr ∈ tris, (tr.intersect (intersectAll tris ray)).2 = false := by
  have key : ∀ (tris : List (Triangle F)) (t : F), Num t → ∃ t', intersectAll tris { ray with t := t } = { ray with t := t' } ∧
      Num t' ∧ (t' <=. t) = true ∧
      (t' = t ∨ ∃ tr ∈ tris, tr.intersect { ray with t := t } = ({ ray with t := t' }, true)) ∧
      ∀ tr ∈ tris, (tr.intersect { ray with t := t' }).2 = false := by
    intro tris
    induction tris with
    | nil => intro t ht; exact ⟨t, rfl, ht, LawfulFloat.le_refl ht, .inl rfl, by simp⟩
    | cons tr tris ih =>
      intro t ht
      rcases intersect_limit tr ray with ⟨c, hc⟩ | hc
      · by_cases hlt : (c <. t) = true
        · have hst : tr.intersect { ray with t := t } = ({ ray with t := c }, true) := by rw [hc, if_pos hlt]
          obtain ⟨hcn, _, hct⟩ := LawfulFloat.lt_iff.1 hlt
          have hle : (c <=. t) = true := (LawfulFloat.le_total hcn ht).resolve_right (by rw [hct]; simp)
          obtain ⟨t', e, n', l', r', a'⟩ := ih c hcn
          have e' : intersectAll (tr :: tris) { ray with t := t } = { ray with t := t' } := by
            simp only [intersectAll, List.foldl_cons, hst]; exact e
          refine ⟨t', e', n', LawfulFloat.le_trans l' hle, .inr ?_, ?_⟩
          · rcases r' with rfl | ⟨tr', hm, he⟩
            · exact ⟨tr, by simp, hst⟩
            · refine ⟨tr', by simp [hm], ?_⟩
              rcases intersect_limit tr' ray with ⟨c', hc'⟩ | hc'
              · rw [hc'] at he ⊢
                split at he
                · rename_i hlt'
                  have hceq : c' = t' := by simpa using he
                  subst hceq
                  obtain ⟨hcn', _, hf'⟩ := LawfulFloat.lt_iff.1 hlt'
                  rw [if_pos]
                  refine LawfulFloat.lt_iff.2 ⟨hcn', ht, ?_⟩
                  cases h : (t <=. c') with
                  | false => rfl
                  | true => rw [LawfulFloat.le_trans hle h] at hf'; cases hf'
                · simp at he
              · rw [hc'] at he; simp at he
          · intro tr' hm
            rcases List.mem_cons.1 hm with rfl | hm
            · rw [hc, if_neg]
              intro h
              obtain ⟨_, _, h'⟩ := LawfulFloat.lt_iff.1 h
              rw [l'] at h'; cases h'
            · exact a' tr' hm
        · have hst : tr.intersect { ray with t := t } = ({ ray with t := t }, false) := by rw [hc, if_neg hlt]
          obtain ⟨t', e, n', l', r', a'⟩ := ih t ht
          have e' : intersectAll (tr :: tris) { ray with t := t } = { ray with t := t' } := by
            simp only [intersectAll, List.foldl_cons, hst]; exact e
          refine ⟨t', e', n', l', ?_, ?_⟩
          · rcases r' with h | ⟨tr', hm, he⟩
            · exact .inl h
            · exact .inr ⟨tr', by simp [hm], he⟩
          · intro tr' hm
            rcases List.mem_cons.1 hm with rfl | hm
            · rw [hc, if_neg]
              intro h
              obtain ⟨n1, n2, h'⟩ := LawfulFloat.lt_iff.1 h
              apply hlt
              refine LawfulFloat.lt_iff.2 ⟨n1, ht, ?_⟩
              cases hh : (t <=. c) with
              | false => rfl
              | true => rw [LawfulFloat.le_trans l' hh] at h'; cases h'
            · exact a' tr' hm
      · have hst : tr.intersect { ray with t := t } = ({ ray with t := t }, false) := hc t
        obtain ⟨t', e, n', l', r', a'⟩ := ih t ht
        have e' : intersectAll (tr :: tris) { ray with t := t } = { ray with t := t' } := by
          simp only [intersectAll, List.foldl_cons, hst]; exact e
        refine ⟨t', e', n', l', ?_, ?_⟩
        · rcases r' with h | ⟨tr', hm, he⟩
          · exact .inl h
          · exact .inr ⟨tr', by simp [hm], he⟩
        · intro tr' hm
          rcases List.mem_cons.1 hm with rfl | hm
          · rw [hc]
          · exact a' tr' hm
  obtain ⟨t', e, n', l', r', a'⟩ := key tris ray.t hn
  have e : intersectAll tris ray = { ray with t := t' } := e
  rw [e]
  refine ⟨rfl, l', ?_, a'⟩
  rcases r' with h | ⟨tr, hm, he⟩
  · exact .inl h
  · have he : tr.intersect ray = ({ ray with t := t' }, true) := he
    exact .inr ⟨tr, hm, by rw [he], by rw [he]⟩
end

/-! ### C39: exact arithmetic -/

theorem det_eq (tr : Triangle Rat) (d : Vec3 Rat) :
    (tr.v1.sub tr.v0).dot (d.cross (tr.v2.sub tr.v0)) = tr.det d := by
  simp only [Vec3.sub, Vec3.map2, Vec3.cross, Vec3.dot, FloatOps.sub, FloatOps.mul, FloatOps.add, Triangle.det]
  ring

/-- Cramer's rule: with a non-zero determinant `a` the system `r.at t = tr.point u v` has exactly the solution computed
by the code. -/
theorem cramer (tr : Triangle Rat) (r : Ray Rat) (h : tr.det r.direction ≠ 0) (u v t : Rat) :
    r.at t = tr.point u v ↔
      u = 1 / tr.det r.direction * (r.origin.sub tr.v0).dot (r.direction.cross (tr.v2.sub tr.v0)) ∧
      v = 1 / tr.det r.direction * r.direction.dot ((r.origin.sub tr.v0).cross (tr.v1.sub tr.v0)) ∧
      t = 1 / tr.det r.direction * (tr.v2.sub tr.v0).dot ((r.origin.sub tr.v0).cross (tr.v1.sub tr.v0)) := by
  obtain ⟨o, _, d, _, _, _, _, _⟩ := r
  obtain ⟨a, b, c⟩ := tr
  obtain ⟨ox, oy, oz⟩ := o
  obtain ⟨dx, dy, dz⟩ := d
  obtain ⟨ax, ay, az⟩ := a
  obtain ⟨bx, bY, bz⟩ := b
  obtain ⟨cx, cy, cz⟩ := c
  simp only [Vec3.sub, Vec3.map2, Vec3.cross, Vec3.dot, FloatOps.sub, FloatOps.mul, FloatOps.add, Triangle.det,
    Ray.at, Triangle.point, Vec3.mk.injEq] at h ⊢
  generalize hD : (bx - ax) * (dy * (cz - az) - dz * (cy - ay)) - (bY - ay) * (dx * (cz - az) - dz * (cx - ax)) +
    (bz - az) * (dx * (cy - ay) - dy * (cx - ax)) = D at h ⊢
  constructor
  · rintro ⟨h1, h2, h3⟩
    have e1 : ox = (1 - u - v) * ax + u * bx + v * cx - t * dx := by linarith
    have e2 : oy = (1 - u - v) * ay + u * bY + v * cy - t * dy := by linarith
    have e3 : oz = (1 - u - v) * az + u * bz + v * cz - t * dz := by linarith
    subst e1 e2 e3
    refine ⟨?_, ?_, ?_⟩
    · rw [one_div, eq_inv_mul_iff_mul_eq₀ h, ← hD]; ring
    · rw [one_div, eq_inv_mul_iff_mul_eq₀ h, ← hD]; ring
    · rw [one_div, eq_inv_mul_iff_mul_eq₀ h, ← hD]; ring
  · rintro ⟨rfl, rfl, rfl⟩
    refine ⟨?_, ?_, ?_⟩
    · apply mul_left_cancel₀ h; field_simp; rw [← hD]; ring
    · apply mul_left_cancel₀ h; field_simp; rw [← hD]; ring
    · apply mul_left_cancel₀ h; field_simp; rw [← hD]; ring

/-- C39: in exact arithmetic `intersect` returns true exactly if the determinant is not in the open interval
`(-1e-5, 1e-5)` and the ray meets the closed triangle at a parameter in `(t_min, t)`; that parameter is unique and is
the new `t`. -/
theorem C39_intersect_exact (tr : Triangle Rat) (ray : Ray Rat) :
    ((tr.intersect ray).2 = true ↔ (tr.det ray.direction ≤ -(1 / 100000) ∨ 1 / 100000 ≤ tr.det ray.direction) ∧
      ∃ t, ray.tMin < t ∧ t < ray.t ∧ tr.Has (ray.at t)) ∧
    ((tr.intersect ray).2 = true → tr.Has (ray.at (tr.intersect ray).1.t) ∧
      ∀ t, tr.Has (ray.at t) → t = (tr.intersect ray).1.t) := by
  have hm5 : (lit (-1) (-5) : Rat) = -(1 / 100000) := by
    show ((-1 : Int) : Rat) * ratPow10 (-5) = _
    simp [ratPow10]
  have hp5 : (lit 1 (-5) : Rat) = 1 / 100000 := by
    show ((1 : Int) : Rat) * ratPow10 (-5) = _
    simp [ratPow10]
  have h0 : (zero : Rat) = 0 := by show ((0 : Int) : Rat) * ratPow10 0 = _; simp
  have h1 : (one : Rat) = 1 := by show ((1 : Int) : Rat) * ratPow10 0 = _; simp [ratPow10]
  by_cases hdet : -(1 / 100000) < tr.det ray.direction ∧ tr.det ray.direction < 1 / 100000
  · have hf : tr.intersect ray = (ray, false) := by
      unfold Triangle.intersect
      simp only [det_eq, hm5, hp5]
      rw [if_pos]
      rw [Bool.and_eq_true]
      exact ⟨rat_ge_iff.2 hdet.1, rat_lt.2 hdet.2⟩
    rw [hf]
    refine ⟨⟨fun h => by simp at h, ?_⟩, fun h => by simp at h⟩
    rintro ⟨h | h, _⟩
    · linarith [hdet.1]
    · linarith [hdet.2]
  · have hout : tr.det ray.direction ≤ -(1 / 100000) ∨ 1 / 100000 ≤ tr.det ray.direction := by
      rcases lt_or_ge (-(1 / 100000) : Rat) (tr.det ray.direction) with h | h
      · exact .inr (not_lt.1 fun h' => hdet ⟨h, h'⟩)
      · exact .inl h
    have hne : tr.det ray.direction ≠ 0 := by
      rcases hout with h | h
      · intro e; rw [e] at h; norm_num at h
      · intro e; rw [e] at h; norm_num at h
    have hcr := cramer tr ray hne
    -- names for the three computed numbers
    generalize hu : 1 / tr.det ray.direction * (ray.origin.sub tr.v0).dot (ray.direction.cross (tr.v2.sub tr.v0)) = u at hcr
    generalize hv : 1 / tr.det ray.direction * ray.direction.dot ((ray.origin.sub tr.v0).cross (tr.v1.sub tr.v0)) = v at hcr
    generalize ht : 1 / tr.det ray.direction *
      (tr.v2.sub tr.v0).dot ((ray.origin.sub tr.v0).cross (tr.v1.sub tr.v0)) = t at hcr
    have hform : tr.intersect ray = if (0 ≤ u ∧ 0 ≤ v ∧ u + v ≤ 1) ∧ ray.tMin < t ∧ t < ray.t then
        ({ ray with t := t }, true) else (ray, false) := by
      have hu' : (one : Rat) /. (tr.v1.sub tr.v0).dot (ray.direction.cross (tr.v2.sub tr.v0)) *.
          (ray.origin.sub tr.v0).dot (ray.direction.cross (tr.v2.sub tr.v0)) = u := by rw [det_eq, h1, ← hu]; rfl
      have hv' : (one : Rat) /. (tr.v1.sub tr.v0).dot (ray.direction.cross (tr.v2.sub tr.v0)) *.
          ray.direction.dot ((ray.origin.sub tr.v0).cross (tr.v1.sub tr.v0)) = v := by rw [det_eq, h1, ← hv]; rfl
      have ht' : (one : Rat) /. (tr.v1.sub tr.v0).dot (ray.direction.cross (tr.v2.sub tr.v0)) *.
          (tr.v2.sub tr.v0).dot ((ray.origin.sub tr.v0).cross (tr.v1.sub tr.v0)) = t := by rw [det_eq, h1, ← ht]; rfl
      unfold Triangle.intersect
      simp only [hu', hv', ht']
      rw [if_neg (by
        rw [Bool.and_eq_true, det_eq, hm5, hp5]
        rintro ⟨c1, c2⟩
        exact hdet ⟨rat_ge_iff.1 c1, rat_lt.1 c2⟩)]
      rw [h0, h1]
      by_cases c1 : 0 ≤ u ∧ u ≤ 1
      · rw [if_neg (show ¬ ((!(0 <=. u && u <=. 1)) = true) by
          rw [rat_le.2 c1.1, rat_le.2 c1.2]; simp)]
        by_cases c2 : 0 ≤ v ∧ u + v ≤ 1
        · rw [if_neg (show ¬ ((v <. 0 || (u +. v) >. 1) = true) by
            rw [Bool.or_eq_true]
            rintro (c | c)
            · have := rat_lt.1 c; linarith [c2.1]
            · have : 1 < u + v := rat_ge_iff.1 c; linarith [c2.2])]
          by_cases c3 : ray.tMin < t ∧ t < ray.t
          · have P : (0 ≤ u ∧ 0 ≤ v ∧ u + v ≤ 1) ∧ ray.tMin < t ∧ t < ray.t := ⟨⟨c1.1, c2⟩, c3⟩
            rw [if_pos P, if_pos]
            rw [Bool.and_eq_true]
            exact ⟨rat_ge_iff.2 c3.1, rat_lt.2 c3.2⟩
          · have P : ¬ ((0 ≤ u ∧ 0 ≤ v ∧ u + v ≤ 1) ∧ ray.tMin < t ∧ t < ray.t) := fun h => c3 h.2
            rw [if_neg P, if_neg]
            rw [Bool.and_eq_true]
            rintro ⟨x1, x2⟩
            exact c3 ⟨rat_ge_iff.1 x1, rat_lt.1 x2⟩
        · have P : ¬ ((0 ≤ u ∧ 0 ≤ v ∧ u + v ≤ 1) ∧ ray.tMin < t ∧ t < ray.t) := fun h => c2 h.1.2
          have Q : (v <. 0 || (u +. v) >. 1) = true := by
            rw [Bool.or_eq_true]
            rcases lt_or_ge v 0 with h | h
            · exact .inl (rat_lt.2 h)
            · refine .inr (rat_ge_iff.2 ?_)
              show 1 < u + v
              exact not_le.1 fun h' => c2 ⟨h, h'⟩
          rw [if_pos Q, if_neg P]
      · have P : ¬ ((0 ≤ u ∧ 0 ≤ v ∧ u + v ≤ 1) ∧ ray.tMin < t ∧ t < ray.t) :=
          fun h => c1 ⟨h.1.1, by linarith [h.1.2.1, h.1.2.2]⟩
        have Q : (!(0 <=. u && u <=. 1)) = true := by
          rw [Bool.not_eq_true', Bool.eq_false_iff]
          intro h
          rw [Bool.and_eq_true] at h
          exact c1 ⟨rat_le.1 h.1, rat_le.1 h.2⟩
        rw [if_pos Q, if_neg P]
    have hhas : ∀ s, tr.Has (ray.at s) ↔ s = t ∧ 0 ≤ u ∧ 0 ≤ v ∧ u + v ≤ 1 := by
      intro s
      constructor
      · rintro ⟨u', v', a, b, c, e⟩
        obtain ⟨rfl, rfl, rfl⟩ := (hcr u' v' s).1 e
        exact ⟨rfl, a, b, c⟩
      · rintro ⟨rfl, a, b, c⟩
        exact ⟨u, v, a, b, c, (hcr u v s).2 ⟨rfl, rfl, rfl⟩⟩
    rw [hform]
    split
    · rename_i h
      refine ⟨⟨fun _ => ⟨hout, t, h.2.1, h.2.2, (hhas t).2 ⟨rfl, h.1⟩⟩, fun _ => rfl⟩, fun _ => ⟨(hhas t).2 ⟨rfl, h.1⟩, ?_⟩⟩
      intro s hs
      exact ((hhas s).1 hs).1
    · rename_i h
      refine ⟨⟨fun h => by simp at h, ?_⟩, fun h => by simp at h⟩
      rintro ⟨_, s, hs1, hs2, hs⟩
      obtain ⟨rfl, hs3⟩ := (hhas s).1 hs
      exact absurd ⟨hs3, hs1, hs2⟩ h

/-- C39: every point of a triangle lies in every box that contains the three vertices, in particular the hit point
lies in the triangle's AABB. -/
theorem C39_hit_in_box (tr : Triangle Rat) (p : Vec3 Rat) (h : tr.Has p) (b : Aabb Rat) (h0 : b.Has tr.v0)
    (h1 : b.Has tr.v1) (h2 : b.Has tr.v2) : b.Has p := by
  obtain ⟨u, v, hu, hv, huv, rfl⟩ := h
  have lo : ∀ m x y z : Rat, m ≤ x → m ≤ y → m ≤ z → m ≤ (1 - u - v) * x + u * y + v * z := by
    intro m x y z hx hy hz
    have e : (1 - u - v) * m + u * m + v * m = m := by ring
    have a1 := mul_le_mul_of_nonneg_left hx (show (0 : Rat) ≤ 1 - u - v by linarith)
    have a2 := mul_le_mul_of_nonneg_left hy hu
    have a3 := mul_le_mul_of_nonneg_left hz hv
    linarith
  have hi : ∀ m x y z : Rat, x ≤ m → y ≤ m → z ≤ m → (1 - u - v) * x + u * y + v * z ≤ m := by
    intro m x y z hx hy hz
    have e : (1 - u - v) * m + u * m + v * m = m := by ring
    have a1 := mul_le_mul_of_nonneg_left hx (show (0 : Rat) ≤ 1 - u - v by linarith)
    have a2 := mul_le_mul_of_nonneg_left hy hu
    have a3 := mul_le_mul_of_nonneg_left hz hv
    linarith
  obtain ⟨⟨p1, p2, p3⟩, ⟨p4, p5, p6⟩⟩ := h0
  obtain ⟨⟨q1, q2, q3⟩, ⟨q4, q5, q6⟩⟩ := h1
  obtain ⟨⟨r1, r2, r3⟩, ⟨r4, r5, r6⟩⟩ := h2
  rw [rat_le] at p1 p2 p3 p4 p5 p6 q1 q2 q3 q4 q5 q6 r1 r2 r3 r4 r5 r6
  refine ⟨⟨?_, ?_, ?_⟩, ⟨?_, ?_, ?_⟩⟩ <;> rw [rat_le]
  · exact lo _ _ _ _ p1 q1 r1
  · exact lo _ _ _ _ p2 q2 r2
  · exact lo _ _ _ _ p3 q3 r3
  · exact hi _ _ _ _ p4 q4 r4
  · exact hi _ _ _ _ p5 q5 r5
  · exact hi _ _ _ _ p6 q6 r6

end Rtbvh
