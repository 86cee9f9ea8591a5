import Verif.Props.FfiSpatial
import Verif.Props.SpatialRounded
import Verif.Props.FfiWatertight
/- Property C81: what a query of a spatial BVH through the C interface is sure to report. -/
namespace Rtbvh
open FloatOps LawfulFloat Aabb

/-- C81, hits, the part that holds (binary32, rounding included; the boxes of the caller, the library's own clipping): after
any history of calls that neither refit nor free the handle, `intersect` with a callback that does not stop calls back with
every id that is listed only once and is not overwritten by a move, if
* the box test of the ray passes the caller's (valid) box, or
* the caller's box contains, with a margin of 1e-4, a box that the ray meets in exact arithmetic.
Missing: ids listed twice (the clipping loses parts of the triangle, `C41_split_misses_f32`) or overwritten (C76), boxes computed by the
library (`C81_null_boxes_miss`). -/
theorem C81_hits_partial {D : Type} {es₁ es₂ : List (Event F32)} {m m₁ m₂ : Manager F32} {boxes : Nat → RTAabb F32}
    {n : Nat} {c v : Nat → F32} {stride vs ts ppl : Nat} {null : Bool}
    {sort : Fin 3 → List (Ref F32) → Option (List (Ref F32))} {env : BuildEnv} {a : Nat} {code : ResultCode} {h : Handle}
    (h₁ : History .empty es₁ m) (ha : m.Free a)
    (hcall : m.createSpatialBvh (some boxes) n c v stride vs ts ppl null sort env a = .returned m₁ code (some h))
    (h₂ : History m₁ es₂ m₂) (hcount : (bvhHandles es₁).length < 2 ^ 32) (hkeep : ∀ e ∈ es₂, touches h.id e = false)
    (hn : n ≤ 2 ^ 30) (hr : referenceLimit F32 n < 2 ^ 30) (ho : env.order.Perm (List.range n))
    (hsort : ∀ a l l', sort a l = some l' → l'.Perm l) (hnum : ∀ i < n, (boxes i).toAabb.Numeric) :
    ∃ nodes indices T, m₂.slices h = some (nodes, indices) ∧ Unfolds nodes 0 T ∧
      (T.depth ≤ 31 → ∀ (o d : Vec3 F32), (o.isNaN || d.isNaN) = false → Usable o (recip3 d) →
        ∀ (t : F32) (x : D) (cb : Nat → F32 → D → F32 × D × Bool), (∀ id t x, (cb id t x).2.2 = false) →
        ∀ fuel ≥ 3 * referenceLimit F32 n + 2,
        let out := ffiIntersect nodes indices o d t x cb fuel
        out.code = .ok ∧ out.ending = .finished ∧
        ∀ p < n, (T.ids indices).count p ≤ 1 →
          (ffiSpatialBuilder (some boxes) n (TriWrapper.new c v stride vs ts) ppl).SparesSpatial
            (fun i => (TriWrapper.new c v stride vs ts i).triangle.split) sort env.order
            (T.withIds indices) p →
          (((Ray.new o d).Coherent ∧ (boxes p).toAabb.Valid ∧ ((boxes p).toAabb.intersect (Ray.new o d)).isSome = true) ∨
           (o.Moderate ∧ d.Ordinary ∧ d.NoNegZero ∧ ∃ b : Aabb F32, b.Moderate ∧
             (b.offsetBy (lit 1 (-4))).Within (boxes p).toAabb ∧
             ∃ s : ℚ, (lit 1 (-4) : F32).val ≤ s ∧ b.exact.Has (pointOn o d s))) → p ∈ out.calls) := by
  obtain ⟨b, hev, h1, _, e⟩ := spatial_created ha hcall
  obtain ⟨hl, hb, hleg⟩ := ffiSpatialBuilder_facts (some boxes) n (TriWrapper.new c v stride vs ts) ppl
  have hleg := hleg env.order sort h1 hn hr ho hsort
  obtain ⟨T, u1, u2, u3, u4, u5, u6, u7, u8, u9, _, u11⟩ := spatial_built hleg e
  obtain ⟨T', hc, hrd⟩ := C26_spatial_compact hleg e
  have hTT := u1.det hc.unfolds; subst hTT
  rw [hl] at u7 u8 u9 u11 hrd
  obtain ⟨_, _, hsl⟩ := C46_handle_stable h₁ hev h₂ hcount
  obtain ⟨k1, k2⟩ := keep_foldl hkeep b
  have hi : b.primIndices.length = referenceLimit F32 n := u8
  have hsl := hsl k2 (by omega) (by omega)
  rw [k1] at hsl
  have den : b.Denotes T := ⟨u1, u4⟩
  refine ⟨b.nodes, b.primIndices, T, hsl, u1, ?_⟩
  intro hd o d hnan hu t x cb hcb fuel hf out
  have hfin : out.ending = .finished ∧ out.code = .ok := by
    show (ffiIntersect b.nodes b.primIndices o d t x cb fuel).ending = _ ∧
      (ffiIntersect b.nodes b.primIndices o d t x cb fuel).code = _
    rw [C47_refines b T den hd fuel (by omega) o d hnan t x cb]
    have hstop : ∀ (s : Ray F32 × D) (x : Nat), (rayBody cb s x).2 = false := fun s x => hcb x s.1.t s.2
    exact ⟨visit_finished hstop T _, rfl⟩
  refine ⟨hfin.2, hfin.1, fun p hp hone hq hhit => ?_⟩
  have hbox : ∀ p < n, boxAt ((ffiSpatialBuilder (some boxes) n (TriWrapper.new c v stride vs ts) ppl).boxes env.order) p =
      (boxes p).toAabb := by
    intro p hp
    show boxAt ((List.range n).map fun i => (boxes i).toAabb) p = _
    simp [boxAt, hp]
  have hnum' : ∀ a ∈ (ffiSpatialBuilder (some boxes) n (TriWrapper.new c v stride vs ts) ppl).boxes env.order, a.Numeric := by
    intro a ha
    replace ha : a ∈ (List.range n).map fun i => (boxes i).toAabb := ha
    obtain ⟨i, hi, rfl⟩ := List.mem_map.1 ha
    exact hnum i (List.mem_range.1 hi)
  have hsp : ∀ (i : Nat) (a : Fin 3) (x : F32), ((TriWrapper.new c v stride vs ts i).triangle.split a x).1.Numeric ∧
    ((TriWrapper.new c v stride vs ts i).triangle.split a x).2.Numeric := fun i a x => Triangle.split_num _ a x
  rcases C47_ids_prefix b T den hd fuel (by omega) o d hnan t x cb with ⟨_, ec⟩ | ⟨ec, _⟩
  · rw [show out.calls = _ from ec]
    rcases hhit with ⟨hco, hv, hhit⟩ | ⟨hof, hdo, hdz, bx, hm, hin, s, hs, hhit⟩
    · refine ((C97_spatial_query_partial hleg hnum' hsp e u1).1 hd fuel (by rw [hl]; exact hf) (Ray.new o d)
        (fun ray _ => (ray, false)) hnan hco hu (fun r _ => ⟨r.t, rfl⟩)).2 p (by rw [hl]; exact hp) hq (.inr hone) ?_ ?_
      · rw [hbox p hp]; exact hv
      · rw [hbox p hp]; exact hhit
    · exact (C97_margin_partial hleg hnum' hsp e u1 p (by rw [hl]; exact hp) hq (.inr hone) bx hm
        (by rw [hbox p hp]; exact hin)).1 hd fuel (by rw [hl]; exact hf) (Ray.new o d) (fun ray _ => (ray, false))
        ⟨rfl, rfl, rfl, rfl⟩ hu hof hdo hdz (show (lit 1 (-4) : F32).IsFin by decide +kernel) (fun r _ => ⟨r.t, rfl⟩)
        s hs hhit
  · rw [hfin.1] at ec; cases ec

/-- Boxes of the two triangles of `packedVertices`, one larger on all sides. -/
def packedBoxes (i : Nat) : RTAabb F32 :=
  if i = 0 then ⟨(lit (-1) 0, lit (-1) 0, lit (-1) 0), 0, (lit 2 0, lit 2 0, lit 1 0), 0⟩
  else ⟨(lit 9 0, lit (-1) 0, lit (-1) 0), 0, (lit 12 0, lit 2 0, lit 1 0), 0⟩

/-- Not vacuous: with the caller's boxes the same two triangles (and a leaf size of 1) give a tree in which no id is
overwritten or listed twice, and the ray that hits the second one is answered with it. -/
example : ∃ (m : Manager F32) (h : Handle) (nodes : List (BvhNode F32)) (indices : List Nat),
    (Manager.empty : Manager F32).createSpatialBvh (some packedBoxes) 2 packedCenters packedVertices 12 12 36 1 false refSort
      ⟨[0, 1], List.replicate 6 0, 1, 0⟩ 7 = .returned m .ok (some h) ∧
    m.slices h = some (nodes, indices) ∧
    1 ∈ (ffiIntersect nodes indices packedOrigin packedDir (lit 1 34) () (fun _ t d => (t, d, false)) 50).calls := by
  have key : (match (Manager.empty : Manager F32).createSpatialBvh (some packedBoxes) 2 packedCenters packedVertices
      12 12 36 1 false refSort ⟨[0, 1], List.replicate 6 0, 1, 0⟩ 7 with
    | .returned m .ok (some h) => (m.slices h).bind fun x => (unfold? x.1 10 0).map fun T =>
      decide (T.depth ≤ 31 ∧ (T.ids x.2).count 1 ≤ 1 ∧ 1 < T.leaves)
    | _ => none) = some true := by decide +kernel
  split at key
  · rename_i m h hcall
    have ha : (Manager.empty : Manager F32).Free 7 := by simp [Manager.Free, Manager.empty]
    have hsort : ∀ a (l l' : List (Ref F32)), refSort a l = some l' → l'.Perm l := fun a l l' h => refSort_sorts a l l' h
    obtain ⟨b, hev, _, _, e⟩ := spatial_created ha hcall
    obtain ⟨⟨nodes, indices⟩, hsl, hk⟩ := Option.bind_eq_some_iff.1 key
    obtain ⟨T, hT, hk⟩ := Option.map_eq_some_iff.1 hk
    obtain ⟨hd, hone, hlv⟩ := of_decide_eq_true hk
    replace hd : T.depth ≤ 31 := hd
    have hl := (ffiSpatialBuilder_facts (some packedBoxes) 2 (TriWrapper.new packedCenters packedVertices 12 12 36) 1).2.2
      [0, 1] refSort (by decide) (by decide) (by decide +kernel) (by decide) hsort
    obtain ⟨T', hc, hrd⟩ := C26_spatial_compact hl e
    obtain ⟨_, _, hsl'⟩ := C46_handle_stable .nil hev .nil (by decide)
    obtain ⟨nodes', indices', T'', w1, w2, H⟩ := C81_hits_partial (D := Unit) .nil ha hcall .nil (by decide) (by simp) (by decide)
      (by decide +kernel) (by decide) hsort (by
        intro i hi
        match i, hi with
        | 0, _ => unfold Aabb.Numeric Vec3.Numeric; decide +kernel
        | 1, _ => unfold Aabb.Numeric Vec3.Numeric; decide +kernel)
    rw [hsl] at w1
    injection w1 with w1; injection w1 with w1 w3; subst w1; subst w3
    have hU := unfold?_sound hT
    have := hU.det w2; subst this
    have hb : nodes = b.nodes ∧ indices = b.primIndices := by
      obtain ⟨_, u1, u2, u3, u4, u5, u6, u7, u8, u9, _, u11⟩ := spatial_built hl e
      have hlim : referenceLimit F32 2 < 100 := by decide +kernel
      have h2 : (ffiSpatialBuilder (some packedBoxes) 2 (TriWrapper.new packedCenters packedVertices 12 12 36)
        1).primitives.length = 2 := rfl
      rw [h2] at u8 u9 u11
      have hi : b.primIndices.length = referenceLimit F32 2 := u8
      have q := hsl' (by simp) (by omega) (by omega)
      simp only [List.foldl_nil] at q
      rw [hsl] at q
      injection q with q; injection q with q q'
      exact ⟨q, q'⟩
    obtain ⟨rfl, rfl⟩ := hb
    have hq := (quiet_spatial hl e w2 (by decide +kernel)).spares 1
    obtain ⟨_, _, H⟩ := H hd packedOrigin packedDir (by decide +kernel)
      (by unfold Usable Vec3.Finite Vec3.NonZero Fin' Rtbvh.NonZero; decide +kernel) (lit 1 34) ()
      (fun _ t d => (t, d, false)) (fun _ _ _ => rfl) 50 (by decide +kernel)
    exact ⟨m, h, _, _, hcall, hsl, H 1 (by decide) hone hq (.inl ⟨by unfold Ray.Coherent; decide +kernel,
      by unfold Aabb.Valid; decide +kernel, by decide +kernel⟩)⟩
  · cases key

end Rtbvh
