import Verif.Props.FfiSpatialHits
import Verif.Proofs.FfiReplay
/- Property C81: packets and the four-wide structure of a spatial BVH, through the C interface. -/
namespace Rtbvh
open FloatOps LawfulFloat Aabb

/-- What C81 promises about a lane whose ray starts at `o` with direction `d` and whose `*t` was left at `t`, for the
caller's box `box`, besides a direct hit: the box contains, with a margin of 1e-4, a box that the ray meets in exact
arithmetic at a parameter from `lo` on and below `t`. -/
def MarginHit (box : Aabb F32) (o d : Vec3 F32) (lo : ℚ → Prop) (t : F32) : Prop :=
  o.Moderate ∧ d.Ordinary ∧ ∃ b : Aabb F32, b.Moderate ∧ (b.offsetBy (lit 1 (-4))).Within box ∧
    ∃ s : ℚ, lo s ∧ t.Above s ∧ b.exact.Has (pointOn o d s)

theorem packetOf_wellFormed {F : Type} [FloatOps F] (ox oy oz dx dy dz t : Vec4 F) :
    (packetOf ox oy oz dx dy dz t).WellFormed := by
  intro j; fin_cases j <;> rfl

theorem packetOf_hasNaN {F : Type} [FloatOps F] {ox oy oz dx dy dz : Vec4 F} (t : Vec4 F)
    (h : (ox.isNaN || oy.isNaN || oz.isNaN || dx.isNaN || dy.isNaN || dz.isNaN) = false) :
    (packetOf ox oy oz dx dy dz t).hasNaN = false := h

theorem packetOf_set {F : Type} [FloatOps F] (ox oy oz dx dy dz t t' : Vec4 F) :
    { packetOf ox oy oz dx dy dz t with t := t' } = packetOf ox oy oz dx dy dz t' := rfl

theorem packetOf_lane {F : Type} [FloatOps F] (ox oy oz dx dy dz t : Vec4 F) (i : Fin 4) :
    (packetOf ox oy oz dx dy dz t).originOf i = ⟨ox.get i, oy.get i, oz.get i⟩ ∧
    (packetOf ox oy oz dx dy dz t).dirOf i = ⟨dx.get i, dy.get i, dz.get i⟩ ∧
    (packetOf ox oy oz dx dy dz t).invOf i = recip3 ⟨dx.get i, dy.get i, dz.get i⟩ := by
  refine ⟨?_, ?_, ?_⟩ <;> fin_cases i <;> rfl

theorem ffiSpatial_box {boxes : Nat → RTAabb F32} {n : Nat} {w : Nat → TriWrapper F32} {ppl : Nat} {order : List Nat} :
    (∀ p < n, boxAt ((ffiSpatialBuilder (some boxes) n w ppl).boxes order) p = (boxes p).toAabb) ∧
    ((∀ i < n, (boxes i).toAabb.Numeric) → ∀ a ∈ (ffiSpatialBuilder (some boxes) n w ppl).boxes order, a.Numeric) := by
  refine ⟨fun p hp => ?_, fun hnum a ha => ?_⟩
  · show boxAt ((List.range n).map fun i => (boxes i).toAabb) p = _
    simp [boxAt, hp]
  · replace ha : a ∈ (List.range n).map fun i => (boxes i).toAabb := ha
    obtain ⟨i, hi, rfl⟩ := List.mem_map.1 ha
    exact hnum i (List.mem_range.1 hi)

/-- C81, packets, the part that holds (binary32, rounding included): as `C81_hits_partial`, for `intersect_packet` and
callbacks that only lower the lanes of `*t` and never stop, lane by lane, at the values of `*t` left behind: every id that is
listed only once and not overwritten by a move is called back if some lane's box test passes the caller's (valid) box with
the final positive `*t`, or if the caller's box has a margin around a box the lane's ray meets in exact arithmetic. -/
theorem C81_packet_hits_partial {D : Type} {es₁ es₂ : List (Event F32)} {m m₁ m₂ : Manager F32} {boxes : Nat → RTAabb F32}
    {n : Nat} {c v : Nat → F32} {stride vs ts ppl : Nat} {null : Bool}
    {sort : Fin 3 → List (Ref F32) → Option (List (Ref F32))} {env : BuildEnv} {a : Nat} {code : ResultCode} {h : Handle}
    (h₁ : History .empty es₁ m) (ha : m.Free a)
    (hcall : m.createSpatialBvh (some boxes) n c v stride vs ts ppl null sort env a = .returned m₁ code (some h))
    (h₂ : History m₁ es₂ m₂) (hcount : (bvhHandles es₁).length < 2 ^ 32) (hkeep : ∀ e ∈ es₂, touches h.id e = false)
    (hn : n ≤ 2 ^ 30) (hr : referenceLimit F32 n < 2 ^ 30) (ho : env.order.Perm (List.range n))
    (hsort : ∀ a l l', sort a l = some l' → l'.Perm l) (hnum : ∀ i < n, (boxes i).toAabb.Numeric) :
    ∃ nodes indices T, m₂.slices h = some (nodes, indices) ∧ Unfolds nodes 0 T ∧
      (T.depth ≤ 31 → ∀ (ox oy oz dx dy dz t : Vec4 F32),
        (ox.isNaN || oy.isNaN || oz.isNaN || dx.isNaN || dy.isNaN || dz.isNaN) = false →
        ∀ (x : D) (cb : Nat → Vec4 F32 → D → Vec4 F32 × D × Bool), LowersT4 cb →
        ∀ fuel ≥ 3 * referenceLimit F32 n + 2,
        let out := ffiIntersectPacket nodes indices ox oy oz dx dy dz t x cb fuel
        out.code = .ok ∧ out.ending = .finished ∧
        ∀ (i : Fin 4) (o d : Vec3 F32), o = ⟨ox.get i, oy.get i, oz.get i⟩ → d = ⟨dx.get i, dy.get i, dz.get i⟩ →
          Usable o (recip3 d) → ∀ p < n, (T.ids indices).count p ≤ 1 →
          (ffiSpatialBuilder (some boxes) n (TriWrapper.new c v stride vs ts) ppl).SparesSpatial
            (fun i => (TriWrapper.new c v stride vs ts i).triangle.split) sort env.order
            (T.withIds indices) p →
          ((((zero : F32) <. out.t.get i) = true ∧ (boxes p).toAabb.Valid ∧
              (boxes p).toAabb.mask4 (packetOf ox oy oz dx dy dz out.t) i = true) ∨
            MarginHit (boxes p).toAabb o d (fun s => 0 ≤ s) (out.t.get i)) → p ∈ out.calls) := by
  obtain ⟨b, hev, h1, _, e⟩ := spatial_created ha hcall
  obtain ⟨hl, hb, hleg⟩ := ffiSpatialBuilder_facts (some boxes) n (TriWrapper.new c v stride vs ts) ppl
  have hleg := hleg env.order sort h1 hn hr ho hsort
  obtain ⟨T, u1, u2, u3, u4, u5, u6, u7, u8, u9, _, u11⟩ := spatial_built hleg e
  obtain ⟨T', hc, hrd⟩ := C26_spatial_compact hleg e
  have hTT := u1.det hc.unfolds; subst hTT
  rw [hl] at u7 u8 u9 u11 hrd
  obtain ⟨_, _, hsl⟩ := C46_handle_stable h₁ hev h₂ hcount
  obtain ⟨k1, k2⟩ := keep_foldl hkeep b
  have hi : b.primIndices.length = referenceLimit F32 n := u8
  have hsl := hsl k2 (by omega) (by omega)
  rw [k1] at hsl
  have den : b.Denotes T := ⟨u1, u4⟩
  refine ⟨b.nodes, b.primIndices, T, hsl, u1, ?_⟩
  intro hd ox oy oz dx dy dz t hnan x cb hcb fuel hf out
  obtain ⟨g1, g2, g3⟩ : out.code = .ok ∧ out.ending = .finished ∧
      ∀ p ∈ (b.forIndicesPacket (fun r _ => (r, false)) fuel (packetOf ox oy oz dx dy dz out.t)).items, p ∈ out.calls :=
    ffi_packet_replay b T den hd ox oy oz dx dy dz t hnan x cb hcb fuel (by omega)
  clear_value out
  refine ⟨g1, g2, fun i o d ho hd' hu p hp hone hq hhit => g3 p ?_⟩
  obtain ⟨hbox, hnum'⟩ := ffiSpatial_box (boxes := boxes) (n := n) (w := TriWrapper.new c v stride vs ts) (ppl := ppl)
    (order := env.order)
  have hnum' := hnum' hnum
  have hsp : ∀ (i : Nat) (a : Fin 3) (x : F32), ((TriWrapper.new c v stride vs ts i).triangle.split a x).1.Numeric ∧
    ((TriWrapper.new c v stride vs ts i).triangle.split a x).2.Numeric := fun i a x => Triangle.split_num _ a x
  obtain ⟨eo, ed, ei⟩ := packetOf_lane ox oy oz dx dy dz out.t i
  rw [← ho] at eo
  rw [← hd'] at ed ei
  have hnan' := packetOf_hasNaN out.t hnan
  have hwf := packetOf_wellFormed ox oy oz dx dy dz out.t
  have hlow : ∀ (r : RayPacket4 F32) (_ : Nat), r.Lowered r ∧ false = false :=
    fun r _ => ⟨RayPacket4.Lowered.refl r, rfl⟩
  have hsame : (b.forIndicesPacket (fun r _ => (r, false)) fuel (packetOf ox oy oz dx dy dz out.t)).ray =
      packetOf ox oy oz dx dy dz out.t := by
    rw [C23_packet_traversal_refines b T den hd _ hnan' _ fuel (by omega)]
    exact (visit_rel (R := Eq) (fun _ => rfl) (fun h h' => h.trans h') (fun _ _ => rfl) T _).symm
  rcases hhit with ⟨hpos, hv, hm⟩ | ⟨hO, hD, bx, hm, hin, s, h0, hs, hhit⟩
  · refine ((C97_packets_partial hleg hnum' hsp e u1).1 hd fuel (by rw [hl]; exact hf) _ (fun r _ => (r, false)) hnan'
      hlow).2 i (by rw [eo, ei]; exact hu) ?_ p (by rw [hl]; exact hp) hq (.inr hone) ?_ ?_
    · rw [hsame]; exact hpos
    · rw [hbox p hp]; exact hv
    · rw [hbox p hp, hsame]; exact hm
  · refine (C97_margin_partial hleg hnum' hsp e u1 p (by rw [hl]; exact hp) hq (.inr hone) bx hm
        (by rw [hbox p hp]; exact hin)).2.1 hd fuel (by rw [hl]; exact hf) _ (fun r _ => (r, false))
        hnan' hwf hlow i (by rw [eo, ei]; exact hu) (by rw [eo]; exact hO) (by rw [ed]; exact hD) s h0 ?_ ?_
    · rw [hsame]; exact hs
    · rw [eo, ed]; exact hhit

/-- C81, the four-wide structure, the part that holds: `create_mbvh` on the handle of a spatial BVH, then any calls that do
not free its result; the same for `intersect_mbvh` and `intersect_mbvh_packet` and callbacks that only lower `*t`, for trees
at most 22 deep or with at most 65 leaves. -/
theorem C81_mbvh_hits_partial {D : Type} {es₁ es₂ es₃ : List (Event F32)} {m m₁ m₂ m₃ m₄ : Manager F32}
    {boxes : Nat → RTAabb F32}
    {n : Nat} {c v : Nat → F32} {stride vs ts ppl : Nat} {null : Bool}
    {sort : Fin 3 → List (Ref F32) → Option (List (Ref F32))} {env : BuildEnv} {a a' k : Nat} {code code' : ResultCode}
    {h h' : Handle} (h₁ : History .empty es₁ m) (ha : m.Free a)
    (hcall : m.createSpatialBvh (some boxes) n c v stride vs ts ppl null sort env a = .returned m₁ code (some h))
    (h₂ : History m₁ es₂ m₂) (hcount : (bvhHandles es₁).length < 2 ^ 32) (hkeep : ∀ e ∈ es₂, touches h.id e = false)
    (ha' : m₂.Free a') (hm : m₂.createMbvh k h false a' = some (m₃, code', some h'))
    (h₃ : History m₃ es₃ m₄) (hcount' : (mbvhHandles (es₁ ++ es₂)).length < 2 ^ 32)
    (hkeep' : ∀ e ∈ es₃, freesM h'.id e = false)
    (hn : n ≤ 2 ^ 30) (hr : referenceLimit F32 n < 2 ^ 30) (ho : env.order.Perm (List.range n))
    (hsort : ∀ a l l', sort a l = some l' → l'.Perm l) (hnum : ∀ i < n, (boxes i).toAabb.Numeric) :
    ∃ nodes indices qnodes qindices T, m₂.slices h = some (nodes, indices) ∧ Unfolds nodes 0 T ∧
      m₄.mslices h' = some (qnodes, qindices) ∧
      (T.depth ≤ 22 ∨ T.leaves ≤ 65 → ∃ N, ∀ fuel ≥ N,
        (∀ (o d : Vec3 F32), (o.isNaN || d.isNaN) = false → Usable o (recip3 d) →
          ∀ (t : F32) (x : D) (cb : Nat → F32 → D → F32 × D × Bool), LowersT cb →
          let out := ffiIntersectMbvh qnodes qindices o d t x cb fuel
          out.code = .ok ∧ out.ending = .finished ∧
          ∀ p < n, (T.ids indices).count p ≤ 1 →
            (ffiSpatialBuilder (some boxes) n (TriWrapper.new c v stride vs ts) ppl).SparesSpatial
              (fun i => (TriWrapper.new c v stride vs ts i).triangle.split) sort env.order (T.withIds indices) p →
            (((boxes p).toAabb.Valid ∧ quadTest (boxes p).toAabb { Ray.new o d with t := out.t } = true) ∨
              MarginHit (boxes p).toAabb o d (fun _ => True) out.t) → p ∈ out.calls) ∧
        (∀ (ox oy oz dx dy dz t : Vec4 F32),
          (ox.isNaN || oy.isNaN || oz.isNaN || dx.isNaN || dy.isNaN || dz.isNaN) = false →
          ∀ (x : D) (cb : Nat → Vec4 F32 → D → Vec4 F32 × D × Bool), LowersT4 cb →
          let out := ffiIntersectMbvhPacket qnodes qindices ox oy oz dx dy dz t x cb fuel
          out.code = .ok ∧ out.ending = .finished ∧
          ∀ (i : Fin 4) (o d : Vec3 F32), o = ⟨ox.get i, oy.get i, oz.get i⟩ → d = ⟨dx.get i, dy.get i, dz.get i⟩ →
            Usable o (recip3 d) → ∀ p < n, (T.ids indices).count p ≤ 1 →
            (ffiSpatialBuilder (some boxes) n (TriWrapper.new c v stride vs ts) ppl).SparesSpatial
              (fun i => (TriWrapper.new c v stride vs ts i).triangle.split) sort env.order (T.withIds indices) p →
            (((boxes p).toAabb.Valid ∧ quadTest4 (boxes p).toAabb (packetOf ox oy oz dx dy dz out.t) i = true) ∨
              MarginHit (boxes p).toAabb o d (fun _ => True) (out.t.get i)) → p ∈ out.calls)) := by
  obtain ⟨b, hev, h1, _, e⟩ := spatial_created ha hcall
  obtain ⟨hl, hb, hleg⟩ := ffiSpatialBuilder_facts (some boxes) n (TriWrapper.new c v stride vs ts) ppl
  have hleg := hleg env.order sort h1 hn hr ho hsort
  obtain ⟨T, u1, u2, u3, u4, u5, u6, u7, u8, u9, _, u11⟩ := spatial_built hleg e
  obtain ⟨T', hc, hrd⟩ := C26_spatial_compact hleg e
  have hTT := u1.det hc.unfolds; subst hTT
  rw [hl] at u7 u8 u9 u11 hrd
  obtain ⟨_, hslot, hsl⟩ := C46_handle_stable h₁ hev h₂ hcount
  obtain ⟨k1, k2⟩ := keep_foldl hkeep b
  have hi : b.primIndices.length = referenceLimit F32 n := u8
  have hsl := hsl k2 (by omega) (by omega)
  rw [k1] at hsl hslot
  have hall : History .empty (es₁ ++ (⟨.create false (.ok b), code, some h⟩ :: es₂)) m₂ := h₁.append (.cons hev h₂)
  have hcnt : (mbvhHandles (es₁ ++ (⟨.create false (.ok b), code, some h⟩ :: es₂))).length < 2 ^ 32 := by
    rw [mbvhHandles_append, mbvhHandles_cons] at *
    simpa [mbvhHandles] using hcount'
  obtain ⟨_, s, q, fuel₀, hs, hq, _, hms⟩ := C46_mbvh_handle_stable hall (Calls.createMbvh k h false a' ha' hm) h₃ hcnt
  rw [hs] at hslot
  have hval : s.val = b := by simpa using hslot
  rw [hval] at hq
  obtain ⟨q', e1, e2, _, hidx, hqn, hqle⟩ := construct_main b T hc (T.depth + 1 + fuel₀) (by omega)
  have hqq : q' = q := by
    have := construct_mono b (show fuel₀ ≤ T.depth + 1 + fuel₀ by omega) hq
    rw [e1] at this; injection this
  subst hqq
  have hqi : q'.primIndices = b.primIndices := hidx
  have hsmall := hc.smallNodes
  refine ⟨b.nodes, b.primIndices, q'.mNodes, q'.primIndices, T, hsl, u1,
    hms hkeep' (by omega) (by rw [hqi]; omega), ?_⟩
  intro hlim
  have need : T.toQuad.stackNeed ≤ 32 := by
    rcases hlim with hdep | hdep
    · refine C29_quad_depth _ ?_
      by_cases h1 : 1 ≤ T.depth
      · have := toQuad_depth' T h1; omega
      · have := toQuad_depth T; omega
    · have := toQuad_need T; omega
  obtain ⟨hbox, hnum'⟩ := ffiSpatial_box (boxes := boxes) (n := n) (w := TriWrapper.new c v stride vs ts) (ppl := ppl)
    (order := env.order)
  have hnum' := hnum' hnum
  have hsp : ∀ (i : Nat) (a : Fin 3) (x : F32), ((TriWrapper.new c v stride vs ts i).triangle.split a x).1.Numeric ∧
    ((TriWrapper.new c v stride vs ts i).triangle.split a x).2.Numeric := fun i a x => Triangle.split_num _ a x
  obtain ⟨qr, er, Nr, Hr⟩ := (C97_spatial_query_partial hleg hnum' hsp e u1).2 hlim (T.depth + 1 + fuel₀) (by omega)
  obtain ⟨qp, ep, Np, Hp⟩ := (C97_packets_partial hleg hnum' hsp e u1).2 hlim (T.depth + 1 + fuel₀) (by omega)
  have := (e1.symm.trans er); injection this with this; subst this
  have := (e1.symm.trans ep); injection this with this; subst this
  have hsameR : ∀ fuel, T.toQuad.rounds ≤ fuel → ∀ ray : Ray F32,
      (q'.forIndices (fun r _ => (r, false)) fuel ray).ray = ray := by
    intro fuel hf ray
    rw [(C28_traversal_refines q' T.toQuad e2 need fuel hf).1]
    exact (T.toQuad.visit_rel (R := Eq) (fun _ => rfl) (fun h h' => h.trans h') (fun _ _ => rfl) _).symm
  have hsameP : ∀ fuel, T.toQuad.rounds ≤ fuel → ∀ pk : RayPacket4 F32,
      (q'.forIndicesPacket (fun r _ => (r, false)) fuel pk).ray = pk := by
    intro fuel hf pk
    rw [(C28_traversal_refines q' T.toQuad e2 need fuel hf).2]
    exact (T.toQuad.visit_rel (R := Eq) (fun _ => rfl) (fun h h' => h.trans h') (fun _ _ => rfl) _).symm
  refine ⟨Max.max T.toQuad.rounds (Max.max Nr Np), fun fuel hf => ⟨?_, ?_⟩⟩
  · intro o d hnan hu t x cb hcb out
    obtain ⟨g1, g2, g3⟩ : out.code = .ok ∧ out.ending = .finished ∧
      ∀ p ∈ (q'.forIndices (fun r _ => (r, false)) fuel { Ray.new o d with t := out.t }).items, p ∈ out.calls :=
      ffi_mbvh_replay q' T.toQuad e2 need o d hnan t x cb hcb fuel (by omega)
    clear_value out
    refine ⟨g1, g2, fun p hp hone hq hhit => g3 p ?_⟩
    obtain ⟨hv, hquad⟩ : (boxes p).toAabb.Valid ∧ quadTest (boxes p).toAabb { Ray.new o d with t := out.t } = true := by
      rcases hhit with hhit | ⟨hO, hD, bx, hm, hin, s, _, hs, hhit⟩
      · exact hhit
      · have hseen := seen hm hO hD hhit
        exact ⟨valid_of_within hseen.valid hin, (C36_quad_monotone hin hseen.valid).1 _ hseen.noNaN (hseen.wider _ hin)
          (Seen.quadTest (s := s) hseen rfl hs)⟩
    refine (Hr fuel (by omega) { Ray.new o d with t := out.t } (fun r _ => (r, false)) hu
      (fun r _ => ⟨Ray.Lowered.refl r, rfl⟩)).2 p (by rw [hl]; exact hp) hq (.inr hone) ?_ ?_
    · rw [hbox p hp]; exact hv
    · rw [hbox p hp, hsameR fuel (by omega)]; exact hquad
  · intro ox oy oz dx dy dz t hnan x cb hcb out
    obtain ⟨g1, g2, g3⟩ : out.code = .ok ∧ out.ending = .finished ∧
      ∀ p ∈ (q'.forIndicesPacket (fun r _ => (r, false)) fuel (packetOf ox oy oz dx dy dz out.t)).items, p ∈ out.calls :=
      ffi_mbvh_packet_replay q' T.toQuad e2 need ox oy oz dx dy dz t hnan x cb hcb fuel (by omega)
    clear_value out
    refine ⟨g1, g2, fun i o d ho hd' hu p hp hone hq hhit => g3 p ?_⟩
    obtain ⟨eo, ed, ei⟩ := packetOf_lane ox oy oz dx dy dz out.t i
    rw [← ho] at eo
    rw [← hd'] at ed ei
    obtain ⟨hv, hquad⟩ : (boxes p).toAabb.Valid ∧
        quadTest4 (boxes p).toAabb (packetOf ox oy oz dx dy dz out.t) i = true := by
      rcases hhit with hhit | ⟨hO, hD, bx, hm, hin, s, _, hs, hhit⟩
      · exact hhit
      · have hseen := seen hm hO hD hhit
        refine ⟨valid_of_within hseen.valid hin, (C36_quad_monotone hin hseen.valid).2 _ i ?_ ?_
          (Seen.quadTest4 (s := s) ?_ ?_ hs)⟩
        · rw [eo, ei]; exact hseen.noNaN
        · rw [eo, ei]; exact hseen.wider _ hin
        · show Seen _ ((packetOf ox oy oz dx dy dz out.t).originOf i) ((packetOf ox oy oz dx dy dz out.t).dirOf i) s
          rw [eo, ed]; exact hseen
        · show (packetOf ox oy oz dx dy dz out.t).invOf i = recip3 ((packetOf ox oy oz dx dy dz out.t).dirOf i)
          rw [ei, ed]
    refine (Hp fuel (by omega) _ (fun r _ => (r, false)) (fun r _ => ⟨RayPacket4.Lowered.refl r, rfl⟩)).2 i
      (by rw [eo, ei]; exact hu) p (by rw [hl]; exact hp) hq (.inr hone) ?_ ?_
    · rw [hbox p hp]; exact hv
    · rw [hbox p hp, hsameP fuel (by omega)]; exact hquad

/-- The four lanes of a packet that all are the ray of `packedOrigin` and `packedDir`. -/
def packedLanes (x : F32) : Vec4 F32 := Vec4.ofFn fun _ => x

/-- At most 50. -/
def to50 (t : F32) : F32 := if (lit 50 0 <. t) = true then lit 50 0 else t

/-- Not vacuous: on the two triangles with the caller's boxes of `C81_hits_partial` (whose example shows that no id is
overwritten), with a callback that lowers `*t` to 50, `intersect_packet`, `intersect_mbvh` and `intersect_mbvh_packet` meet
the conditions for id 1 and call back with it (the four-wide structure also with id 0, which lies behind the origin). -/
example : Usable packedOrigin (recip3 packedDir) ∧ (packedBoxes 1).toAabb.Valid ∧
    LowersT (fun (_ : Nat) (t : F32) (d : Unit) => (to50 t, d, false)) ∧
    (match (Manager.empty : Manager F32).createSpatialBvh (some packedBoxes) 2 packedCenters packedVertices 12 12 36 1 false
      refSort ⟨[0, 1], List.replicate 6 0, 1, 0⟩ 7 with
    | .returned m .ok (some h) => match m.slices h, m.createMbvh 9 h false 8 with
      | some x, some (m', .ok, some h') => (m'.mslices h').map fun y =>
        let l := packedLanes
        let o := packedOrigin
        let d := packedDir
        let keep := fun (_ : Nat) (t : F32) (d : Unit) => (to50 t, d, false)
        let keep4 := fun (_ : Nat) (t : Vec4 F32) (d : Unit) => (t.map to50, d, false)
        let a := ffiIntersectPacket x.1 x.2 (l o.x) (l o.y) (l o.z) (l d.x) (l d.y) (l d.z) (l (lit 1 34)) () keep4 50
        let b := ffiIntersectMbvh y.1 y.2 o d (lit 1 34) () keep 50
        let c := ffiIntersectMbvhPacket y.1 y.2 (l o.x) (l o.y) (l o.z) (l d.x) (l d.y) (l d.z) (l (lit 1 34)) () keep4 50
        (a.calls, b.calls, c.calls,
          (packedBoxes 1).toAabb.mask4 (packetOf (l o.x) (l o.y) (l o.z) (l d.x) (l d.y) (l d.z) a.t) 2,
          quadTest (packedBoxes 1).toAabb { Ray.new o d with t := b.t },
          quadTest4 (packedBoxes 1).toAabb (packetOf (l o.x) (l o.y) (l o.z) (l d.x) (l d.y) (l d.z) c.t) 2)
      | _, _ => none
    | _ => none) = some ([1], [1, 0], [1, 0], true, true, true) := by
  refine ⟨by unfold Usable Vec3.Finite Vec3.NonZero Fin' Rtbvh.NonZero; decide +kernel, by unfold Aabb.Valid; decide +kernel,
    fun id t d => ⟨rfl, ?_⟩, by decide +kernel⟩
  show to50 t = t ∨ (to50 t <=. t) = true
  unfold to50
  split
  · rename_i h; exact .inr (lt_le h)
  · exact .inl rfl

end Rtbvh
