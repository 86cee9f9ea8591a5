import Verif.Props.Traversal
/- C25, exactly: what a loop over primitives does when the slice is shorter than the stored ids. -/
namespace Rtbvh
variable {F σ τ P : Type}

/-- A round over primitives is a round over ids, except that an id beyond the slice restarts the leaf. -/
theorem primStep_eq {nodes : List (BvhNode F)} {indices : List Nat} {prims : List P} {hit : Aabb F → σ → Option τ}
    {closer : τ → τ → Bool} (t : Trav σ) : bvhPrimStep nodes indices prims hit closer t =
      match bvhIndexStep nodes indices hit closer t with
      | .done => .done
      | .panic => .panic
      | .cont t' => .cont t'
      | .yield id t' => match prims[id]? with
        | some p => .yield p t'
        | none => .cont { t with i := 0 } := by
  unfold bvhPrimStep bvhIndexStep
  cases hs : t.stack with
  | nil => rfl
  | cons top rest =>
    cases hn : atI32 nodes top with
    | none => simp [hn]
    | some nd =>
      simp only [hn]
      by_cases h1 : nd.countU > -1
      · simp only [h1, if_true]
        by_cases h2 : t.i < nd.countU
        · simp only [h2, if_true]
          cases atI32 indices (nd.leftFirstU + t.i) <;> rfl
        · simp only [h2, if_false]
      · simp only [h1, if_false]
        by_cases h2 : nd.leftFirstU > -1
        · simp only [h2, if_true]
          cases atI32 nodes nd.leftFirstU <;> cases atI32 nodes (nd.leftFirstU + 1) <;> simp only
          rename_i l r
          cases sortNodes closer (hit l.bounds t.ray) (hit r.bounds t.ray) rest nd.leftFirstU <;> rfl
        · simp only [h2, if_false]

/-- The iterator is at position `t.i` of a leaf, the earlier positions of which it has been able to read. -/
def InLeaf (nodes : List (BvhNode F)) (indices : List Nat) (t : Trav σ) : Prop :=
  t.i = 0 ∨ ∃ top rest nd, t.stack = top :: rest ∧ atI32 nodes top = some nd ∧ nd.countU > -1 ∧ 0 ≤ t.i ∧
    ∀ k, 0 ≤ k → k < t.i → (atI32 indices (nd.leftFirstU + k)).isSome = true

theorem indexStep_yield {nodes : List (BvhNode F)} {indices : List Nat} {hit : Aabb F → σ → Option τ}
    {closer : τ → τ → Bool} {t t' : Trav σ} {id : Nat} (h : bvhIndexStep nodes indices hit closer t = .yield id t') :
    ∃ top rest nd, t.stack = top :: rest ∧ atI32 nodes top = some nd ∧ nd.countU > -1 ∧ t.i < nd.countU ∧
      atI32 indices (nd.leftFirstU + t.i) = some id ∧ t' = { t with i := t.i + 1 } := by
  unfold bvhIndexStep at h
  cases hs : t.stack with
  | nil => rw [hs] at h; cases h
  | cons top rest =>
    rw [hs] at h
    cases hn : atI32 nodes top with
    | none => simp [hn] at h
    | some nd =>
      simp only [hn] at h
      by_cases h1 : nd.countU > -1
      · simp only [h1, if_true] at h
        by_cases h2 : t.i < nd.countU
        · simp only [h2, if_true] at h
          cases hi : atI32 indices (nd.leftFirstU + t.i) with
          | none => rw [hi] at h; cases h
          | some x =>
            rw [hi] at h; cases h
            exact ⟨top, rest, nd, rfl, hn, h1, h2, hi, rfl⟩
        · simp only [h2, if_false] at h; cases h
      · simp only [h1, if_false] at h
        by_cases h2 : nd.leftFirstU > -1
        · simp only [h2, if_true] at h
          cases h3 : atI32 nodes nd.leftFirstU <;> cases h4 : atI32 nodes (nd.leftFirstU + 1) <;> rw [h3, h4] at h <;>
            simp only at h <;> first | cases h | skip
          rename_i l r
          cases h5 : sortNodes closer (hit l.bounds t.ray) (hit r.bounds t.ray) rest nd.leftFirstU <;> rw [h5] at h <;>
            cases h
        · simp only [h2, if_false] at h; cases h

theorem indexStep_cont {nodes : List (BvhNode F)} {indices : List Nat} {hit : Aabb F → σ → Option τ}
    {closer : τ → τ → Bool} {t t' : Trav σ} (hi : InLeaf nodes indices t)
    (h : bvhIndexStep nodes indices hit closer t = .cont t') : InLeaf nodes indices t' := by
  left
  unfold bvhIndexStep at h
  cases hs : t.stack with
  | nil => rw [hs] at h; cases h
  | cons top rest =>
    rw [hs] at h
    cases hn : atI32 nodes top with
    | none => simp [hn] at h
    | some nd =>
      simp only [hn] at h
      by_cases h1 : nd.countU > -1
      · simp only [h1, if_true] at h
        by_cases h2 : t.i < nd.countU
        · simp only [h2, if_true] at h
          cases hi : atI32 indices (nd.leftFirstU + t.i) <;> rw [hi] at h <;> cases h
        · simp only [h2, if_false] at h; cases h; rfl
      · have h0 : t.i = 0 := by
          rcases hi with h | ⟨top', rest', nd', e1, e2, e3, _⟩
          · exact h
          · rw [hs] at e1; cases e1; rw [hn] at e2; cases e2; exact absurd e3 h1
        simp only [h1, if_false] at h
        by_cases h2 : nd.leftFirstU > -1
        · simp only [h2, if_true] at h
          cases h3 : atI32 nodes nd.leftFirstU <;> cases h4 : atI32 nodes (nd.leftFirstU + 1) <;> rw [h3, h4] at h <;>
            simp only at h <;> first | cases h | skip
          rename_i l r
          cases h5 : sortNodes closer (hit l.bounds t.ray) (hit r.bounds t.ray) rest nd.leftFirstU <;> rw [h5] at h <;>
            cases h
          exact h0
        · simp only [h2, if_false] at h; cases h; exact h0

/-- Never ends by itself: only the caller can end it. -/
def Spins (cb : σ → P → σ × Bool) (r : Run σ P) : Prop :=
  (r.ending = .outOfFuel ∨ r.ending = .stopped) ∧ ((∀ s p, (cb s p).2 = false) → r.ending = .outOfFuel)

/-- In a leaf with an id beyond the slice the iteration goes round for ever. -/
theorem leaf_spins {nodes : List (BvhNode F)} {indices : List Nat} {prims : List P} {hit : Aabb F → σ → Option τ}
    {closer : τ → τ → Bool} {cb : σ → P → σ × Bool} {top : Int} {rest : List Int} {nd : BvhNode F} {j : Int} {id : Nat}
    (hn : atI32 nodes top = some nd) (hc : nd.countU > -1) (hj : j < nd.countU) (h0 : 0 ≤ j)
    (hv : ∀ k, 0 ≤ k → k ≤ j → (atI32 indices (nd.leftFirstU + k)).isSome = true)
    (hid : atI32 indices (nd.leftFirstU + j) = some id) (hp : prims[id]? = none) :
    ∀ (fuel : Nat) (t : Trav σ), t.stack = top :: rest → 0 ≤ t.i → t.i ≤ j →
      Spins cb (drive (bvhPrimStep nodes indices prims hit closer) cb fuel t) := by
  intro fuel
  induction fuel with
  | zero => intro t _ _ _; exact ⟨.inl rfl, fun _ => rfl⟩
  | succ n ih =>
    intro t hs hi hij
    have hstep : bvhPrimStep nodes indices prims hit closer t =
        match atI32 indices (nd.leftFirstU + t.i) with
        | none => .panic
        | some x => match prims[x]? with
          | some p => .yield p { t with i := t.i + 1 }
          | none => .cont { t with i := 0 } := by
      unfold bvhPrimStep
      rw [hs]; simp only [hn, hc, if_true]
      rw [if_pos (show t.i < nd.countU by omega)]
      cases atI32 indices (nd.leftFirstU + t.i) <;> rfl
    cases hx : atI32 indices (nd.leftFirstU + t.i) with
    | none => have := hv t.i hi hij; rw [hx] at this; cases this
    | some x =>
      rw [hx] at hstep
      simp only at hstep
      cases hpx : prims[x]? with
      | none =>
        rw [hpx] at hstep
        simp only [drive, hstep]
        exact ih _ hs (Int.le_refl 0) h0
      | some p =>
        rw [hpx] at hstep
        simp only [drive, hstep]
        have hne : t.i ≠ j := by
          intro e; rw [e, hid] at hx; cases hx; rw [hp] at hpx; cases hpx
        cases hcb : cb t.ray p with
        | mk r b =>
          cases b with
          | true => exact ⟨.inr rfl, fun h => by have := h t.ray p; rw [hcb] at this; cases this⟩
          | false =>
            have := ih { t with i := t.i + 1, ray := r } hs (show (0 : Int) ≤ t.i + 1 by omega)
              (show t.i + 1 ≤ j by omega)
            exact this

/-- The caller of a loop over ids that treats `primitives[id]` as `cb` does and stops at an id beyond the slice. -/
def atSlice (prims : List P) (cb : σ → P → σ × Bool) (r : σ) (id : Nat) : σ × Bool :=
  match prims[id]? with
  | some p => cb r p
  | none => (r, true)

theorem prims_drive {nodes : List (BvhNode F)} {indices : List Nat} {prims : List P} {hit : Aabb F → σ → Option τ}
    {closer : τ → τ → Bool} {cb : σ → P → σ × Bool} : ∀ (fuel : Nat) (t : Trav σ), InLeaf nodes indices t →
    ((∀ id ∈ (drive (bvhIndexStep nodes indices hit closer) (atSlice prims cb) fuel t).items, id < prims.length) →
      let R := drive (bvhIndexStep nodes indices hit closer) (atSlice prims cb) fuel t
      let Q := drive (bvhPrimStep nodes indices prims hit closer) cb fuel t
      Q.items.map some = R.items.map (fun id => prims[id]?) ∧ Q.ray = R.ray ∧ Q.ending = R.ending) ∧
    ((∃ id ∈ (drive (bvhIndexStep nodes indices hit closer) (atSlice prims cb) fuel t).items, prims.length ≤ id) →
      ∀ fuel', Spins cb (drive (bvhPrimStep nodes indices prims hit closer) cb fuel' t)) := by
  intro fuel
  induction fuel with
  | zero =>
    intro t _
    exact ⟨fun _ => ⟨rfl, rfl, rfl⟩, by rintro ⟨id, h, _⟩; simp [drive] at h⟩
  | succ n ih =>
    intro t hi
    have hq := primStep_eq (nodes := nodes) (indices := indices) (prims := prims) (hit := hit) (closer := closer) t
    cases hstep : bvhIndexStep nodes indices hit closer t with
    | done =>
      rw [hstep] at hq
      simp only [drive, hstep, hq]
      exact ⟨fun _ => by simp, by rintro ⟨id, h, _⟩; simp at h⟩
    | panic =>
      rw [hstep] at hq
      simp only [drive, hstep, hq]
      exact ⟨fun _ => by simp, by rintro ⟨id, h, _⟩; simp at h⟩
    | cont t' =>
      rw [hstep] at hq
      obtain ⟨ih1, ih2⟩ := ih t' (indexStep_cont hi hstep)
      simp only [drive, hstep]
      refine ⟨fun h => by rw [hq]; exact ih1 h, fun h fuel' => ?_⟩
      cases fuel' with
      | zero => exact ⟨.inl rfl, fun _ => rfl⟩
      | succ k => simp only [drive, hq]; exact ih2 h k
    | yield id t' =>
      rw [hstep] at hq
      obtain ⟨top, rest, nd, e1, e2, e3, e4, e5, rfl⟩ := indexStep_yield hstep
      have hi0 : 0 ≤ t.i := by
        rcases hi with h | ⟨_, _, _, _, _, _, h, _⟩
        · omega
        · exact h
      have hseen : ∀ k, 0 ≤ k → k ≤ t.i → (atI32 indices (nd.leftFirstU + k)).isSome = true := by
        intro k hk0 hk
        by_cases e : k = t.i
        · subst e; rw [e5]; rfl
        · rcases hi with h | ⟨top', rest', nd', f1, f2, _, _, f5⟩
          · omega
          · rw [e1] at f1; cases f1; rw [e2] at f2; cases f2; exact f5 k hk0 (by omega)
      simp only [drive, hstep]
      cases hp : prims[id]? with
      | none =>
        simp only [hp] at hq
        have hlen : prims.length ≤ id := by simpa using hp
        simp only [atSlice, hp]
        refine ⟨fun h => ?_, fun _ fuel' => ?_⟩
        · have := h id (by simp); omega
        · cases fuel' with
          | zero => exact ⟨.inl rfl, fun _ => rfl⟩
          | succ k =>
            simp only [drive, hq]
            exact leaf_spins e2 e3 e4 hi0 hseen e5 hp k _ e1 (Int.le_refl 0) hi0
      | some p =>
        simp only [hp] at hq
        have hlen : id < prims.length := by
          have := List.getElem?_eq_some_iff.1 hp; exact this.1
        simp only [atSlice, hp]
        cases hcb : cb t.ray p with
        | mk r b =>
          cases b with
          | true =>
            simp only
            refine ⟨fun _ => ?_, ?_⟩
            · rw [hq]; simp [hcb, hp]
            · rintro ⟨x, hx, hle⟩
              have : x = id := by simpa using hx
              omega
          | false =>
            simp only
            have hi' : InLeaf nodes indices { t with i := t.i + 1, ray := r } :=
              .inr ⟨top, rest, nd, e1, e2, e3, (show (0 : Int) ≤ t.i + 1 by omega),
                fun k h0 h1 => hseen k h0 (by have h1 : k < t.i + 1 := h1; omega)⟩
            obtain ⟨ih1, ih2⟩ := ih { t with i := t.i + 1, ray := r } hi'
            refine ⟨fun h => ?_, fun h fuel' => ?_⟩
            · rw [hq]
              simp only [hcb]
              obtain ⟨a1, a2, a3⟩ := ih1 (fun x hx => h x (by simp [Run.cons, hx]))
              exact ⟨by simp [Run.cons, hp, a1], a2, a3⟩
            · have h' : ∃ x ∈ (drive (bvhIndexStep nodes indices hit closer) (atSlice prims cb) n
                  { t with i := t.i + 1, ray := r }).items, prims.length ≤ x := by
                obtain ⟨x, hx, hle⟩ := h
                rcases List.mem_cons.1 hx with rfl | hx
                · omega
                · exact ⟨x, hx, hle⟩
              cases fuel' with
              | zero => exact ⟨.inl rfl, fun _ => rfl⟩
              | succ k =>
                simp only [drive, hq, hcb]
                exact ih2 h' k

variable [FloatOps F]

/-- C25, exactly, for rays: let the loop over ids be run with a caller that does with `primitives[id]` what `cb` does and
stops at the first id beyond the slice.  If it meets no such id, the loop over primitives does the same: the same
primitives, the same ray, the same ending.  If it meets one, the loop over primitives never ends by itself: it goes
round in that leaf until the caller breaks, and for ever if the caller never does. -/
theorem C25_prims_exact (b : Bvh F) (prims : List P) (hne : prims ≠ []) (cb : Ray F → P → Ray F × Bool) (ray : Ray F)
    (fuel : Nat) :
    ((∀ id ∈ (b.forIndices (atSlice prims cb) fuel ray).items, id < prims.length) →
      (b.forPrims prims cb fuel ray).items.map some =
        (b.forIndices (atSlice prims cb) fuel ray).items.map (fun id => prims[id]?) ∧
      (b.forPrims prims cb fuel ray).ray = (b.forIndices (atSlice prims cb) fuel ray).ray ∧
      (b.forPrims prims cb fuel ray).ending = (b.forIndices (atSlice prims cb) fuel ray).ending) ∧
    ((∃ id ∈ (b.forIndices (atSlice prims cb) fuel ray).items, prims.length ≤ id) → ∀ fuel',
      ((b.forPrims prims cb fuel' ray).ending = .outOfFuel ∨ (b.forPrims prims cb fuel' ray).ending = .stopped) ∧
      ((∀ r p, (cb r p).2 = false) → (b.forPrims prims cb fuel' ray).ending = .outOfFuel)) := by
  have e : prims.isEmpty = false := by cases prims with
    | nil => exact absurd rfl hne
    | cons => rfl
  unfold Bvh.forPrims Bvh.forIndices
  rw [e, Bool.or_false]
  exact prims_drive fuel _ (.inl rfl)

/-- C25, exactly, for packets. -/
theorem C25_packet_prims_exact (b : Bvh F) (prims : List P) (hne : prims ≠ [])
    (cb : RayPacket4 F → P → RayPacket4 F × Bool) (pk : RayPacket4 F) (fuel : Nat) :
    ((∀ id ∈ (b.forIndicesPacket (atSlice prims cb) fuel pk).items, id < prims.length) →
      (b.forPrimsPacket prims cb fuel pk).items.map some =
        (b.forIndicesPacket (atSlice prims cb) fuel pk).items.map (fun id => prims[id]?) ∧
      (b.forPrimsPacket prims cb fuel pk).ray = (b.forIndicesPacket (atSlice prims cb) fuel pk).ray ∧
      (b.forPrimsPacket prims cb fuel pk).ending = (b.forIndicesPacket (atSlice prims cb) fuel pk).ending) ∧
    ((∃ id ∈ (b.forIndicesPacket (atSlice prims cb) fuel pk).items, prims.length ≤ id) → ∀ fuel',
      ((b.forPrimsPacket prims cb fuel' pk).ending = .outOfFuel ∨
        (b.forPrimsPacket prims cb fuel' pk).ending = .stopped) ∧
      ((∀ r p, (cb r p).2 = false) → (b.forPrimsPacket prims cb fuel' pk).ending = .outOfFuel)) := by
  have e : prims.isEmpty = false := by cases prims with
    | nil => exact absurd rfl hne
    | cons => rfl
  unfold Bvh.forPrimsPacket Bvh.forIndicesPacket
  rw [e, Bool.or_false]
  exact prims_drive fuel _ (.inl rfl)

/-- Two callers that differ only on some ids meet the first of those at the same point. -/
theorem drive_stop_bad {step : Trav σ → Step σ Nat} {c1 c2 : σ → Nat → σ × Bool} {bad : Nat → Prop}
    (hsame : ∀ r id, ¬ bad id → c1 r id = c2 r id) :
    ∀ (fuel : Nat) (t : Trav σ), ((∃ id ∈ (drive step c1 fuel t).items, bad id) ↔
      ∃ id ∈ (drive step c2 fuel t).items, bad id) ∧
      ((∀ id ∈ (drive step c1 fuel t).items, ¬ bad id) → drive step c1 fuel t = drive step c2 fuel t) := by
  intro fuel
  induction fuel with
  | zero => intro t; exact ⟨Iff.rfl, fun _ => rfl⟩
  | succ n ih =>
    intro t
    simp only [drive]
    cases step t with
    | done => exact ⟨Iff.rfl, fun _ => rfl⟩
    | panic => exact ⟨Iff.rfl, fun _ => rfl⟩
    | cont t' => exact ih t'
    | yield x t' =>
      simp only
      by_cases hx : bad x
      · have m1 : ∃ id ∈ (match c1 t'.ray x with
            | (ray, true) => (⟨[x], ray, .stopped⟩ : Run σ Nat)
            | (ray, false) => (drive step c1 n { t' with ray := ray }).cons x).items, bad id := by
          cases h : c1 t'.ray x with
          | mk r b => cases b <;> exact ⟨x, by simp [Run.cons], hx⟩
        have m2 : ∃ id ∈ (match c2 t'.ray x with
            | (ray, true) => (⟨[x], ray, .stopped⟩ : Run σ Nat)
            | (ray, false) => (drive step c2 n { t' with ray := ray }).cons x).items, bad id := by
          cases h : c2 t'.ray x with
          | mk r b => cases b <;> exact ⟨x, by simp [Run.cons], hx⟩
        exact ⟨⟨fun _ => m2, fun _ => m1⟩, fun h => by obtain ⟨i, hi, hb⟩ := m1; exact absurd hb (h i hi)⟩
      · rw [hsame t'.ray x hx]
        cases h : c2 t'.ray x with
        | mk r b =>
          cases b with
          | true => exact ⟨Iff.rfl, fun _ => rfl⟩
          | false =>
            obtain ⟨i1, i2⟩ := ih { t' with ray := r }
            refine ⟨?_, fun hall => ?_⟩
            · simp only [Run.cons, List.mem_cons, exists_eq_or_imp, hx, false_or]; exact i1
            · show Run.cons x _ = Run.cons x _
              rw [i2 (fun id hid => hall id (by simp [Run.cons, hid]))]

/-- C25, the criterion: on a well-formed BVH of depth at most 31, for a NaN-free ray and a caller that changes only
`ray.t` and never breaks, the loop over primitives ends exactly if the slice covers every id in the leaves the ray
gets to, and then no later than the loop over ids; otherwise it runs for ever. -/
theorem C25_prims_end_iff (b : Bvh F) (T : BTree F) (h : b.Denotes T) (hd : T.depth ≤ 31) (ray : Ray F)
    (hn : ray.hasNaN = false) (prims : List P) (hne : prims ≠ []) (cb : Ray F → P → Ray F × Bool)
    (hcb : ∀ r p, ∃ t, cb r p = ({ r with t := t }, false)) :
    ((∀ id ∈ T.reach b.indices (fun a => (a.intersect ray).isSome), id < prims.length) →
      ∀ fuel, T.rounds < fuel → (b.forPrims prims cb fuel ray).ending = .finished) ∧
    ((∃ id ∈ T.reach b.indices (fun a => (a.intersect ray).isSome), prims.length ≤ id) →
      ∀ fuel, (b.forPrims prims cb fuel ray).ending = .outOfFuel) := by
  let c1 : Ray F → Nat → Ray F × Bool := fun r id => match prims[id]? with
    | some p => cb r p
    | none => (r, false)
  have hc1 : ∀ r id, ∃ t, c1 r id = ({ r with t := t }, false) := by
    intro r id
    show ∃ t, (match prims[id]? with | some p => cb r p | none => (r, false)) = _
    cases prims[id]? with
    | none => exact ⟨r.t, rfl⟩
    | some p => exact hcb r p
  have hstop := fun fuel t => drive_stop_bad (step := bvhIndexStep b.nodes b.primIndices Aabb.intersect closerRay)
    (c1 := c1) (c2 := atSlice prims cb) (bad := fun id => prims.length ≤ id)
    (by
      intro r id hb
      have : prims[id]? = some (prims[id]'(by omega)) := List.getElem?_eq_getElem (by omega)
      show (match prims[id]? with | some p => cb r p | none => (r, false)) = _
      unfold atSlice; rw [this]) fuel t
  constructor
  · intro hall fuel hf
    obtain ⟨x1, _, x3⟩ := C20_ray_traversal_exact b T h hd ray hn c1 hc1 fuel hf
    have hin : ∀ id ∈ (b.forIndices c1 fuel ray).items, ¬ prims.length ≤ id := fun id hid => by
      have := hall id (x3.mem_iff.1 hid); omega
    have heq : b.forIndices c1 fuel ray = b.forIndices (atSlice prims cb) fuel ray := (hstop fuel _).2 hin
    rw [((C25_prims_exact b prims hne cb ray fuel).1 (by
      rw [← heq]; intro id hid; have := hin id hid; omega)).2.2, ← heq, x1]
  · intro hex fuel
    obtain ⟨_, _, x3⟩ := C20_ray_traversal_exact b T h hd ray hn c1 hc1 (T.rounds + 1) (Nat.lt_succ_self _)
    obtain ⟨id, hid, hle⟩ := hex
    have : ∃ id ∈ (b.forIndices (atSlice prims cb) (T.rounds + 1) ray).items, prims.length ≤ id :=
      (hstop (T.rounds + 1) _).1.1 ⟨id, x3.mem_iff.2 hid, hle⟩
    refine ((C25_prims_exact b prims hne cb ray (T.rounds + 1)).2 this fuel).2 ?_
    intro r p
    obtain ⟨t, e⟩ := hcb r p
    rw [e]

/-- Both sides of the criterion occur: two leaves with ids 0 and 7, a slice of one primitive, and rays that reach both or
only the first. -/
def gapBvh : Bvh Rat :=
  { nodes := [{ bounds := { min := ⟨0, 0, 0⟩, extra1 := -1, max := ⟨9, 1, 1⟩, extra2 := 1 } },
      { bounds := { min := ⟨0, 0, 0⟩, extra1 := 1, max := ⟨1, 1, 1⟩, extra2 := 0 } },
      { bounds := { min := ⟨8, 0, 0⟩, extra1 := 1, max := ⟨9, 1, 1⟩, extra2 := 1 } }]
    primIndices := [0, 7], buildType := .binnedSAH }
/-- Its tree. -/
def gapTree : BTree Rat :=
  .node { min := ⟨0, 0, 0⟩, extra1 := 0, max := ⟨9, 1, 1⟩, extra2 := 0 }
    (.leaf { min := ⟨0, 0, 0⟩, extra1 := 0, max := ⟨1, 1, 1⟩, extra2 := 0 } 0 1)
    (.leaf { min := ⟨8, 0, 0⟩, extra1 := 0, max := ⟨9, 1, 1⟩, extra2 := 0 } 1 1)

example : gapBvh.Denotes gapTree ∧ gapTree.depth ≤ 31 ∧
    (∀ fuel, gapTree.rounds < fuel → (gapBvh.forPrims ["a"] (fun r _ => (r, false)) fuel
      (Ray.new ⟨1/2, 1/2, -1⟩ ⟨1/64, 1/64, 1⟩)).ending = .finished) ∧
    ∀ fuel, (gapBvh.forPrims ["a"] (fun r _ => (r, false)) fuel (Ray.new ⟨-1, 1/2, 1/2⟩ ⟨1, 1/64, 1/64⟩)).ending =
      .outOfFuel := by
  have hD : gapBvh.Denotes gapTree := by
    refine ⟨unfold?_sound (fuel := 5) (by decide +kernel), ?_⟩
    simp [gapTree, gapBvh, BTree.RangesIn]
  refine ⟨hD, by decide, ?_, ?_⟩
  · exact (C25_prims_end_iff gapBvh gapTree hD (by decide) _ (by decide +kernel) ["a"] (by simp) _
      (fun r _ => ⟨r.t, rfl⟩)).1 (by decide +kernel)
  · exact (C25_prims_end_iff gapBvh gapTree hD (by decide) _ (by decide +kernel) ["a"] (by simp) _
      (fun r _ => ⟨r.t, rfl⟩)).2 (by decide +kernel)

end Rtbvh
