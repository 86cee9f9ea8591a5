import Verif.Spec.Trace
import Verif.Props.BuildQuery
import Verif.Props.TrianglePacket
/- Property C93: tracing through the hierarchy against testing every triangle, both in rounded arithmetic. -/
namespace Rtbvh
open FloatOps LawfulFloat Aabb
variable {F : Type} [FloatOps F]

/-- Folding a closest-hit test over a list, seen through one lane: `test p` is what the test of `p` answers, whatever the
current upper end. -/
theorem fold_lane [LawfulFloat F] {σ : Type} {f : σ → Nat → σ} {lane : σ → F} {I : σ → Prop} {test : Nat → Option F} {fr : F → Bool}
    (hI : ∀ r p, I r → I (f r p))
    (hs : ∀ r p, I r → lane (f r p) = match test p with
      | some s => if (fr s && s <. lane r) = true then s else lane r
      | none => lane r) (xs : List Nat) : ∀ r, I r →
    (lane (xs.foldl f r) = lane r ∨ ((lane (xs.foldl f r) <. lane r) = true ∧
      ∃ p ∈ xs, test p = some (lane (xs.foldl f r)) ∧ fr (lane (xs.foldl f r)) = true)) ∧
    ∀ p ∈ xs, ∀ s, test p = some s → fr s = true → (s <. lane (xs.foldl f r)) = false := by
  induction xs with
  | nil => intro r _; exact ⟨.inl rfl, by simp⟩
  | cons x xs ih =>
    intro r hr
    have h1 := hs r x hr
    obtain ⟨a, lo⟩ := ih (f r x) (hI r x hr)
    rw [List.foldl_cons]
    generalize lane (xs.foldl f (f r x)) = t at a lo ⊢
    -- the first step
    have key : (lane (f r x) = lane r ∨ ((lane (f r x) <. lane r) = true ∧ test x = some (lane (f r x)) ∧
        fr (lane (f r x)) = true)) ∧ ∀ s, test x = some s → fr s = true → (s <. lane (f r x)) = false := by
      cases e : test x with
      | none => simp only [e] at h1; exact ⟨.inl h1, by simp⟩
      | some s =>
        simp only [e] at h1
        cases e2 : (fr s && s <. lane r) with
        | true =>
          rw [if_pos e2] at h1
          rw [Bool.and_eq_true] at e2
          refine ⟨.inr ⟨by rw [h1]; exact e2.2, by rw [h1], by rw [h1]; exact e2.1⟩, fun s' hs' _ => ?_⟩
          cases hs'
          rw [h1]
          cases h : (s <. s) with
          | false => rfl
          | true =>
            have := (lt_iff.1 h).2.2
            rw [LawfulFloat.le_refl (lt_iff.1 h).1] at this; cases this
        | false =>
          rw [if_neg (by rw [e2]; decide)] at h1
          refine ⟨.inl h1, fun s' hs' hf => ?_⟩
          cases hs'
          rw [h1]
          rw [hf, Bool.true_and] at e2
          exact e2
    obtain ⟨b, lb⟩ := key
    have tle : t = lane (f r x) ∨ (t <. lane (f r x)) = true := a.imp id And.left
    have low : ∀ s, (s <. lane (f r x)) = false → (s <. t) = false := by
      intro s hs'
      cases h : (s <. t) with
      | false => rfl
      | true =>
        rcases tle with e | l
        · rw [e] at h; rw [h] at hs'; cases hs'
        · rw [lt_of_lt_of_le' h (lt_le l)] at hs'; cases hs'
    refine ⟨?_, fun p hp s k1 k2 => ?_⟩
    · rcases a with e | ⟨l, p, hp, k⟩
      · rcases b with e' | ⟨l', k1, k2⟩
        · exact .inl (e.trans e')
        · exact .inr ⟨by rw [e]; exact l', x, List.mem_cons_self, by rw [e]; exact ⟨k1, k2⟩⟩
      · refine .inr ⟨?_, p, List.mem_cons_of_mem _ hp, k⟩
        rcases b with e' | ⟨l', _⟩
        · rw [← e']; exact l
        · exact lt_of_lt_of_le' l (lt_le l')
    · rcases List.mem_cons.1 hp with rfl | hp
      · exact low s (lb s k1 k2)
      · exact lo p hp s k1 k2

/-- Two folds over lists with the same relevant members end at the same parameter. -/
theorem fold_same [LawfulFloat F] {σ : Type} {f : σ → Nat → σ} {lane : σ → F} {I : σ → Prop} {test : Nat → Option F} {fr : F → Bool}
    (hI : ∀ r p, I r → I (f r p))
    (hs : ∀ r p, I r → lane (f r p) = match test p with
      | some s => if (fr s && s <. lane r) = true then s else lane r
      | none => lane r) (xs ys : List Nat) (r : σ) (hr : I r) (hsub : ∀ p ∈ xs, p ∈ ys)
    (hall : ∀ p ∈ ys, ∀ s, test p = some s → fr s = true → (s <. lane (xs.foldl f r)) = true → p ∈ xs) :
    Same (lane (xs.foldl f r)) (lane (ys.foldl f r)) := by
  obtain ⟨a, la⟩ := fold_lane hI hs xs r hr
  obtain ⟨b, lb⟩ := fold_lane hI hs ys r hr
  generalize lane (xs.foldl f r) = ta at a la hall ⊢
  generalize lane (ys.foldl f r) = tb at b lb ⊢
  rcases b with b | ⟨hb, q, hq, q1, q2⟩
  · rcases a with a | ⟨ha, p, hp, p1, p2⟩
    · exact .inl (a.trans b.symm)
    · have := lb p (hsub p hp) _ p1 p2
      rw [b, ha] at this; cases this
  · have h1 : (tb <. ta) = false := by
      cases h : (tb <. ta) with
      | false => rfl
      | true =>
        have := la q (hall q hq _ q1 q2 h) _ q1 q2
        rw [h] at this; cases this
    rcases a with a | ⟨ha, p, hp, p1, p2⟩
    · rw [a, hb] at h1; cases h1
    · have h2 := lb p (hsub p hp) _ p1 p2
      exact .inr ⟨not_lt_le (lt_num hb).1 (lt_num ha).1 h1, not_lt_le (lt_num ha).1 (lt_num hb).1 h2⟩

/-- What the single-ray triangle test answers, whatever the current upper end. -/
def rayTest (tris : List (Triangle F)) (ray : Ray F) (p : Nat) : Option F :=
  match tris[p]? with
  | some tr =>
    let m := tr.mt ray.origin ray.direction
    if (!(m.a >. lit (-1) (-5) && m.a <. lit 1 (-5)) && (zero <=. m.u && m.u <=. one) &&
      !(m.v <. zero || (m.u +. m.v) >. one)) = true then some m.t else none
  | none => none

theorem meshCb_step (tris : List (Triangle F)) (ray : Ray F) (t : F) (p : Nat) :
    meshCb tris { ray with t := t } p = ({ ray with t := match rayTest tris ray p with
      | some s => if (ray.tMin <. s && s <. t) = true then s else t
      | none => t }, false) := by
  unfold meshCb rayTest
  cases e : tris[p]? with
  | none => rfl
  | some tr =>
    simp only
    rw [intersect_mt]
    simp only
    generalize tr.mt ray.origin ray.direction = m
    cases h : (!(m.a >. lit (-1) (-5) && m.a <. lit 1 (-5)) && (zero <=. m.u && m.u <=. one) &&
      !(m.v <. zero || (m.u +. m.v) >. one)) with
    | false => simp
    | true =>
      simp only [Bool.true_and, if_true, FloatOps.gt]
      split <;> rfl

theorem foldl_range_get {α σ : Type} (f : σ → α → σ) (l : List α) (r : σ) :
    (List.range l.length).foldl (fun r p => match l[p]? with | some a => f r a | none => r) r = l.foldl f r := by
  induction l generalizing r with
  | nil => rfl
  | cons a l ih =>
    rw [List.length_cons, List.range_succ_eq_map, List.foldl_cons, List.foldl_map, List.foldl_cons]
    simpa using ih (f r a)

theorem testAll_eq (tris : List (Triangle F)) (ray : Ray F) :
    (List.range tris.length).foldl (fun r p => (meshCb tris r p).1) ray = testAll tris ray := by
  refine Eq.trans ?_ (foldl_range_get (fun r (tr : Triangle F) => (tr.intersect r).1) tris ray)
  congr 1
  funext r p
  unfold meshCb
  cases tris[p]? <;> rfl

/-- The callback of the mesh tracer only lowers `t`. -/
theorem meshCb_lowered [LawfulFloat F] (tris : List (Triangle F)) (r : Ray F) (p : Nat) :
    r.Lowered (meshCb tris r p).1 ∧ (meshCb tris r p).2 = false := by
  have h := meshCb_step tris r r.t p
  rw [show ({ r with t := r.t } : Ray F) = r from rfl] at h
  rw [h]
  refine ⟨⟨⟨_, rfl⟩, ?_⟩, rfl⟩
  simp only
  cases rayTest tris r p with
  | none => exact .inl rfl
  | some s =>
    simp only
    split
    · rename_i hh; rw [Bool.and_eq_true] at hh; exact .inr (lt_le hh.2)
    · exact .inl rfl

theorem accepts_of_test (tris : List (Triangle F)) (ray : Ray F) {p : Nat} {s T : F} (h : rayTest tris ray p = some s)
    (h1 : (ray.tMin <. s) = true) (h2 : (s <. T) = true) :
    ∃ tr, tris[p]? = some tr ∧ (tr.intersect { ray with t := T }).2 = true := by
  unfold rayTest at h
  cases e : tris[p]? with
  | none => simp [e] at h
  | some tr =>
    refine ⟨tr, rfl, ?_⟩
    simp only [e] at h
    rw [intersect_mt]
    simp only at h ⊢
    split at h
    · rename_i hc
      cases h
      rw [if_pos]
      rw [Bool.and_eq_true]
      exact ⟨hc, by rw [Bool.and_eq_true]; exact ⟨h1, h2⟩⟩
    · cases h

theorem ray_same_ray (tris : List (Triangle F)) (ray : Ray F) (items : List Nat) (out : Ray F)
    (hray : out = items.foldl (fun r x => (meshCb tris r x).1) ray) : out = { ray with t := out.t } := by
  have hinv : ∀ (xs : List Nat) (r : Ray F), r = { ray with t := r.t } →
      xs.foldl (fun r x => (meshCb tris r x).1) r = { ray with t := (xs.foldl (fun r x => (meshCb tris r x).1) r).t } := by
    intro xs
    induction xs with
    | nil => exact fun r h => h
    | cons x xs ih => exact fun r h => ih _ (by show (meshCb tris r x).1 = { ray with t := (meshCb tris r x).1.t }; rw [h, meshCb_step])
  rw [hray]; exact hinv _ _ rfl

/-- A run of the mesh tracer that was offered every triangle its final ray would still accept ends where testing every
triangle ends. -/
theorem ray_same [LawfulFloat F] (tris : List (Triangle F)) (ray : Ray F) (items : List Nat) (out : Ray F)
    (hray : out = items.foldl (fun r x => (meshCb tris r x).1) ray) (hsub : ∀ p ∈ items, p < tris.length)
    (hall : ∀ p < tris.length, ∀ tr, tris[p]? = some tr → (tr.intersect out).2 = true → p ∈ items) :
    out = { ray with t := out.t } ∧ testAll tris ray = { ray with t := (testAll tris ray).t } ∧
    Same out.t (testAll tris ray).t := by
  have hI : ∀ (r : Ray F) (p : Nat), r = { ray with t := r.t } → (meshCb tris r p).1 = { ray with t := (meshCb tris r p).1.t } := by
    intro r p hr
    rw [hr, meshCb_step]
  have hinv : ∀ (xs : List Nat) (r : Ray F), r = { ray with t := r.t } →
      xs.foldl (fun r x => (meshCb tris r x).1) r = { ray with t := (xs.foldl (fun r x => (meshCb tris r x).1) r).t } := by
    intro xs
    induction xs with
    | nil => exact fun r h => h
    | cons x xs ih => exact fun r h => ih _ (hI r x h)
  have ho : out = { ray with t := out.t } := by rw [hray]; exact hinv _ _ rfl
  rw [← testAll_eq]
  refine ⟨ho, hinv _ _ rfl, ?_⟩
  have := fold_same (f := fun r x => (meshCb tris r x).1) (lane := Ray.t) (I := fun r => r = { ray with t := r.t })
    (test := rayTest tris ray) (fr := fun s => ray.tMin <. s) hI (fun r p hr => by rw [hr, meshCb_step])
    items (List.range tris.length) ray rfl (fun p hp => List.mem_range.2 (hsub p hp)) (fun p hp s h1 h2 h3 => by
      rw [← hray] at h3
      obtain ⟨tr, e, k⟩ := accepts_of_test tris ray h1 h2 h3
      rw [← ho] at k
      exact hall p (List.mem_range.1 hp) tr e k)
  rw [← hray] at this
  exact this

/-! The same for one lane of a packet. -/

/-- What lane `i` of the packet triangle test answers, whatever the current upper end. -/
def laneTest (tris : List (Triangle F)) (pk : RayPacket4 F) (i : Fin 4) (p : Nat) : Option F :=
  match tris[p]? with
  | some tr =>
    let m := tr.mt (pk.originOf i) (pk.dirOf i)
    if ((m.a <=. neg (lit 1 (-6)) || m.a >=. lit 1 (-6)) && (m.u >=. zero && m.u <=. one) &&
      (m.v >=. zero && (m.u +. m.v) <=. one)) = true then some m.t else none
  | none => none

theorem meshCb4_step [LawfulFloat F] (tris : List (Triangle F)) (tm : Vec4 F) (pk : RayPacket4 F) (t : Vec4 F) (p : Nat) :
    ∃ t', meshCb4 tris tm { pk with t := t } p = ({ pk with t := t' }, false) ∧
      ∀ i, t'.get i = match laneTest tris pk i p with
        | some s => if (tm.get i <=. s && s <. t.get i) = true then s else t.get i
        | none => t.get i := by
  unfold meshCb4 laneTest
  cases e : tris[p]? with
  | none => exact ⟨t, rfl, fun _ => rfl⟩
  | some tr =>
    obtain ⟨_, h2, _⟩ := intersect4_mt tr { pk with t := t } tm
    refine ⟨_, by simp only; rw [h2], fun i => ?_⟩
    simp only [t4, Vec4.get_ofFn]
    rw [show RayPacket4.originOf { pk with t := t } i = pk.originOf i from rfl,
      show RayPacket4.dirOf { pk with t := t } i = pk.dirOf i from rfl]
    generalize tr.mt (pk.originOf i) (pk.dirOf i) = m
    unfold hit4
    cases h : ((m.a <=. neg (lit 1 (-6)) || m.a >=. lit 1 (-6)) && (m.u >=. zero && m.u <=. one) &&
      (m.v >=. zero && (m.u +. m.v) <=. one)) with
    | false => simp
    | true => simp [FloatOps.ge]

theorem testAll4_eq (tris : List (Triangle F)) (tm : Vec4 F) (pk : RayPacket4 F) :
    (List.range tris.length).foldl (fun r p => (meshCb4 tris tm r p).1) pk = testAll4 tris tm pk := by
  refine Eq.trans ?_ (foldl_range_get (fun r (tr : Triangle F) => (tr.intersect4 r tm).1) tris pk)
  congr 1
  funext r p
  unfold meshCb4
  cases tris[p]? <;> rfl

theorem meshCb4_lowered [LawfulFloat F] (tris : List (Triangle F)) (tm : Vec4 F) (r : RayPacket4 F) (p : Nat) :
    r.Lowered (meshCb4 tris tm r p).1 ∧ (meshCb4 tris tm r p).2 = false := by
  obtain ⟨t', h, k⟩ := meshCb4_step tris tm r r.t p
  rw [show ({ r with t := r.t } : RayPacket4 F) = r from rfl] at h
  rw [h]
  refine ⟨⟨⟨_, rfl⟩, fun i => ?_⟩, rfl⟩
  simp only
  rw [k i]
  cases laneTest tris r i p with
  | none => exact .inl rfl
  | some s =>
    simp only
    split
    · rename_i hh; rw [Bool.and_eq_true] at hh; exact .inr (lt_le hh.2)
    · exact .inl rfl

theorem accepts4_of_test [LawfulFloat F] (tris : List (Triangle F)) (tm : Vec4 F) (pk : RayPacket4 F) (i : Fin 4) {p : Nat} {s : F}
    {T : Vec4 F} (h : laneTest tris pk i p = some s) (h1 : (tm.get i <=. s) = true) (h2 : (s <. T.get i) = true) :
    ∃ tr, tris[p]? = some tr ∧ laneHit (tr.intersect4 { pk with t := T } tm).2 i = true := by
  unfold laneTest at h
  cases e : tris[p]? with
  | none => simp [e] at h
  | some tr =>
    refine ⟨tr, rfl, ?_⟩
    simp only [e] at h
    rw [(intersect4_mt tr { pk with t := T } tm).1 i]
    rw [show RayPacket4.originOf { pk with t := T } i = pk.originOf i from rfl,
      show RayPacket4.dirOf { pk with t := T } i = pk.dirOf i from rfl]
    split at h
    · rename_i hc
      cases h
      unfold hit4
      rw [Bool.and_eq_true]
      exact ⟨hc, by rw [Bool.and_eq_true]; exact ⟨h1, h2⟩⟩
    · cases h

theorem packet_same [LawfulFloat F] (tris : List (Triangle F)) (tm : Vec4 F) (pk : RayPacket4 F) (items : List Nat)
    (out : RayPacket4 F) (hray : out = items.foldl (fun r x => (meshCb4 tris tm r x).1) pk)
    (hsub : ∀ p ∈ items, p < tris.length) :
    out = { pk with t := out.t } ∧ testAll4 tris tm pk = { pk with t := (testAll4 tris tm pk).t } ∧
    ∀ i, (∀ p < tris.length, ∀ tr, tris[p]? = some tr → laneHit (tr.intersect4 out tm).2 i = true → p ∈ items) →
      Same (out.t.get i) ((testAll4 tris tm pk).t.get i) := by
  have hI : ∀ (r : RayPacket4 F) (p : Nat), r = { pk with t := r.t } →
      (meshCb4 tris tm r p).1 = { pk with t := (meshCb4 tris tm r p).1.t } := by
    intro r p hr
    obtain ⟨t', e, _⟩ := meshCb4_step tris tm pk r.t p
    rw [← hr] at e
    rw [e]
  have hinv : ∀ (xs : List Nat) (r : RayPacket4 F), r = { pk with t := r.t } →
      xs.foldl (fun r x => (meshCb4 tris tm r x).1) r =
        { pk with t := (xs.foldl (fun r x => (meshCb4 tris tm r x).1) r).t } := by
    intro xs
    induction xs with
    | nil => exact fun r h => h
    | cons x xs ih => exact fun r h => ih _ (hI r x h)
  have ho : out = { pk with t := out.t } := by rw [hray]; exact hinv _ _ rfl
  rw [← testAll4_eq]
  refine ⟨ho, hinv _ _ rfl, fun i hall => ?_⟩
  have := fold_same (f := fun r x => (meshCb4 tris tm r x).1) (lane := fun r => r.t.get i)
    (I := fun r => r = { pk with t := r.t })
    (test := laneTest tris pk i) (fr := fun s => tm.get i <=. s) hI (fun r p hr => by
      obtain ⟨t', e, k⟩ := meshCb4_step tris tm pk r.t p
      rw [← hr] at e
      rw [e]
      exact k i)
    items (List.range tris.length) pk rfl (fun p hp => List.mem_range.2 (hsub p hp)) (fun p hp s h1 h2 h3 => by
      rw [← hray] at h3
      obtain ⟨tr, e, k⟩ := accepts4_of_test tris tm pk i h1 h2 h3
      rw [← ho] at k
      exact hall p (List.mem_range.1 hp) tr e k)
  rw [← hray] at this
  exact this

variable [LawfulFloat F]

/-- Everything C93 needs to know about a built hierarchy. -/
structure TraceReady (n : Nat) (bvh : Bvh F) (T : BTree F) (boxes : Nat → Aabb F) : Prop where
  compact : bvh.Compact T
  ids : (T.ids bvh.indices).Perm (List.range n)
  rounds : T.rounds < 3 * n
  numeric : ∀ p < n, (boxes p).Numeric
  bounds : T.Bounds bvh.indices boxes

namespace TraceReady
variable {n : Nat} {bvh : Bvh F} {T : BTree F} {boxes : Nat → Aabb F}

theorem above (S : TraceReady n bvh T boxes) {o inv : Vec3 F} (hu : Usable o inv) (p : Nat) :
    T.Forall bvh.indices fun a ids => p ∈ ids → (boxes p).Within a ∧ a.NoNaN o inv :=
  S.bounds.mono fun _ _ h hq => ⟨h p hq, noNaN_of_finite (h p hq).num_right hu.1 hu.2.1 hu.2.2⟩

theorem aboveQuad (S : TraceReady n bvh T boxes) {o inv : Vec3 F} (hu : Usable o inv) (p : Nat) :
    T.toQuad.Forall bvh.indices fun a ids => p ∈ ids → (boxes p).Within a ∧ a.NoNaN o inv := by
  have h : T.Forall bvh.indices fun a ids => ∀ q ∈ ids, q = p → (boxes p).Within a ∧ a.NoNaN o inv :=
    (S.above hu p).mono fun a ids h q hq e => h (e ▸ hq)
  exact (toQuad_forall (C := fun a q => q = p → (boxes p).Within a ∧ a.NoNaN o inv) h).mono fun a ids h hq => h p hq rfl

theorem noNaN (S : TraceReady n bvh T boxes) {o inv : Vec3 F} (hu : Usable o inv) {p : Nat} (hp : p < n) :
    (boxes p).NoNaN o inv := noNaN_of_finite (S.numeric p hp) hu.1 hu.2.1 hu.2.2

/-- Rays through the binary hierarchy. -/
theorem ray (S : TraceReady n bvh T boxes) (tris : List (Triangle F)) (hl : tris.length = n) (hdep : T.depth ≤ 31)
    (ray : Ray F) (hn : ray.hasNaN = false) (hr : ray.Coherent) (hu : Usable ray.origin ray.invDirection)
    (hbox : BoxesAgree tris boxes (fun a r => (a.intersect r).isSome) ray) (fuel : Nat) (hf : 3 * n ≤ fuel) :
    let run := bvh.forIndices (meshCb tris) fuel ray
    run.ending = .finished ∧ run.ray = { ray with t := run.ray.t } ∧ Same run.ray.t (testAll tris ray).t := by
  intro run
  have hro := S.rounds
  have hcb : ∀ (r : Ray F) (id : Nat), ∃ t, meshCb tris r id = ({ r with t := t }, false) := by
    intro r id
    exact ⟨_, meshCb_step tris r r.t id⟩
  obtain ⟨h1, _, hperm⟩ := C20_ray_traversal_exact bvh T S.compact.toDenotes hdep ray hn _ hcb fuel (by omega)
  have hray : run.ray = run.items.foldl (fun r x => (meshCb tris r x).1) ray := by
    show (bvh.forIndices (meshCb tris) fuel ray).ray = _
    rw [C20_ray_traversal_refines bvh T S.compact.toDenotes hdep ray hn _ fuel (by omega)]
    rw [show run = _ from C20_ray_traversal_refines bvh T S.compact.toDenotes hdep ray hn _ fuel (by omega)]
    exact visit_ray T ray
  have hsub : ∀ p ∈ run.items, p < tris.length := by
    intro p hp
    rw [hperm.mem_iff] at hp
    have := List.count_pos_iff.1 (Nat.lt_of_lt_of_le (List.count_pos_iff.2 hp) (reach_count_le_ids _ _ _ _))
    rw [hl]; exact List.mem_range.1 (S.ids.mem_iff.1 this)
  have ho : run.ray = { ray with t := run.ray.t } := (ray_same_ray tris ray run.items run.ray hray)
  obtain ⟨_, _, k⟩ := ray_same tris ray run.items run.ray hray hsub (fun p hp tr e hacc => by
    rw [ho] at hacc
    have hb := hbox p tr _ e hacc
    exact C21_ray_offered bvh T S.compact.toDenotes hdep ray hn hr _ hcb fuel (by omega) p
      (S.ids.mem_iff.2 (List.mem_range.2 (hl ▸ hp))) _ (S.noNaN hu (hl ▸ hp)) (S.above hu p) hb)
  exact ⟨h1, ho, k⟩

theorem sub_of_count (S : TraceReady n bvh T boxes) {items : List Nat}
    (h : ∀ p, items.count p ≤ (T.ids bvh.indices).count p) : ∀ p ∈ items, p < n := fun p hp =>
  List.mem_range.1 (S.ids.mem_iff.1 (List.count_pos_iff.1 (Nat.lt_of_lt_of_le (List.count_pos_iff.2 hp) (h p))))

/-- Packets through the binary hierarchy. -/
theorem packet (S : TraceReady n bvh T boxes) (tris : List (Triangle F)) (hl : tris.length = n) (hdep : T.depth ≤ 31)
    (pk : RayPacket4 F) (hn : pk.hasNaN = false) (tm : Vec4 F) (fuel : Nat) (hf : 3 * n ≤ fuel) :
    let run := bvh.forIndicesPacket (meshCb4 tris tm) fuel pk
    run.ending = .finished ∧ run.ray = { pk with t := run.ray.t } ∧
    ∀ i, Usable (pk.originOf i) (pk.invOf i) → (∀ p < n, (boxes p).Valid) → BoxesAgree4 tris tm boxes Aabb.mask4 pk i →
      Same (run.ray.t.get i) ((testAll4 tris tm pk).t.get i) := by
  intro run
  have hro := S.rounds
  obtain ⟨h1, _, hcount, hoff⟩ := C23_packet_offered bvh T S.compact.toDenotes hdep pk hn (meshCb4 tris tm)
    (meshCb4_lowered tris tm) fuel (by omega)
  have hray : run.ray = run.items.foldl (fun r x => (meshCb4 tris tm r x).1) pk := by
    rw [show run = _ from C23_packet_traversal_refines bvh T S.compact.toDenotes hdep pk hn _ fuel (by omega)]
    exact visit_ray T pk
  obtain ⟨ho, _, k⟩ := packet_same tris tm pk run.items run.ray hray (hl ▸ S.sub_of_count hcount)
  refine ⟨h1, ho, fun i hu hv hbox => k i fun p hp tr e hacc => ?_⟩
  rw [ho] at hacc
  have hb := hbox p tr _ e hacc
  rw [← ho] at hb
  exact hoff p (S.ids.mem_iff.2 (List.mem_range.2 (hl ▸ hp))) _ (hv p (hl ▸ hp)) i (S.noNaN hu (hl ▸ hp)) (S.above hu p) hb

/-- Rays and packets through the four-wide hierarchy made from it. -/
theorem quads (S : TraceReady n bvh T boxes) (tris : List (Triangle F)) (hl : tris.length = n)
    (hdep : T.depth ≤ 22 ∨ T.leaves ≤ 65) (k : Nat) (hk : T.depth < k) (hv : ∀ p < n, (boxes p).Valid) :
    ∃ q : Mbvh F, Mbvh.construct k bvh = some q ∧ ∃ N, ∀ fuel ≥ N,
      (∀ ray : Ray F, Usable ray.origin ray.invDirection → BoxesAgree tris boxes quadTest ray →
        let run := q.forIndices (meshCb tris) fuel ray
        run.ending = .finished ∧ run.ray = { ray with t := run.ray.t } ∧ Same run.ray.t (testAll tris ray).t) ∧
      (∀ (pk : RayPacket4 F) (tm : Vec4 F),
        let run := q.forIndicesPacket (meshCb4 tris tm) fuel pk
        run.ending = .finished ∧ run.ray = { pk with t := run.ray.t } ∧
        ∀ i, Usable (pk.originOf i) (pk.invOf i) → BoxesAgree4 tris tm boxes quadTest4 pk i →
          Same (run.ray.t.get i) ((testAll4 tris tm pk).t.get i)) := by
  obtain ⟨q, e1, e2, _, h2, _⟩ := construct_main bvh T S.compact k hk
  have need : T.toQuad.stackNeed ≤ 32 := by
    rcases hdep with hdep | hdep
    · refine C29_quad_depth _ ?_
      by_cases h1 : 1 ≤ T.depth
      · have := toQuad_depth' T h1; omega
      · have := toQuad_depth T; omega
    · have := toQuad_need T; omega
  have hids : T.toQuad.ids q.primIndices = T.ids bvh.indices := by rw [toQuad_ids, h2]
  refine ⟨q, e1, T.toQuad.rounds, fun fuel hf => ⟨fun ray hu hbox => ?_, fun pk tm => ?_⟩⟩
  · intro run
    obtain ⟨h1, _, h3, h4⟩ := C28_ray_offered q T.toQuad e2 need ray _ (meshCb_lowered tris) fuel hf
    rw [hids] at h3 h4
    have hray : run.ray = run.items.foldl (fun r x => (meshCb tris r x).1) ray := by
      rw [show run = _ from (C28_traversal_refines q T.toQuad e2 need fuel hf).1 _ ray]
      exact T.toQuad.visit_ray ray
    have ho : run.ray = { ray with t := run.ray.t } := (ray_same_ray tris ray run.items run.ray hray)
    obtain ⟨_, _, k⟩ := ray_same tris ray run.items run.ray hray (hl ▸ S.sub_of_count h3) (fun p hp tr e hacc => by
      rw [ho] at hacc
      have hb := hbox p tr _ e hacc
      rw [← ho] at hb
      exact h4 p (S.ids.mem_iff.2 (List.mem_range.2 (hl ▸ hp))) _ (hv p (hl ▸ hp)) (S.noNaN hu (hl ▸ hp))
        (by rw [h2]; exact S.aboveQuad hu p) hb)
    exact ⟨h1, ho, k⟩
  · intro run
    obtain ⟨h1, _, h3, h4⟩ := C28_packet_offered q T.toQuad e2 need pk _ (meshCb4_lowered tris tm) fuel hf
    rw [hids] at h3 h4
    have hray : run.ray = run.items.foldl (fun r x => (meshCb4 tris tm r x).1) pk := by
      rw [show run = _ from (C28_traversal_refines q T.toQuad e2 need fuel hf).2 _ pk]
      exact T.toQuad.visit_ray pk
    obtain ⟨ho, _, k⟩ := packet_same tris tm pk run.items run.ray hray (hl ▸ S.sub_of_count h3)
    refine ⟨h1, ho, fun i hu hbox => k i fun p hp tr e hacc => ?_⟩
    rw [ho] at hacc
    have hb := hbox p tr _ e hacc
    rw [← ho] at hb
    exact h4 i p (S.ids.mem_iff.2 (List.mem_range.2 (hl ▸ hp))) _ (hv p (hl ▸ hp)) (S.noNaN hu (hl ▸ hp))
      (by rw [h2]; exact S.aboveQuad hu p) hb

end TraceReady

theorem padAt_numeric {b : Builder F} {order : List Nat} (h : b.Legal order) (hn : ∀ a ∈ b.boxes order, a.Numeric) :
    ∀ p < b.primitives.length, (padAt (b.boxes order) p).Numeric :=
  fun _ hp => (within_box h hn hp).num_right

theorem locb_ready (b : Builder F) (order : List Nat) (h : b.Legal order) (t rounds : Nat) (ht : 0 < t)
    (h3 : 3 ≤ b.primitives.length) (hs : b.primitives.length ≤ 2 ^ 29) (hn : ∀ a ∈ b.boxes order, a.Numeric) (bvh : Bvh F)
    (e : b.constructLocb order t rounds = .ok (some (some bvh))) (T : BTree F) (hU : Unfolds bvh.nodes 0 T) :
    TraceReady b.primitives.length bvh T (padAt (b.boxes order)) := by
  have S := locb_serves b order h t rounds ht hs hn bvh e T hU
  exact ⟨S.compact, S.ids, S.rounds, padAt_numeric h hn, ((C12_locb_bounds b order h t rounds ht hs bvh T e hU hn).2 h3).mono fun _ _ h => h.1⟩

theorem binned_ready (b : Builder F) (order ks : List Nat) (h : b.Legal order)
    (hs : b.primitives.length ≤ 2 ^ 29) (hn : ∀ a ∈ b.boxes order, a.Numeric) (bvh : Bvh F)
    (e : b.constructBinnedSah order ks = .ok (some (some bvh))) (T : BTree F) (hU : Unfolds bvh.nodes 0 T)
    (hm : ∀ p < b.primitives.length, ¬ T.Misplaces (b.ctx order) bvh.indices p) :
    TraceReady b.primitives.length bvh T (padAt (b.boxes order)) := by
  have S := binned_serves b order ks h hs hn bvh e T hU hm
  exact ⟨S.compact, S.ids, S.rounds, padAt_numeric h hn, (C07_no_misplaced_partial b order ks h bvh T e hU hn hm).1⟩

/-- C93, clustering builder, rays through the `Bvh`, with rounding: build over the mesh's boxes, run
`Triangle::intersect` on every id the traversal yields.  Afterwards `ray.t` is the one that testing every triangle of the
mesh leaves, and nothing else in the ray has changed: provided that whenever `intersect` accepts a triangle, the ray hits
the triangle's (padded) box.  Missing: rays for which the two tests disagree (`C93_real_hit_missed`,
`C93_sliver_missed`). -/
theorem C93_locb_ray_partial (b : Builder F) (order : List Nat) (h : b.Legal order) (t rounds : Nat) (ht : 0 < t)
    (h3 : 3 ≤ b.primitives.length) (hs : b.primitives.length ≤ 2 ^ 29) (hn : ∀ a ∈ b.boxes order, a.Numeric) (bvh : Bvh F)
    (e : b.constructLocb order t rounds = .ok (some (some bvh))) (T : BTree F) (hU : Unfolds bvh.nodes 0 T)
    (hdep : T.depth ≤ 31) (tris : List (Triangle F)) (hl : tris.length = b.primitives.length)
    (ray : Ray F) (hnan : ray.hasNaN = false) (hr : ray.Coherent) (hu : Usable ray.origin ray.invDirection)
    (hbox : BoxesAgree tris (padAt (b.boxes order)) (fun a r => (a.intersect r).isSome) ray)
    (fuel : Nat) (hf : 3 * b.primitives.length ≤ fuel) :
    let run := bvh.forIndices (meshCb tris) fuel ray
    run.ending = .finished ∧ run.ray = { ray with t := run.ray.t } ∧ Same run.ray.t (testAll tris ray).t :=
  (locb_ready b order h t rounds ht h3 hs hn bvh e T hU).ray tris hl hdep ray hnan hr hu hbox fuel hf

/-- C93, clustering builder, packets through the `Bvh`: the same for every usable lane for which the box test lets through
what the triangle test accepts.  Missing: as above. -/
theorem C93_locb_packet_partial (b : Builder F) (order : List Nat) (h : b.Legal order) (t rounds : Nat) (ht : 0 < t)
    (h3 : 3 ≤ b.primitives.length) (hs : b.primitives.length ≤ 2 ^ 29) (hn : ∀ a ∈ b.boxes order, a.Numeric) (bvh : Bvh F)
    (e : b.constructLocb order t rounds = .ok (some (some bvh))) (T : BTree F) (hU : Unfolds bvh.nodes 0 T)
    (hdep : T.depth ≤ 31) (tris : List (Triangle F)) (hl : tris.length = b.primitives.length)
    (hv : ∀ p < b.primitives.length, (padAt (b.boxes order) p).Valid)
    (pk : RayPacket4 F) (hnan : pk.hasNaN = false) (tm : Vec4 F) (fuel : Nat) (hf : 3 * b.primitives.length ≤ fuel) :
    let run := bvh.forIndicesPacket (meshCb4 tris tm) fuel pk
    run.ending = .finished ∧ run.ray = { pk with t := run.ray.t } ∧
    ∀ i, Usable (pk.originOf i) (pk.invOf i) → BoxesAgree4 tris tm (padAt (b.boxes order)) Aabb.mask4 pk i →
      Same (run.ray.t.get i) ((testAll4 tris tm pk).t.get i) := by
  obtain ⟨h1, h2, k⟩ := (locb_ready b order h t rounds ht h3 hs hn bvh e T hU).packet tris hl hdep pk hnan tm fuel hf
  exact ⟨h1, h2, fun i hu hb => k i hu hv hb⟩

/-- C93, clustering builder, rays and packets through the `Mbvh`.  Missing: as above. -/
theorem C93_locb_mbvh_partial (b : Builder F) (order : List Nat) (h : b.Legal order) (t rounds : Nat) (ht : 0 < t)
    (h3 : 3 ≤ b.primitives.length) (hs : b.primitives.length ≤ 2 ^ 29) (hn : ∀ a ∈ b.boxes order, a.Numeric) (bvh : Bvh F)
    (e : b.constructLocb order t rounds = .ok (some (some bvh))) (T : BTree F) (hU : Unfolds bvh.nodes 0 T)
    (hdep : T.depth ≤ 22 ∨ T.leaves ≤ 65) (k : Nat) (hk : T.depth < k)
    (tris : List (Triangle F)) (hl : tris.length = b.primitives.length)
    (hv : ∀ p < b.primitives.length, (padAt (b.boxes order) p).Valid) :
    ∃ q : Mbvh F, Mbvh.construct k bvh = some q ∧ ∃ N, ∀ fuel ≥ N,
      (∀ ray : Ray F, Usable ray.origin ray.invDirection → BoxesAgree tris (padAt (b.boxes order)) quadTest ray →
        let run := q.forIndices (meshCb tris) fuel ray
        run.ending = .finished ∧ run.ray = { ray with t := run.ray.t } ∧ Same run.ray.t (testAll tris ray).t) ∧
      (∀ (pk : RayPacket4 F) (tm : Vec4 F),
        let run := q.forIndicesPacket (meshCb4 tris tm) fuel pk
        run.ending = .finished ∧ run.ray = { pk with t := run.ray.t } ∧
        ∀ i, Usable (pk.originOf i) (pk.invOf i) → BoxesAgree4 tris tm (padAt (b.boxes order)) quadTest4 pk i →
          Same (run.ray.t.get i) ((testAll4 tris tm pk).t.get i)) :=
  (locb_ready b order h t rounds ht h3 hs hn bvh e T hU).quads tris hl hdep k hk hv

/-- C93, binned builder, rays and packets through the `Bvh`, for builds that misplace nothing (`Spec/Sah.lean`).  Missing:
builds that do (`C07_left_child_misses`), and rays for which the two tests disagree (`C93_real_hit_missed`,
`C93_sliver_missed`). -/
theorem C93_binned_bvh_partial (b : Builder F) (order ks : List Nat) (h : b.Legal order)
    (hs : b.primitives.length ≤ 2 ^ 29) (hn : ∀ a ∈ b.boxes order, a.Numeric) (bvh : Bvh F)
    (e : b.constructBinnedSah order ks = .ok (some (some bvh))) (T : BTree F) (hU : Unfolds bvh.nodes 0 T)
    (hm : ∀ p < b.primitives.length, ¬ T.Misplaces (b.ctx order) bvh.indices p)
    (hdep : T.depth ≤ 31) (tris : List (Triangle F)) (hl : tris.length = b.primitives.length)
    (hv : ∀ p < b.primitives.length, (padAt (b.boxes order) p).Valid) (fuel : Nat) (hf : 3 * b.primitives.length ≤ fuel) :
    (∀ ray : Ray F, ray.hasNaN = false → ray.Coherent → Usable ray.origin ray.invDirection →
      BoxesAgree tris (padAt (b.boxes order)) (fun a r => (a.intersect r).isSome) ray →
      let run := bvh.forIndices (meshCb tris) fuel ray
      run.ending = .finished ∧ run.ray = { ray with t := run.ray.t } ∧ Same run.ray.t (testAll tris ray).t) ∧
    (∀ (pk : RayPacket4 F) (tm : Vec4 F), pk.hasNaN = false →
      let run := bvh.forIndicesPacket (meshCb4 tris tm) fuel pk
      run.ending = .finished ∧ run.ray = { pk with t := run.ray.t } ∧
      ∀ i, Usable (pk.originOf i) (pk.invOf i) → BoxesAgree4 tris tm (padAt (b.boxes order)) Aabb.mask4 pk i →
        Same (run.ray.t.get i) ((testAll4 tris tm pk).t.get i)) := by
  have S := binned_ready b order ks h hs hn bvh e T hU hm
  refine ⟨fun ray hnan hr hu hbox => S.ray tris hl hdep ray hnan hr hu hbox fuel hf, fun pk tm hnan => ?_⟩
  obtain ⟨h1, h2, k⟩ := S.packet tris hl hdep pk hnan tm fuel hf
  exact ⟨h1, h2, fun i hu hb => k i hu hv hb⟩

/-- C93, binned builder, rays and packets through the `Mbvh`.  Missing: as above. -/
theorem C93_binned_mbvh_partial (b : Builder F) (order ks : List Nat) (h : b.Legal order)
    (hs : b.primitives.length ≤ 2 ^ 29) (hn : ∀ a ∈ b.boxes order, a.Numeric) (bvh : Bvh F)
    (e : b.constructBinnedSah order ks = .ok (some (some bvh))) (T : BTree F) (hU : Unfolds bvh.nodes 0 T)
    (hm : ∀ p < b.primitives.length, ¬ T.Misplaces (b.ctx order) bvh.indices p)
    (hdep : T.depth ≤ 22 ∨ T.leaves ≤ 65) (k : Nat) (hk : T.depth < k)
    (tris : List (Triangle F)) (hl : tris.length = b.primitives.length)
    (hv : ∀ p < b.primitives.length, (padAt (b.boxes order) p).Valid) :
    ∃ q : Mbvh F, Mbvh.construct k bvh = some q ∧ ∃ N, ∀ fuel ≥ N,
      (∀ ray : Ray F, Usable ray.origin ray.invDirection → BoxesAgree tris (padAt (b.boxes order)) quadTest ray →
        let run := q.forIndices (meshCb tris) fuel ray
        run.ending = .finished ∧ run.ray = { ray with t := run.ray.t } ∧ Same run.ray.t (testAll tris ray).t) ∧
      (∀ (pk : RayPacket4 F) (tm : Vec4 F),
        let run := q.forIndicesPacket (meshCb4 tris tm) fuel pk
        run.ending = .finished ∧ run.ray = { pk with t := run.ray.t } ∧
        ∀ i, Usable (pk.originOf i) (pk.invOf i) → BoxesAgree4 tris tm (padAt (b.boxes order)) quadTest4 pk i →
          Same (run.ray.t.get i) ((testAll4 tris tm pk).t.get i)) :=
  (binned_ready b order ks h hs hn bvh e T hU hm).quads tris hl hdep k hk hv

omit [LawfulFloat F]

/-- `BoxesAgree` can be checked triangle by triangle without the quantifier over the current upper end: it is enough that
the box is hit whenever the triangle test would accept with the upper end out of the way. -/
theorem boxesAgree_of (tris : List (Triangle F)) (boxes : Nat → Aabb F) (ray : Ray F)
    (h : ∀ p < tris.length, (rayTest tris ray p).isSome = true → ((boxes p).intersect ray).isSome = true) :
    BoxesAgree tris boxes (fun a r => (a.intersect r).isSome) ray := by
  intro p tr T e hacc
  have hp : p < tris.length := by
    by_contra hh
    rw [List.getElem?_eq_none (by omega)] at e; cases e
  refine h p hp ?_
  rw [intersect_mt] at hacc
  unfold rayTest
  simp only [e]
  simp only at hacc
  split at hacc
  · rename_i hc
    rw [Bool.and_eq_true] at hc
    rw [if_pos hc.1]; rfl
  · cases hacc

/-- The same for the `Mbvh`: the ray must enter the box no later than the triangle test's answer. -/
theorem boxesAgree_quad_of [LawfulFloat F] (tris : List (Triangle F)) (boxes : Nat → Aabb F) (ray : Ray F)
    (h : ∀ p < tris.length, ∀ s ∈ rayTest tris ray p, ((quadLane (boxes p) ray).2 >=. (quadLane (boxes p) ray).1) = true ∧
      ((quadLane (boxes p) ray).1 <=. s) = true) : BoxesAgree tris boxes quadTest ray := by
  intro p tr T e hacc
  have hp : p < tris.length := by
    by_contra hh
    rw [List.getElem?_eq_none (by omega)] at e; cases e
  rw [intersect_mt] at hacc
  have h' := h p hp
  unfold rayTest at h'
  simp only [e] at h'
  simp only at hacc
  split at hacc
  · rename_i hc
    rw [Bool.and_eq_true] at hc
    rw [if_pos hc.1] at h'
    obtain ⟨k1, k2⟩ := h' _ rfl
    have hc2 := hc.2
    rw [Bool.and_eq_true] at hc2
    unfold quadTest
    rw [Bool.and_eq_true]
    exact ⟨k1, lt_of_le_of_lt' k2 hc2.2⟩
  · cases hacc

/-- The same for lanes of packets. -/
theorem boxesAgree4_of [LawfulFloat F] (tris : List (Triangle F)) (tm : Vec4 F) (boxes : Nat → Aabb F) (pk : RayPacket4 F)
    (i : Fin 4) (h : ∀ p < tris.length, ∀ s ∈ laneTest tris pk i p,
      (((boxes p).lane4 pk i).2 >. zero) = true ∧ (((boxes p).lane4 pk i).2 >. ((boxes p).lane4 pk i).1) = true ∧
      (((boxes p).lane4 pk i).1 <=. s) = true ∧
      ((quadLane4 (boxes p) pk i).2 >. (quadLane4 (boxes p) pk i).1) = true ∧ ((quadLane4 (boxes p) pk i).1 <=. s) = true) :
    BoxesAgree4 tris tm boxes Aabb.mask4 pk i ∧ BoxesAgree4 tris tm boxes quadTest4 pk i := by
  have key : ∀ p tr T, tris[p]? = some tr → laneHit (tr.intersect4 { pk with t := T } tm).2 i = true →
      ∃ s ∈ laneTest tris pk i p, p < tris.length ∧ (s <. T.get i) = true := by
    intro p tr T e hacc
    have hp : p < tris.length := by
      by_contra hh
      rw [List.getElem?_eq_none (by omega)] at e; cases e
    rw [(intersect4_mt tr { pk with t := T } tm).1 i] at hacc
    rw [show RayPacket4.originOf { pk with t := T } i = pk.originOf i from rfl,
      show RayPacket4.dirOf { pk with t := T } i = pk.dirOf i from rfl] at hacc
    unfold hit4 at hacc
    rw [Bool.and_eq_true] at hacc
    obtain ⟨h1, h2⟩ := hacc
    rw [Bool.and_eq_true] at h2
    refine ⟨_, ?_, hp, h2.2⟩
    unfold laneTest
    simp only [e]
    rw [if_pos h1]; rfl
  refine ⟨fun p tr T e hacc => ?_, fun p tr T e hacc => ?_⟩
  · obtain ⟨s, hs, hp, hl⟩ := key p tr T e hacc
    obtain ⟨k1, k2, k3, _⟩ := h p hp s hs
    unfold Aabb.mask4
    simp only [Bool.and_eq_true]
    exact ⟨⟨k1, k2⟩, lt_of_le_of_lt' k3 hl⟩
  · obtain ⟨s, hs, hp, hl⟩ := key p tr T e hacc
    obtain ⟨_, _, _, k4, k5⟩ := h p hp s hs
    unfold quadTest4
    rw [Bool.and_eq_true]
    exact ⟨k4, lt_of_le_of_lt' k5 hl⟩

/-- Integer points, in binary32. -/
def whole (x y z : Int) : Vec3 F32 := ⟨lit x 0, lit y 0, lit z 0⟩

/-- Four triangles with coordinates of a few thousand, where 1e-4 is less than a unit in the last place, so that padding a
box by it does nothing. -/
def largeTris : List (Triangle F32) :=
  [⟨whole (-3003) (-2026) 1673, whole (-764) (-2737) 255, whole 2480 (-3185) (-2903)⟩,
   ⟨whole (-3000) (-2000) 7000, whole (-3001) (-2000) 7001, whole (-3000) (-2001) 7000⟩,
   ⟨whole 20000 0 0, whole 20001 0 0, whole 20000 1 1⟩, ⟨whole 20005 0 0, whole 20006 0 0, whole 20005 1 1⟩]

/-- A ray at a corner of the first. -/
def largeRay : Ray F32 := Ray.new (whole 2799 1782 (-3409)) (whole (-5802) (-3808) 5082)

/-- Coordinates in hundredths, in binary32. -/
def hundredths (x y z : Int) : Vec3 F32 := ⟨lit x (-2), lit y (-2), lit z (-2)⟩

/-- A sliver about two units long and a hundredth wide, and three other triangles. -/
def sliverTris : List (Triangle F32) :=
  [⟨hundredths (-86) (-13) (-16), hundredths 89 162 54, hundredths 88 161 54⟩, ⟨whole 5 5 5, whole 6 5 5, whole 5 6 6⟩,
   ⟨whole 40 20 20, whole 41 20 20, whole 40 21 21⟩, ⟨whole 45 20 20, whole 46 20 20, whole 45 21 21⟩]

/-- A ray that passes the tip of the sliver. -/
def sliverRay : Ray F32 := Ray.new (hundredths (-535) (-461) 407) (hundredths 626 625 (-352))

/-- What the two builders and the two hierarchies leave in `ray.t`. -/
def traced (tris : List (Triangle F32)) (ray : Ray F32) : Option (F32 × Option F32) × Option (F32 × Option F32) :=
  let out := fun (x : Bvh F32 × BTree F32) => ((x.1.forIndices (meshCb tris) 12 ray).ray.t,
    (Mbvh.construct 9 x.1).map fun q => (q.forIndices (meshCb tris) 12 ray).ray.t)
  ((builtTree ((meshScene tris (some 1)).constructLocb (List.range 4) 2 5)).map out,
   (builtTree ((meshScene tris (some 1)).constructBinnedSah (List.range 4) (List.replicate 20 0))).map out)

/-- C93 fails as stated, and a real hit is lost: the ray runs exactly into a corner of the first triangle at parameter 1,
`intersect` accepts it there, testing every triangle leaves `t = 1`; through the hierarchies of both builders the triangle
is not offered, and `t` stays 1e34. -/
theorem C93_real_hit_missed :
    (meshScene largeTris (some 1)).Legal (List.range 4) ∧
    (∀ a ∈ (meshScene largeTris (some 1)).boxes (List.range 4), a.Numeric ∧ a.Valid) ∧
    Usable largeRay.origin largeRay.invDirection ∧ largeRay.hasNaN = false ∧ largeRay.Coherent ∧
    largeTris.head?.map Triangle.v0 = some (largeRay.getPointAt one) ∧ (testAll largeTris largeRay).t = one ∧
    traced largeTris largeRay = (some (lit 1 34, some (lit 1 34)), some (lit 1 34, some (lit 1 34))) := by
  refine ⟨meshScene_legal _ _ (by decide) (by decide), ?_, ?_, ?_, ?_, ?_, ?_, ?_⟩
  · unfold Aabb.Numeric Aabb.Valid Vec3.Numeric Num; decide +kernel
  · unfold Usable Vec3.Finite Vec3.NonZero NonZero Fin'; decide +kernel
  · decide +kernel
  · unfold Ray.Coherent; decide +kernel
  · decide +kernel
  · decide +kernel
  · decide +kernel

/-- C93 fails also at ordinary scale, where padding works: rounding makes `intersect` accept a ray that passes the tip of a
sliver at a distance of more than the padding; testing every triangle reports that hit (at some `t` below 2), the
hierarchies of both builders do not. -/
theorem C93_sliver_missed :
    (meshScene sliverTris (some 1)).Legal (List.range 4) ∧
    (∀ a ∈ (meshScene sliverTris (some 1)).boxes (List.range 4), a.Numeric ∧ a.Valid) ∧
    Usable sliverRay.origin sliverRay.invDirection ∧ sliverRay.hasNaN = false ∧ sliverRay.Coherent ∧
    ((testAll sliverTris sliverRay).t <. lit 2 0) = true ∧
    traced sliverTris sliverRay = (some (lit 1 34, some (lit 1 34)), some (lit 1 34, some (lit 1 34))) := by
  refine ⟨meshScene_legal _ _ (by decide) (by decide), ?_, ?_, ?_, ?_, ?_, ?_⟩
  · unfold Aabb.Numeric Aabb.Valid Vec3.Numeric Num; decide +kernel
  · unfold Usable Vec3.Finite Vec3.NonZero NonZero Fin'; decide +kernel
  · decide +kernel
  · unfold Ray.Coherent; decide +kernel
  · decide +kernel
  · decide +kernel

/-- Three triangles one behind the other, in binary32, and a fourth aside. -/
def rowOfTris : List (Triangle F32) :=
  [⟨whole 5 (-1) (-1), whole 5 3 (-1), whole 5 (-1) 3⟩, ⟨whole 2 (-1) (-1), whole 2 3 (-1), whole 2 (-1) 3⟩,
   ⟨whole 9 (-1) (-1), whole 9 3 (-1), whole 9 (-1) 3⟩, ⟨whole 9 20 20, whole 9 21 20, whole 9 20 21⟩]
def rowOfTrisRay : Ray F32 := Ray.new (whole (-1) 0 0) ⟨lit 1 0, lit 1 (-2), lit 2 (-2)⟩
def rowOfTrisPacket : RayPacket4 F32 :=
  RayPacket4.new (fun i => ⟨lit (-1) 0, lit i.val (-1), zero, one⟩) (fun _ => ⟨lit 1 0, lit 1 (-2), lit 2 (-2), zero⟩)

/-- Non-vacuity of the C93 theorems: a mesh, a ray and a packet that meet their hypotheses in binary32; the ray's test
accepts three triangles and all traversals end at the nearest. -/
example : (meshScene rowOfTris (some 1)).Legal (List.range 4) ∧
    (∀ a ∈ (meshScene rowOfTris (some 1)).boxes (List.range 4), a.Numeric) ∧
    (∀ p < 4, (padAt ((meshScene rowOfTris (some 1)).boxes (List.range 4)) p).Valid) ∧
    Usable rowOfTrisRay.origin rowOfTrisRay.invDirection ∧ rowOfTrisRay.hasNaN = false ∧ rowOfTrisRay.Coherent ∧
    (∀ i, Usable (rowOfTrisPacket.originOf i) (rowOfTrisPacket.invOf i)) ∧ rowOfTrisPacket.hasNaN = false := by
  refine ⟨meshScene_legal _ _ (by decide) (by decide), ?_, ?_, ?_, ?_, ?_, ?_, ?_⟩
  · unfold Aabb.Numeric Vec3.Numeric Num; decide +kernel
  · unfold Aabb.Valid; decide +kernel
  · unfold Usable Vec3.Finite Vec3.NonZero NonZero Fin'; decide +kernel
  · decide +kernel
  · unfold Ray.Coherent; decide +kernel
  · unfold Usable Vec3.Finite Vec3.NonZero NonZero Fin'; decide +kernel
  · decide +kernel
example : BoxesAgree rowOfTris (padAt ((meshScene rowOfTris (some 1)).boxes (List.range 4)))
    (fun a r => (a.intersect r).isSome) rowOfTrisRay :=
  boxesAgree_of _ _ _ (by decide +kernel)
example : BoxesAgree rowOfTris (padAt ((meshScene rowOfTris (some 1)).boxes (List.range 4))) quadTest rowOfTrisRay :=
  boxesAgree_quad_of _ _ _ (by decide +kernel)
example : ∀ i, BoxesAgree4 rowOfTris (Vec4.splat (lit 1 (-4))) (padAt ((meshScene rowOfTris (some 1)).boxes (List.range 4)))
      Aabb.mask4 rowOfTrisPacket i ∧
    BoxesAgree4 rowOfTris (Vec4.splat (lit 1 (-4))) (padAt ((meshScene rowOfTris (some 1)).boxes (List.range 4)))
      quadTest4 rowOfTrisPacket i := fun i =>
  boxesAgree4_of _ _ _ _ i (by revert i; decide +kernel)
example : (List.range 4).filter (fun p => (rayTest rowOfTris rowOfTrisRay p).isSome) = [0, 1, 2] ∧
    (testAll rowOfTris rowOfTrisRay).t = lit 3 0 ∧
    traced rowOfTris rowOfTrisRay = (some (lit 3 0, some (lit 3 0)), some (lit 3 0, some (lit 3 0))) := by decide +kernel
example : ∃ bvh T, (meshScene rowOfTris (some 1)).constructBinnedSah (List.range 4) (List.replicate 20 0) = .ok (some (some bvh)) ∧
    Unfolds bvh.nodes 0 T ∧ T.depth ≤ 22 ∧ ∀ p, ¬ T.Misplaces ((meshScene rowOfTris (some 1)).ctx (List.range 4)) bvh.indices p := by
  have key : (builtTree ((meshScene rowOfTris (some 1)).constructBinnedSah (List.range 4) (List.replicate 20 0))).map (fun x =>
      (decide (x.2.depth ≤ 22), payCheck ((meshScene rowOfTris (some 1)).ctx (List.range 4)) x.1.indices
        ([0, 1, 2].flatMap fun a => [4, 8, 16, 24].map fun k => (a, k)) x.2)) = some (true, true) := by
    decide +kernel
  obtain ⟨⟨bvh, T⟩, e, h2⟩ := Option.map_eq_some_iff.1 key
  obtain ⟨e1, e2⟩ := builtTree_some e
  simp only [Prod.mk.injEq, decide_eq_true_eq] at h2
  exact ⟨bvh, T, e1, e2, h2.1, fun p => payCheck_sound T h2.2⟩
example : ∃ bvh T, (meshScene rowOfTris (some 1)).constructLocb (List.range 4) 2 5 = .ok (some (some bvh)) ∧
    Unfolds bvh.nodes 0 T ∧ T.depth ≤ 22 := by
  have key : (builtTree ((meshScene rowOfTris (some 1)).constructLocb (List.range 4) 2 5)).map (fun x =>
      decide (x.2.depth ≤ 22)) = some true := by decide +kernel
  obtain ⟨⟨bvh, T⟩, e, h2⟩ := Option.map_eq_some_iff.1 key
  obtain ⟨e1, e2⟩ := builtTree_some e
  exact ⟨bvh, T, e1, e2, by simpa using h2⟩

end Rtbvh
