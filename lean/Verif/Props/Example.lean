import Verif.Model.Example
import Verif.Props.PacketQuery
import Verif.Spec.Shown
/- Properties C89-C91: the helper crate `shared` and the visualizer. -/
namespace Rtbvh
open FloatOps

section any
variable {F : Type} [FloatOps F]

/-! C89: camera rays -/

/-- C89, any float behaviour, any `sqrt`: lane `i` of `generate_ray4(x, y)` is bit for bit `generate_ray(x[i], y[i])`:
origin, direction, `t`, reciprocals and signs. -/
theorem C89_camera_packet (sqrt : F → F) (c : Camera F) (x y : Vec4 Nat) (i : Fin 4) :
    (c.generateRay4 sqrt x y).ray i = c.generateRay sqrt (x.get i) (y.get i) ∧
    (c.generateRay4 sqrt x y).invOf i = (c.generateRay sqrt (x.get i) (y.get i)).invDirection ∧
    (c.generateRay4 sqrt x y).t.get i = (c.generateRay sqrt (x.get i) (y.get i)).t := by
  match i with
  | 0 => exact ⟨rfl, rfl, rfl⟩
  | 1 => exact ⟨rfl, rfl, rfl⟩
  | 2 => exact ⟨rfl, rfl, rfl⟩
  | 3 => exact ⟨rfl, rfl, rfl⟩

/-- C89: in a frame whose width is a multiple of four, packet mode aims at the same pixels as ray mode: lane `j` of chunk
`i` is the ray of pixel `4 * i + j`, so every pixel's ray is traced by exactly one lane of one chunk. -/
theorem C89_chunk_pixels (sqrt : F → F) (c : Camera F) (width : Nat) (hw : width % 4 = 0) (i : Nat)
    (hi : 4 * i + 3 < 2 ^ 32) (j : Fin 4) :
    (chunkPacket sqrt c width i).ray j = pixelRay sqrt c width (4 * i + j.val) := by
  have hj := j.isLt
  have key : (4 * i + j.val) % 2 ^ 32 % width = i * 4 % 2 ^ 32 % width + j.val ∧
      (4 * i + j.val) % 2 ^ 32 / width = i * 4 % 2 ^ 32 / width := by
    rw [Nat.mod_eq_of_lt (by omega : 4 * i + j.val < 2 ^ 32), Nat.mod_eq_of_lt (by omega : i * 4 < 2 ^ 32)]
    obtain ⟨w, hw⟩ : ∃ w, width = 4 * w := ⟨width / 4, by omega⟩
    subst hw
    by_cases hw0 : w = 0
    · subst hw0
      simp only [Nat.mul_zero, Nat.mod_zero, Nat.div_zero, and_true]; omega
    have hx : i * 4 % (4 * w) = 4 * (i % w) := by rw [Nat.mul_comm i 4]; exact Nat.mul_mod_mul_left 4 i w
    have hlt : i % w < w := Nat.mod_lt _ (Nat.pos_of_ne_zero hw0)
    have hdm := Nat.div_add_mod i w
    have e : 4 * i + j.val = (4 * (i % w) + j.val) + 4 * w * (i / w) := by
      rw [Nat.mul_assoc]; omega
    constructor
    · rw [hx, e, Nat.add_mul_mod_self_left, Nat.mod_eq_of_lt (by omega)]
    · have hpos : 0 < 4 * w := by omega
      rw [e, Nat.add_mul_div_left _ _ hpos, Nat.div_eq_of_lt (by omega), Nat.zero_add,
        Nat.mul_comm i 4, Nat.mul_div_mul_left _ _ (by omega)]
  have := (C89_camera_packet sqrt c
    ⟨i * 4 % 2 ^ 32 % width, i * 4 % 2 ^ 32 % width + 1, i * 4 % 2 ^ 32 % width + 2, i * 4 % 2 ^ 32 % width + 3⟩
    ⟨i * 4 % 2 ^ 32 / width, i * 4 % 2 ^ 32 / width, i * 4 % 2 ^ 32 / width, i * 4 % 2 ^ 32 / width⟩ j).1
  unfold pixelRay
  rw [key.1, key.2]
  refine this.trans ?_
  match j with
  | 0 => rfl
  | 1 => rfl
  | 2 => rfl
  | 3 => rfl

/-! C90: the sliding average -/

theorem shiftDown_spec : ∀ (n i : Nat) (vs : List F), i + n + 1 = vs.length →
    ∃ vs', shiftDown n i vs = some vs' ∧ vs'.length = vs.length ∧
      vs'.take (i + n) = vs.take i ++ (vs.drop (i + 1)) := by
  intro n
  induction n with
  | zero =>
    intro i vs h
    refine ⟨vs, rfl, rfl, ?_⟩
    rw [List.drop_eq_nil_of_le (by omega), List.append_nil, Nat.add_zero]
  | succ n ih =>
    intro i vs h
    have hlt : i + 1 < vs.length := by omega
    obtain ⟨vs', h1, h2, h3⟩ := ih (i + 1) (vs.set i vs[i + 1]) (by rw [List.length_set]; omega)
    refine ⟨vs', ?_, by rw [h2, List.length_set], ?_⟩
    · simp only [shiftDown, List.getElem?_eq_getElem hlt]
      rw [if_pos (by omega)]
      exact h1
    · rw [show i + (n + 1) = i + 1 + n by omega, h3]
      have hi : i < vs.length := by omega
      rw [List.drop_set_of_lt (by omega), List.take_set, List.take_succ_eq_append_getElem hi]
      have : (vs.take i ++ [vs[i]]).set i vs[i + 1] = vs.take i ++ [vs[i + 1]] := by
        have hl : (vs.take i).length = i := by rw [List.length_take]; omega
        rw [List.set_append_right _ _ (by omega), hl]; simp
      rw [this, List.append_assoc]
      congr 1
      rw [List.drop_eq_getElem_cons hlt]; rfl

/-- The window of the last `cap` samples. -/
def lastSamples (cap : Nat) (samples : List F) : List F := samples.drop (samples.length - cap)

/-- What the averager's fields are after `samples`. -/
structure AvgInv (a : Averager F) (cap : Nat) (samples : List F) : Prop where
  capEq : a.capacity = cap
  len : a.values.length = cap
  looped : a.hasLooped = decide (cap ≤ samples.length)
  index : a.index = Min.min samples.length cap
  window : a.values.take a.index = lastSamples cap samples

theorem avg_step {a : Averager F} {cap : Nat} {samples : List F} (hc : 0 < cap) (h : AvgInv a cap samples) (x : F) :
    ∃ a', a.addSample x = some a' ∧ AvgInv a' cap (samples ++ [x]) := by
  unfold Averager.addSample
  rw [h.capEq, if_neg (by omega)]
  by_cases hl : cap ≤ samples.length
  · rw [h.looped, if_pos (by simpa using hl)]
    obtain ⟨vs, h1, h2, h3⟩ := shiftDown_spec (cap - 1) 0 a.values (by rw [h.len]; omega)
    rw [h1]
    simp only
    rw [if_pos (by rw [h2, h.len]; omega)]
    have hi : a.index = cap := by rw [h.index]; omega
    refine ⟨_, rfl, ⟨rfl, by simp [h2, h.len], ?_, ?_, ?_⟩⟩
    · simp only [List.length_append, List.length_singleton]
      rw [decide_eq_true hl, decide_eq_true (by omega)]
    · simp only [List.length_append, List.length_singleton]; omega
    · simp only [hi]
      have hw := h.window
      rw [hi, List.take_of_length_le (by rw [h.len])] at hw
      simp only [Nat.zero_add, List.take_zero, List.nil_append] at h3
      have hvs : vs.set (cap - 1) x = vs.take (cap - 1) ++ [x] := by
        have hlen : vs.length = cap := by rw [h2, h.len]
        rw [List.set_eq_take_append_cons_drop, if_pos (by omega), List.drop_eq_nil_of_le (by omega)]
      rw [hvs, List.take_of_length_le (by simp [h2, h.len]; omega), h3, hw]
      unfold lastSamples
      rw [List.drop_drop, List.length_append, List.length_singleton, List.drop_append_of_le_length (by omega)]
      congr 2
      omega
  · rw [h.looped, if_neg (by simpa using hl)]
    have hi : a.index = samples.length := by rw [h.index]; omega
    rw [if_pos (by rw [hi, h.len]; omega)]
    refine ⟨_, rfl, ⟨rfl, by simp [h.len], ?_, ?_, ?_⟩⟩
    · simp only [hi, List.length_append, List.length_singleton]
      exact decide_eq_decide.2 (by omega)
    · simp only [hi, List.length_append, List.length_singleton]; omega
    · simp only [hi]
      have hw := h.window
      rw [hi] at hw
      have hlt : samples.length < a.values.length := by rw [h.len]; omega
      rw [List.take_succ_eq_append_getElem (by rw [List.length_set]; exact hlt), List.getElem_set_self]
      rw [List.take_set, List.set_eq_of_length_le (by rw [List.length_take]; omega), hw]
      unfold lastSamples
      rw [List.length_append, List.length_singleton, Nat.sub_eq_zero_of_le (by omega), Nat.sub_eq_zero_of_le (by omega)]
      rfl

theorem avg_run {cap : Nat} (hc : 0 < cap) (xs : List F) : ∀ {a : Averager F} {samples : List F}, AvgInv a cap samples →
    ∃ a', xs.foldlM Averager.addSample a = some a' ∧ AvgInv a' cap (samples ++ xs) := by
  induction xs with
  | nil => intro a samples h; exact ⟨a, rfl, by simpa using h⟩
  | cons x xs ih =>
    intro a samples h
    obtain ⟨a1, e1, h1⟩ := avg_step hc h x
    obtain ⟨a2, e2, h2⟩ := ih h1
    exact ⟨a2, by simp only [List.foldlM_cons, e1]; exact e2, by simpa using h2⟩

/-- C90: with a positive capacity no sequence of samples makes the averager panic; afterwards `data()` is the last
`capacity` samples in order (all of them while there are fewer), and `get_average()` is their sum from the left, times
the reciprocal of their number.  Any float behaviour. -/
theorem C90_sliding_window (cap : Nat) (hc : 0 < cap) (samples : List F) :
    ∃ a, samples.foldlM Averager.addSample (Averager.withCapacity cap) = some a ∧
      a.data = samples.drop (samples.length - cap) ∧
      a.getAverage = some ((samples.drop (samples.length - cap)).foldl (fun s x => s +. x) zero *.
        (one /. ofNat (Min.min samples.length cap))) := by
  have h0 : AvgInv (Averager.withCapacity cap : Averager F) cap [] :=
    ⟨rfl, by simp [Averager.withCapacity], by simp only [Averager.withCapacity, List.length_nil]; exact (decide_eq_false (by omega)).symm,
      by simp [Averager.withCapacity], by simp [Averager.withCapacity, lastSamples]⟩
  obtain ⟨a, e, h⟩ := avg_run hc samples h0
  rw [List.nil_append] at h
  refine ⟨a, e, ?_, ?_⟩
  · unfold Averager.data
    rw [show Min.min a.index a.capacity = a.index by rw [h.index, h.capEq]; omega]
    exact h.window
  · unfold Averager.getAverage
    have hr : (if a.hasLooped = true then a.capacity else a.index) = Min.min samples.length cap := by
      rw [h.looped, h.capEq, h.index]
      by_cases hl : cap ≤ samples.length
      · rw [if_pos (by simpa using hl)]; omega
      · rw [if_neg (by simpa using hl)]
    have hw := h.window
    rw [h.index] at hw
    simp only [hr]
    rw [if_pos (by rw [h.len]; omega), hw]
    rfl

/-- C90: capacity 0 panics at the first sample. -/
theorem C90_zero_capacity (x : F) : (Averager.withCapacity 0 : Averager F).addSample x = none := rfl

/-! C91: what the visualizer draws -/

theorem note_fold (tris : List (Triangle F)) (items : List Nat) : ∀ (r : Ray F) (l : Option Nat),
    (items.foldl (noteHit tris) (r, l)).1 = items.foldl (fun r x => (meshCb tris r x).1) r ∧
    (((items.foldl (noteHit tris) (r, l)) = (r, l) ∧
        ∀ p ∈ items, ∀ tr, tris[p]? = some tr → (tr.intersect r).2 = false) ∨
      ∃ p pre post tr, items = pre ++ p :: post ∧ (items.foldl (noteHit tris) (r, l)).2 = some p ∧ tris[p]? = some tr ∧
        tr.intersect (pre.foldl (fun r x => (meshCb tris r x).1) r) = ((items.foldl (noteHit tris) (r, l)).1, true)) := by
  induction items with
  | nil => intro r l; exact ⟨rfl, .inl ⟨rfl, by simp⟩⟩
  | cons x xs ih =>
    intro r l
    simp only [List.foldl_cons]
    have same : noteHit tris (r, l) x = (r, l) → (meshCb tris r x).1 = r →
        (∀ tr, tris[x]? = some tr → (tr.intersect r).2 = false) →
        (xs.foldl (noteHit tris) (noteHit tris (r, l) x)).1 = xs.foldl (fun r x => (meshCb tris r x).1) (meshCb tris r x).1 ∧
        (((xs.foldl (noteHit tris) (noteHit tris (r, l) x)) = (r, l) ∧
            ∀ p ∈ x :: xs, ∀ tr, tris[p]? = some tr → (tr.intersect r).2 = false) ∨
          ∃ p pre post tr, x :: xs = pre ++ p :: post ∧
            (xs.foldl (noteHit tris) (noteHit tris (r, l) x)).2 = some p ∧ tris[p]? = some tr ∧
            tr.intersect (pre.foldl (fun r x => (meshCb tris r x).1) r) =
              ((xs.foldl (noteHit tris) (noteHit tris (r, l) x)).1, true)) := by
      intro hx hm hno
      rw [hx, hm]
      obtain ⟨h1, h2⟩ := ih r l
      refine ⟨h1, ?_⟩
      rcases h2 with ⟨h2, h3⟩ | ⟨p, pre, post, tr, h2, h3, h4, h5⟩
      · refine .inl ⟨h2, fun p hp tr htr => ?_⟩
        rcases List.mem_cons.1 hp with rfl | hp
        · exact hno tr htr
        · exact h3 p hp tr htr
      · refine .inr ⟨p, x :: pre, post, tr, by rw [h2]; rfl, h3, h4, ?_⟩
        rw [List.foldl_cons, hm]; exact h5
    cases e : tris[x]? with
    | none =>
      exact same (by simp [noteHit, e]) (by simp [meshCb, e]) (fun tr htr => by rw [e] at htr; cases htr)
    | some tr =>
      have hm : (meshCb tris r x).1 = (tr.intersect r).1 := by simp [meshCb, e]
      cases hb : (tr.intersect r).2 with
      | false =>
        have k2 := (C38_intersect_protocol tr r).2 hb
        exact same (by simp [noteHit, e, hb, k2]) (hm.trans k2) (fun tr' htr => by rw [e] at htr; cases htr; exact hb)
      | true =>
        have hx : noteHit tris (r, l) x = ((tr.intersect r).1, some x) := by simp [noteHit, e, hb]
        rw [hx, hm]
        obtain ⟨h1, h2⟩ := ih (tr.intersect r).1 (some x)
        refine ⟨h1, .inr ?_⟩
        rcases h2 with ⟨h2, _⟩ | ⟨p, pre, post, tr', h2, h3, h4, h5⟩
        · exact ⟨x, [], xs, tr, rfl, by rw [h2], e, by rw [h2, ← hb]; rfl⟩
        · refine ⟨p, x :: pre, post, tr', by rw [h2]; rfl, h3, h4, ?_⟩
          rw [List.foldl_cons, hm]; exact h5

/-- C91, any float behaviour: whatever the traversal yields, the primitive noted at the end is the one whose test (of the
ray as it was when its turn came) wrote the final `ray.t`; if none is noted the ray is unchanged and no yielded triangle
is hit. -/
theorem C91_noted (tris : List (Triangle F)) (ray : Ray F) (items : List Nat) :
    (∀ p, (noted tris ray items).2 = some p → ∃ pre post tr, items = pre ++ p :: post ∧ tris[p]? = some tr ∧
      tr.intersect (noted tris ray pre).1 = ((noted tris ray items).1, true)) ∧
    ((noted tris ray items).2 = none → (noted tris ray items).1 = ray ∧
      ∀ p ∈ items, ∀ tr, tris[p]? = some tr → (tr.intersect ray).2 = false) := by
  obtain ⟨_, h⟩ := note_fold tris items ray none
  unfold noted
  rcases h with ⟨h1, h2⟩ | ⟨p, pre, post, tr, hp, h1, h2, h3⟩
  · rw [h1]
    exact ⟨fun p hp => by simp at hp, fun _ => ⟨rfl, h2⟩⟩
  · refine ⟨fun p' hp' => ?_, fun hn => ?_⟩
    · rw [h1] at hp'; cases hp'
      refine ⟨pre, post, tr, hp, h2, ?_⟩
      rw [(note_fold tris pre ray none).1]; exact h3
    · rw [h1] at hn; cases hn

end any

section lawful
variable {F : Type} [FloatOps F] [LawfulFloat F]

theorem noteHit4_get {tris : List (Triangle F)} {x : Nat} {tr : Triangle F} (e : tris[x]? = some tr) {r : RayPacket4 F}
    {l : Vec4 (Option Nat)} (i : Fin 4) : (noteHit4 tris (r, l) x).2.get i =
      if laneHit (tr.intersect4 r (Vec4.splat (lit 1 (-4)))).2 i = true then some x else l.get i := by
  have h : noteHit4 tris (r, l) x = ((tr.intersect4 r (Vec4.splat (lit 1 (-4)))).1,
      match (tr.intersect4 r (Vec4.splat (lit 1 (-4)))).2 with
      | some m => Vec4.map2 (fun hit old => if hit then some x else old) m l
      | none => l) := by simp only [noteHit4, e]; rfl
  rw [h]
  generalize (tr.intersect4 r (Vec4.splat (lit 1 (-4)))).2 = q
  cases q with
  | none => rfl
  | some m => show (Vec4.map2 _ m l).get i = _; rw [Vec4.get_map2]; rfl

theorem note_fold4 (tris : List (Triangle F)) (items : List Nat) (i : Fin 4) : ∀ (r : RayPacket4 F) (l : Vec4 (Option Nat)),
    (items.foldl (noteHit4 tris) (r, l)).1 = items.foldl (fun r x => (meshCb4 tris (Vec4.splat (lit 1 (-4))) r x).1) r ∧
    (((items.foldl (noteHit4 tris) (r, l)).2.get i = l.get i ∧ (items.foldl (noteHit4 tris) (r, l)).1.t.get i = r.t.get i) ∨
      ∃ p pre post tr, items = pre ++ p :: post ∧ (items.foldl (noteHit4 tris) (r, l)).2.get i = some p ∧
        tris[p]? = some tr ∧
        laneHit (tr.intersect4 (pre.foldl (fun r x => (meshCb4 tris (Vec4.splat (lit 1 (-4))) r x).1) r)
          (Vec4.splat (lit 1 (-4)))).2 i = true ∧
        (tr.intersect4 (pre.foldl (fun r x => (meshCb4 tris (Vec4.splat (lit 1 (-4))) r x).1) r)
          (Vec4.splat (lit 1 (-4)))).1.t.get i = (items.foldl (noteHit4 tris) (r, l)).1.t.get i) := by
  induction items with
  | nil => intro r l; exact ⟨rfl, .inl ⟨rfl, rfl⟩⟩
  | cons x xs ih =>
    intro r l
    simp only [List.foldl_cons]
    have hpair : noteHit4 tris (r, l) x = ((noteHit4 tris (r, l) x).1, (noteHit4 tris (r, l) x).2) := rfl
    have hx1 : (noteHit4 tris (r, l) x).1 = (meshCb4 tris (Vec4.splat (lit 1 (-4))) r x).1 := by
      cases e : tris[x]? with
      | none => simp [noteHit4, meshCb4, e]
      | some tr => simp [noteHit4, meshCb4, e]
    rw [hpair, hx1]
    obtain ⟨h1, h2⟩ := ih (meshCb4 tris (Vec4.splat (lit 1 (-4))) r x).1 (noteHit4 tris (r, l) x).2
    refine ⟨h1, ?_⟩
    rcases h2 with ⟨h2, h3⟩ | ⟨p, pre, post, tr', h2, h3, h4, h5, h6⟩
    · cases e : tris[x]? with
      | none =>
        have hx : (noteHit4 tris (r, l) x).2 = l := by simp [noteHit4, e]
        have hm : (meshCb4 tris (Vec4.splat (lit 1 (-4))) r x).1 = r := by simp [meshCb4, e]
        rw [hx, hm] at h2 h3
        rw [hx, hm]
        exact .inl ⟨h2, h3⟩
      | some tr =>
        have hm : (meshCb4 tris (Vec4.splat (lit 1 (-4))) r x).1 = (tr.intersect4 r (Vec4.splat (lit 1 (-4)))).1 := by
          simp [meshCb4, e]
        have k3 := (C40_packet_protocol tr r (Vec4.splat (lit 1 (-4)))).2.2.2
        have hx2 : (noteHit4 tris (r, l) x).2.get i =
            if laneHit (tr.intersect4 r (Vec4.splat (lit 1 (-4)))).2 i = true then some x else l.get i := by
          exact noteHit4_get e i
        cases hb : laneHit (tr.intersect4 r (Vec4.splat (lit 1 (-4)))).2 i with
        | true =>
          rw [hx2, if_pos hb] at h2
          exact .inr ⟨x, [], xs, tr, rfl, h2, e, hb, by rw [h3, hm]; rfl⟩
        | false =>
          rw [hx2, if_neg (by rw [hb]; simp)] at h2
          exact .inl ⟨h2, by rw [h3, hm]; exact k3 i hb⟩
    · exact .inr ⟨p, x :: pre, post, tr', by rw [h2]; rfl, h3, h4, h5, h6⟩

/-- C91 for packets, with rounding: in each lane the primitive noted at the end is the one whose test (of the packet as it
was when its turn came) wrote the lane's final `t`; if none is noted the lane's `t` is unchanged. -/
theorem C91_noted_packet (tris : List (Triangle F)) (packet : RayPacket4 F) (items : List Nat) (i : Fin 4) :
    (∀ p, (noted4 tris packet items).2.get i = some p → ∃ pre post tr, items = pre ++ p :: post ∧ tris[p]? = some tr ∧
      laneHit (tr.intersect4 (noted4 tris packet pre).1 (Vec4.splat (lit 1 (-4)))).2 i = true ∧
      (tr.intersect4 (noted4 tris packet pre).1 (Vec4.splat (lit 1 (-4)))).1.t.get i =
        (noted4 tris packet items).1.t.get i) ∧
    ((noted4 tris packet items).2.get i = none → (noted4 tris packet items).1.t.get i = packet.t.get i) := by
  obtain ⟨_, h⟩ := note_fold4 tris items i packet (Vec4.splat none)
  unfold noted4
  rcases h with ⟨h1, h2⟩ | ⟨p, pre, post, tr, hp, h1, h2, h3, h4⟩
  · rw [h1, Vec4.get_splat]
    exact ⟨fun p hp => by simp at hp, fun _ => h2⟩
  · refine ⟨fun p' hp' => ?_, fun hn => ?_⟩
    · rw [h1] at hp'; cases hp'
      refine ⟨pre, post, tr, hp, h2, ?_⟩
      rw [(note_fold4 tris pre i packet (Vec4.splat none)).1]; exact ⟨h3, h4⟩
    · rw [h1] at hn; cases hn

end lawful
/-! C91 end to end, exact arithmetic. -/

theorem meshCb_fold_frame (tris : List (Triangle Rat)) (ray : Ray Rat) (xs : List Nat) :
    ∃ t, xs.foldl (fun r x => (meshCb tris r x).1) ray = { ray with t := t } := by
  obtain ⟨t, e, _⟩ := fold_closest (meshCb_closest tris ray) xs ray.t
  exact ⟨t, e⟩

theorem shown_ray {tris : List (Triangle Rat)} {ray : Ray Rat} {items ids : List Nat} {t : Rat}
    (hr : items.foldl (fun r x => (meshCb tris r x).1) ray = { ray with t := t }) (hsub : ∀ p ∈ items, p ∈ ids)
    (hn : IsNearest (MeshHit tris ray) ids ray.tMin ray.t t) :
    Shown (MeshHit tris ray) ids (fun s => ray.tMin < s ∧ s < ray.t) (noted tris ray items).2 := by
  have h1 : (noted tris ray items).1 = { ray with t := t } := (note_fold tris items ray none).1.trans hr
  obtain ⟨k1, k2⟩ := C91_noted tris ray items
  cases e : (noted tris ray items).2 with
  | none =>
    intro q hq s hs hse
    obtain ⟨k, _⟩ := k2 e
    rw [h1] at k
    have ht : t = ray.t := congrArg Ray.t k
    have := hn.lower q hq s hs hse.1 hse.2
    rw [ht] at this
    exact absurd hse.2 (not_lt.2 this)
  | some p =>
    obtain ⟨pre, post, tr, hi, htr, hx⟩ := k1 p e
    have hp : p ∈ items := by rw [hi]; simp
    obtain ⟨t', ht'⟩ := meshCb_fold_frame tris ray pre
    have hpre : (noted tris ray pre).1 = { ray with t := t' } := (note_fold tris pre ray none).1.trans ht'
    rw [hpre, h1] at hx
    have hb : (tr.intersect { ray with t := t' }).2 = true := by rw [hx]
    have hT : (tr.intersect { ray with t := t' }).1.t = t := by rw [hx]
    obtain ⟨_, b1, b2⟩ := (C38_intersect_protocol tr { ray with t := t' }).1 hb
    obtain ⟨g1, g2⟩ := C39_intersect_exact tr { ray with t := t' }
    obtain ⟨hhas, _⟩ := g2 hb
    rw [hT] at b1 b2 hhas
    have hle : t' ≤ ray.t := by
      obtain ⟨t'', e'', hl, _⟩ := fold_closest (meshCb_closest tris ray) pre ray.t
      have : ({ ray with t := t' } : Ray Rat) = { ray with t := t'' } := ht'.symm.trans e''
      have := congrArg Ray.t this
      simp only at this
      rw [this]; exact hl
    refine ⟨hsub p hp, t, ⟨tr, htr, (g1.1 hb).1, hhas⟩, ⟨rat_lt.1 b1, lt_of_lt_of_le (rat_lt.1 b2) hle⟩, ?_⟩
    intro q hq s hs hse
    exact hn.lower q hq s hs hse.1 hse.2

theorem shown_packet {tris : List (Triangle Rat)} {pk : RayPacket4 Rat} {items ids : List Nat} {t : Vec4 Rat}
    (hr : items.foldl (fun r x => (meshCb4 tris (Vec4.splat (lit 1 (-4))) r x).1) pk = { pk with t := t })
    (hsub : ∀ p ∈ items, p ∈ ids) (i : Fin 4)
    (hn : IsNearestFrom (MeshHit4 tris pk i) ids (lit 1 (-4)) (pk.t.get i) (t.get i)) :
    Shown (MeshHit4 tris pk i) ids (fun s => (lit 1 (-4) : Rat) ≤ s ∧ s < pk.t.get i)
      ((noted4 tris pk items).2.get i) := by
  have h1 : (noted4 tris pk items).1 = { pk with t := t } := (note_fold4 tris items i pk _).1.trans hr
  obtain ⟨k1, k2⟩ := C91_noted_packet tris pk items i
  cases e : (noted4 tris pk items).2.get i with
  | none =>
    intro q hq s hs hse
    have k := k2 e
    rw [h1] at k
    have := hn.lower q hq s hs hse.1 hse.2
    simp only at k
    rw [k] at this
    exact absurd hse.2 (not_lt.2 this)
  | some p =>
    obtain ⟨pre, post, tr, hi, htr, hx, hx2⟩ := k1 p e
    have hp : p ∈ items := by rw [hi]; simp
    obtain ⟨t', ht', hnear⟩ := fold_packet (meshCb4_closest tris (Vec4.splat (lit 1 (-4))) pk) pre pk.t
    have hpre : (noted4 tris pk pre).1 = { pk with t := t' } := (note_fold4 tris pre i pk _).1.trans ht'
    rw [hpre] at hx hx2
    rw [h1] at hx2
    simp only at hx2
    obtain ⟨_, _, h3, _⟩ := C40_packet_protocol tr { pk with t := t' } (Vec4.splat (lit 1 (-4)))
    obtain ⟨c1, c2⟩ := h3 i hx
    obtain ⟨g1, g2⟩ := C40_packet_exact tr { pk with t := t' } (Vec4.splat (lit 1 (-4))) i
    obtain ⟨hhas, _⟩ := g2 hx
    rw [hx2] at c1 c2 hhas
    rw [Vec4.get_splat] at c1
    refine ⟨hsub p hp, t.get i, ⟨tr, htr, (g1.1 hx).1, hhas⟩,
      ⟨rat_le.1 c1, lt_of_lt_of_le (rat_lt.1 c2) (hnear i).le⟩, ?_⟩
    intro q hq s hs hse
    exact hn.lower q hq s hs hse.1 hse.2

/-- What the four modes draw on a built hierarchy whose boxes contain the padded boxes. -/
theorem shown_main {b : Builder Rat} {order : List Nat} {bvh : Bvh Rat} {T : BTree Rat} (hc : bvh.Compact T)
    (hp : (T.ids bvh.indices).Perm (List.range b.primitives.length)) (hr : T.rounds < 3 * b.primitives.length)
    (hb : T.Bounds bvh.indices (boxAt (b.boxes order))) (hb4 : T.Bounds bvh.indices (padAt (b.boxes order)))
    (tris : List (Triangle Rat)) (hfit : BoxesFit tris (boxAt (b.boxes order)))
    (ray : Ray Rat) (hw : ray.WellFormed) (hd : ray.direction.NonZero) (pk : RayPacket4 Rat) (hw4 : pk.WellFormed)
    (hd4 : ∀ i, pk.directionX.get i ≠ 0 ∧ pk.directionY.get i ≠ 0 ∧ pk.directionZ.get i ≠ 0) :
    (T.depth ≤ 31 → ∀ fuel ≥ 3 * b.primitives.length,
      Shown (MeshHit tris ray) (List.range b.primitives.length) (fun s => ray.tMin < s ∧ s < ray.t)
        (drawRay tris (bvh.forIndices (meshCb tris) fuel) ray) ∧
      ∀ i, Shown (MeshHit4 tris pk i) (List.range b.primitives.length) (fun s => (lit 1 (-4) : Rat) ≤ s ∧ s < pk.t.get i)
        ((drawPacket tris (bvh.forIndicesPacket (meshCb4 tris (Vec4.splat (lit 1 (-4)))) fuel) pk).get i)) ∧
    (T.depth ≤ 22 ∨ T.leaves ≤ 65 → ∀ depth > T.depth, ∃ q : Mbvh Rat, Mbvh.construct depth bvh = some q ∧
      ∃ N, ∀ fuel ≥ N,
      Shown (MeshHit tris ray) (List.range b.primitives.length) (fun s => ray.tMin < s ∧ s < ray.t)
        (drawRay tris (q.forIndices (meshCb tris) fuel) ray) ∧
      ∀ i, Shown (MeshHit4 tris pk i) (List.range b.primitives.length) (fun s => (lit 1 (-4) : Rat) ≤ s ∧ s < pk.t.get i)
        ((drawPacket tris (q.forIndicesPacket (meshCb4 tris (Vec4.splat (lit 1 (-4)))) fuel) pk).get i)) := by
  have h0 : ∀ i : Fin 4, (0 : Rat) ≤ (Vec4.splat (lit 1 (-4)) : Vec4 Rat).get i := by
    intro i
    rw [Vec4.get_splat]
    have : (0 : Rat) < FloatOps.lit 1 (-4) := by
      show (0 : Rat) < ((1 : Int) : Rat) * ratPow10 (-4)
      have := ratPow10_pos (-4)
      simpa using this
    exact this.le
  have hcl := meshCb_closest tris ray
  have hcl4 := meshCb4_closest tris (Vec4.splat (lit 1 (-4))) pk
  have hcb' : ∀ (r : Ray Rat) (id : Nat), ∃ t, meshCb tris r id = ({ r with t := t }, false) := by
    intro r id; obtain ⟨t, _, e⟩ := hcl.1 r id; exact ⟨t, e⟩
  have hcbl : ∀ (r : Ray Rat) (id : Nat), r.Lowered (meshCb tris r id).1 ∧ (meshCb tris r id).2 = false := by
    intro r id
    obtain ⟨t, hl, e⟩ := hcl.1 r id
    rw [e]
    exact ⟨⟨⟨t, rfl⟩, .inr (rat_le.2 hl)⟩, rfl⟩
  refine ⟨fun hdep fuel hf => ⟨?_, fun i => ?_⟩, fun hdep k hk => ?_⟩
  · obtain ⟨t, e, hn⟩ := C31_nearest_hit bvh T hc.toDenotes hdep _ hb ray hw hd _
      (fun p s hh => meshHit_box hfit p s hh) _ hcl fuel (by omega)
    have href := C20_ray_traversal_refines bvh T hc.toDenotes hdep ray rfl (meshCb tris) fuel (by omega)
    obtain ⟨_, _, hperm⟩ := C20_ray_traversal_exact bvh T hc.toDenotes hdep ray rfl (meshCb tris) hcb' fuel (by omega)
    have hray : (bvh.forIndices (meshCb tris) fuel ray).ray =
        (bvh.forIndices (meshCb tris) fuel ray).items.foldl (fun r x => (meshCb tris r x).1) ray := by
      rw [href]; exact visit_ray T ray
    refine shown_ray (hray.symm.trans e) (fun p hpi => hp.mem_iff.1 ?_) (hn.perm hp)
    rw [hperm.mem_iff] at hpi
    exact List.count_pos_iff.1 (Nat.lt_of_lt_of_le (List.count_pos_iff.2 hpi) (reach_count_le_ids _ _ _ _))
  · obtain ⟨t, e, hn⟩ := C70_bvh_packet_nearest bvh T hc.toDenotes hdep _ hb4 pk hw4 hd4 _ h0 _
      (fun i p s hh => meshHit4_box hfit i p s hh) _ hcl4 fuel (by omega)
    obtain ⟨_, _, hcount, _⟩ := C23_packet_complete bvh T hc.toDenotes hdep _ hb4 pk rfl _ (packetClosest_lowered hcl4) fuel
      (by omega)
    have hray : (bvh.forIndicesPacket (meshCb4 tris (Vec4.splat (lit 1 (-4)))) fuel pk).ray =
        (bvh.forIndicesPacket (meshCb4 tris (Vec4.splat (lit 1 (-4)))) fuel pk).items.foldl
          (fun r x => (meshCb4 tris (Vec4.splat (lit 1 (-4))) r x).1) pk := by
      rw [C23_packet_traversal_refines bvh T hc.toDenotes hdep pk rfl _ fuel (by omega)]; exact visit_ray T pk
    refine shown_packet (hray.symm.trans e) (fun p hpi => hp.mem_iff.1 ?_) i ?_
    · exact List.count_pos_iff.1 (Nat.lt_of_lt_of_le (List.count_pos_iff.2 hpi) (hcount p))
    · have := (hn i).perm hp; rwa [Vec4.get_splat] at this
  · obtain ⟨q, e1, e2, _, h2, _⟩ := construct_main bvh T hc k hk
    have need : T.toQuad.stackNeed ≤ 32 := by
      rcases hdep with hdep | hdep
      · refine C29_quad_depth _ ?_
        by_cases h1 : 1 ≤ T.depth
        · have := toQuad_depth' T h1; omega
        · have := toQuad_depth T; omega
      · have := toQuad_need T; omega
    have hids : (T.toQuad.ids q.primIndices).Perm (List.range b.primitives.length) := by rw [toQuad_ids, h2]; exact hp
    have hbq : T.toQuad.Bounds q.primIndices (boxAt (b.boxes order)) := by
      rw [h2]; exact toQuad_forall (C := fun a p => (boxAt (b.boxes order) p).Within a) hb
    have hbq4 : T.toQuad.Bounds q.primIndices (padAt (b.boxes order)) := by
      rw [h2]; exact toQuad_forall (C := fun a p => (padAt (b.boxes order) p).Within a) hb4
    refine ⟨q, e1, T.toQuad.rounds, fun fuel hf => ⟨?_, fun i => ?_⟩⟩
    · obtain ⟨t, e, hn⟩ := C32_nearest_hit q T.toQuad e2 need _ hbq ray hw hd _ (fun p s hh => meshHit_box hfit p s hh) _ hcl
        fuel hf
      obtain ⟨_, _, hcount, _⟩ := C28_ray_complete q T.toQuad e2 need _ hbq ray _ hcbl fuel hf
      have hray : (q.forIndices (meshCb tris) fuel ray).ray =
          (q.forIndices (meshCb tris) fuel ray).items.foldl (fun r x => (meshCb tris r x).1) ray := by
        rw [(C28_traversal_refines q T.toQuad e2 need fuel hf).1]; exact T.toQuad.visit_ray ray
      exact shown_ray (hray.symm.trans e) (fun p hpi => hids.mem_iff.1
        (List.count_pos_iff.1 (Nat.lt_of_lt_of_le (List.count_pos_iff.2 hpi) (hcount p)))) (hn.perm hids)
    · obtain ⟨t, e, hn⟩ := C70_mbvh_packet_nearest q T.toQuad e2 need _ hbq4 pk hw4 hd4 _ h0 _
        (fun i p s hh => meshHit4_box hfit i p s hh) _ hcl4 fuel hf
      obtain ⟨_, _, hcount, _⟩ := C28_packet_complete q T.toQuad e2 need _ hbq4 pk _ (packetClosest_lowered hcl4) fuel hf
      have hray : (q.forIndicesPacket (meshCb4 tris (Vec4.splat (lit 1 (-4)))) fuel pk).ray =
          (q.forIndicesPacket (meshCb4 tris (Vec4.splat (lit 1 (-4)))) fuel pk).items.foldl
            (fun r x => (meshCb4 tris (Vec4.splat (lit 1 (-4))) r x).1) pk := by
        rw [(C28_traversal_refines q T.toQuad e2 need fuel hf).2]; exact T.toQuad.visit_ray pk
      refine shown_packet (hray.symm.trans e) (fun p hpi => hids.mem_iff.1
        (List.count_pos_iff.1 (Nat.lt_of_lt_of_le (List.count_pos_iff.2 hpi) (hcount p)))) i ?_
      have := (hn i).perm hids; rwa [Vec4.get_splat] at this

/-- C91 end to end, clustering builder, exact arithmetic: build over boxes that contain the triangles' vertices; each of the
visualizer's four modes (`Bvh`, `Mbvh`, single rays, packets) draws at a pixel a triangle of the mesh that the pixel's ray
meets first, and nothing exactly if the ray meets none.  (Rays nearly parallel to a triangle's plane do not meet it, as in
`MeshHit`.) -/
theorem C91_drawn_locb (tris : List (Triangle Rat)) (b : Builder Rat) (order : List Nat) (h : b.Legal order)
    (t rounds : Nat) (ht : 0 < t) (hs : b.primitives.length ≤ 2 ^ 29) (hfit : BoxesFit tris (boxAt (b.boxes order)))
    (bvh : Bvh Rat) (e : b.constructLocb order t rounds = .ok (some (some bvh))) (T : BTree Rat)
    (hU : Unfolds bvh.nodes 0 T)
    (ray : Ray Rat) (hw : ray.WellFormed) (hd : ray.direction.NonZero) (pk : RayPacket4 Rat) (hw4 : pk.WellFormed)
    (hd4 : ∀ i, pk.directionX.get i ≠ 0 ∧ pk.directionY.get i ≠ 0 ∧ pk.directionZ.get i ≠ 0) :
    (T.depth ≤ 31 → ∀ fuel ≥ 3 * b.primitives.length,
      Shown (MeshHit tris ray) (List.range b.primitives.length) (fun s => ray.tMin < s ∧ s < ray.t)
        (drawRay tris (bvh.forIndices (meshCb tris) fuel) ray) ∧
      ∀ i, Shown (MeshHit4 tris pk i) (List.range b.primitives.length) (fun s => (lit 1 (-4) : Rat) ≤ s ∧ s < pk.t.get i)
        ((drawPacket tris (bvh.forIndicesPacket (meshCb4 tris (Vec4.splat (lit 1 (-4)))) fuel) pk).get i)) ∧
    (T.depth ≤ 22 ∨ T.leaves ≤ 65 → ∀ depth > T.depth, ∃ q : Mbvh Rat, Mbvh.construct depth bvh = some q ∧
      ∃ N, ∀ fuel ≥ N,
      Shown (MeshHit tris ray) (List.range b.primitives.length) (fun s => ray.tMin < s ∧ s < ray.t)
        (drawRay tris (q.forIndices (meshCb tris) fuel) ray) ∧
      ∀ i, Shown (MeshHit4 tris pk i) (List.range b.primitives.length) (fun s => (lit 1 (-4) : Rat) ≤ s ∧ s < pk.t.get i)
        ((drawPacket tris (q.forIndicesPacket (meshCb4 tris (Vec4.splat (lit 1 (-4)))) fuel) pk).get i)) := by
  obtain ⟨T', hc, hp, _, hr, _⟩ := returns_tree h hs (.inr ⟨t, rounds, ht, e⟩)
  have := hU.det hc.unfolds; subst this
  exact shown_main hc hp hr (C12_locb_bounds b order h t rounds ht hs bvh T e hU fun a _ => rat_numeric a).1
    (C12_locb_padded b order h t rounds ht hs bvh T e hU fun a _ => rat_numeric a) tris hfit ray hw hd pk hw4 hd4

/-- C91 for binned builds that misplace nothing (`Spec/Sah.lean`).  Missing: builds that do, where a box can miss its
triangles and the picture a triangle (`C07_left_child_misses`); and the spatial builder, which the visualizer uses (`C42`, `C76`: it can lose triangles). -/
theorem C91_drawn_binned_partial (tris : List (Triangle Rat)) (b : Builder Rat) (order ks : List Nat) (h : b.Legal order)
    (hs : b.primitives.length ≤ 2 ^ 29) (hfit : BoxesFit tris (boxAt (b.boxes order)))
    (bvh : Bvh Rat) (e : b.constructBinnedSah order ks = .ok (some (some bvh))) (T : BTree Rat)
    (hU : Unfolds bvh.nodes 0 T)
    (hm : ∀ p < b.primitives.length, ¬ T.Misplaces (b.ctx order) bvh.indices p)
    (ray : Ray Rat) (hw : ray.WellFormed) (hd : ray.direction.NonZero) (pk : RayPacket4 Rat) (hw4 : pk.WellFormed)
    (hd4 : ∀ i, pk.directionX.get i ≠ 0 ∧ pk.directionY.get i ≠ 0 ∧ pk.directionZ.get i ≠ 0) :
    (T.depth ≤ 31 → ∀ fuel ≥ 3 * b.primitives.length,
      Shown (MeshHit tris ray) (List.range b.primitives.length) (fun s => ray.tMin < s ∧ s < ray.t)
        (drawRay tris (bvh.forIndices (meshCb tris) fuel) ray) ∧
      ∀ i, Shown (MeshHit4 tris pk i) (List.range b.primitives.length) (fun s => (lit 1 (-4) : Rat) ≤ s ∧ s < pk.t.get i)
        ((drawPacket tris (bvh.forIndicesPacket (meshCb4 tris (Vec4.splat (lit 1 (-4)))) fuel) pk).get i)) ∧
    (T.depth ≤ 22 ∨ T.leaves ≤ 65 → ∀ depth > T.depth, ∃ q : Mbvh Rat, Mbvh.construct depth bvh = some q ∧
      ∃ N, ∀ fuel ≥ N,
      Shown (MeshHit tris ray) (List.range b.primitives.length) (fun s => ray.tMin < s ∧ s < ray.t)
        (drawRay tris (q.forIndices (meshCb tris) fuel) ray) ∧
      ∀ i, Shown (MeshHit4 tris pk i) (List.range b.primitives.length) (fun s => (lit 1 (-4) : Rat) ≤ s ∧ s < pk.t.get i)
        ((drawPacket tris (q.forIndicesPacket (meshCb4 tris (Vec4.splat (lit 1 (-4)))) fuel) pk).get i)) := by
  obtain ⟨T', hc, hp, _, hr, _⟩ := returns_tree h hs (.inl ⟨ks, e⟩)
  have := hU.det hc.unfolds; subst this
  exact shown_main hc hp hr (C07_no_misplaced_partial b order ks h bvh T e hU (fun a _ => rat_numeric a) hm).2
    (C07_no_misplaced_partial b order ks h bvh T e hU (fun a _ => rat_numeric a) hm).1 tris hfit ray hw hd pk hw4 hd4

/-- C91: two modes that show a right triangle show the same one when only one triangle is met first. -/
theorem C91_modes_agree {hits : Nat → Rat → Prop} {ids : List Nat} {seen : Rat → Prop} {o o' : Option Nat}
    (h : Shown hits ids seen o) (h' : Shown hits ids seen o')
    (huniq : ∀ p ∈ ids, ∀ q ∈ ids, ∀ s, hits p s → hits q s → seen s → p = q) : o = o' := by
  cases o with
  | none =>
    cases o' with
    | none => rfl
    | some p' =>
      obtain ⟨hp', s', hs', hse', _⟩ := h'
      exact absurd hse' (h p' hp' s' hs')
  | some p =>
    obtain ⟨hp, s, hs, hse, hmin⟩ := h
    cases o' with
    | none => exact absurd hse (h' p hp s hs)
    | some p' =>
      obtain ⟨hp', s', hs', hse', hmin'⟩ := h'
      have : s = s' := le_antisymm (hmin p' hp' s' hs' hse') (hmin' p hp s hs hse)
      subst this
      rw [huniq p hp p' hp' s hs hs' hse]

/-! C89 in exact arithmetic: the camera looks where it points. -/

/-- C89, exact arithmetic: after `translate` or `translate_target` (both end in `setScreen`) the middle of the screen is one
unit along `direction` from the camera, whatever the field of view and aspect ratio, and the screen's upper edge is
parallel to the horizontal. -/
theorem C89_screen_centre (tan : Rat → Rat) (pi : Rat) (c : Camera Rat) :
    let s := c.setScreen tan pi
    s.pos = c.pos ∧ s.direction = c.direction ∧ s.right.y = 0 ∧ s.up.x = 0 ∧ s.up.z = 0 ∧
    (s.p1.add (Vec3.lscale (1 / 2) s.right)).add (Vec3.lscale (1 / 2) s.up) = c.pos.add c.direction := by
  have ha : ∀ a b : Rat, a +. b = a + b := fun _ _ => rfl
  have hs : ∀ a b : Rat, a -. b = a - b := fun _ _ => rfl
  have hm : ∀ a b : Rat, a *. b = a * b := fun _ _ => rfl
  simp only [Camera.setScreen, Vec3.add, Vec3.sub, Vec3.lscale, Vec3.scale, Vec3.cross, unitY, Vec3.map2, ha, hs, hm,
    rat_zero, rat_one]
  generalize c.screenSize tan pi = z
  refine ⟨trivial, trivial, by ring, by ring, by ring, ?_⟩
  rw [Vec3.mk.injEq]
  exact ⟨by ring, by ring, by ring⟩

/-- C89, exact arithmetic: the ray of a pixel starts at the camera and goes through the pixel's point of the screen, at the
parameter that is the distance to it, and its direction has length one.  `sqrt` need only be right at the one place it is
used. -/
theorem C89_ray_through_pixel (sqrt : Rat → Rat) (c : Camera Rat) (x y : Nat)
    (hs : let d := (c.pixelPoint x y).sub c.pos; sqrt (d.dot d) * sqrt (d.dot d) = d.dot d ∧ d.dot d ≠ 0) :
    let d := (c.pixelPoint x y).sub c.pos
    (c.generateRay sqrt x y).origin = c.pos ∧ (c.generateRay sqrt x y).at (sqrt (d.dot d)) = c.pixelPoint x y ∧
    (c.generateRay sqrt x y).direction.dot (c.generateRay sqrt x y).direction = 1 := by
  simp only at hs ⊢
  generalize hP : c.pixelPoint x y = P at hs
  generalize hl : sqrt ((P.sub c.pos).dot (P.sub c.pos)) = l at hs
  have hl0 : l ≠ 0 := by rintro rfl; exact hs.2 (by rw [← hs.1]; ring)
  have ha : ∀ a b : Rat, a +. b = a + b := fun _ _ => rfl
  have hsb : ∀ a b : Rat, a -. b = a - b := fun _ _ => rfl
  have hm : ∀ a b : Rat, a *. b = a * b := fun _ _ => rfl
  have hdv : ∀ a b : Rat, a /. b = a / b := fun _ _ => rfl
  have hdir : (c.generateRay sqrt x y).direction = (P.sub c.pos).scale (1 / l) := by
    show ((c.pixelPoint x y).sub c.pos).normalize sqrt = _
    rw [hP]; unfold Vec3.normalize; rw [hl, hdv, rat_one]
  have horg : (c.generateRay sqrt x y).origin = c.pos := rfl
  have key := hs.1
  simp only [Vec3.dot, Vec3.sub, Vec3.map2, ha, hsb, hm] at key
  refine ⟨horg, ?_, ?_⟩
  · unfold Ray.at
    rw [horg, hdir]
    simp only [Vec3.scale, Vec3.lscale, Vec3.add, Vec3.sub, Vec3.map2, ha, hsb, hm]
    cases P; simp only [Vec3.mk.injEq]
    refine ⟨?_, ?_, ?_⟩ <;> field_simp <;> ring
  · rw [hdir]
    simp only [Vec3.dot, Vec3.scale, Vec3.sub, Vec3.map2, ha, hsb, hm]
    field_simp
    linarith

/-- C89, exact arithmetic: turning the camera moves only where it looks and keeps `direction` a unit vector; moving it
changes `pos` along the camera's own axes and not where it looks.  After both the screen is around `pos + direction`. -/
theorem C89_camera_moves (sqrt tan : Rat → Rat) (pi : Rat) (c : Camera Rat) (offset : Vec3 Rat) :
    (let c' := c.translate tan pi offset
     c'.direction = c.direction ∧
     c'.pos = c.pos.add (((Vec3.lscale (-offset.x) (c.direction.cross ⟨0, 1, 0⟩)).add (Vec3.lscale offset.y ⟨0, 1, 0⟩)).add
       (Vec3.lscale offset.z c.direction)) ∧
     (c'.p1.add (Vec3.lscale (1 / 2) c'.right)).add (Vec3.lscale (1 / 2) c'.up) = c'.pos.add c'.direction) ∧
    (let c' := c.translateTarget sqrt tan pi offset
     c'.pos = c.pos ∧
     (c'.p1.add (Vec3.lscale (1 / 2) c'.right)).add (Vec3.lscale (1 / 2) c'.up) = c'.pos.add c'.direction ∧
     ∀ d, d = (c.direction.sub (Vec3.lscale offset.x c.right)).sub (Vec3.lscale offset.y c.up) →
       sqrt (d.dot d) * sqrt (d.dot d) = d.dot d → d.dot d ≠ 0 → c'.direction.dot c'.direction = 1) := by
  refine ⟨⟨rfl, ?_, (C89_screen_centre tan pi _).2.2.2.2.2⟩, rfl, (C89_screen_centre tan pi _).2.2.2.2.2, ?_⟩
  · have hn : ∀ a : Rat, FloatOps.neg a = -a := fun _ => rfl
    simp only [Camera.translate, Camera.setScreen, unitY, rat_zero, rat_one, hn]
  · intro d hd h1 h2
    have : (c.translateTarget sqrt tan pi offset).direction = d.scale (1 / sqrt (d.dot d)) := by
      rw [hd]
      show Vec3.normalize sqrt _ = _
      unfold Vec3.normalize
      rw [show ∀ b : Rat, (FloatOps.one : Rat) /. b = 1 / b from fun b => by rw [rat_one]; rfl]
    rw [this]
    generalize sqrt (d.dot d) = l at *
    have hl0 : l ≠ 0 := by rintro rfl; exact h2 (by rw [← h1]; ring)
    have ha : ∀ a b : Rat, a +. b = a + b := fun _ _ => rfl
    have hm : ∀ a b : Rat, a *. b = a * b := fun _ _ => rfl
    simp only [Vec3.dot, ha, hm] at h1
    simp only [Vec3.dot, Vec3.scale, ha, hm]
    field_simp
    linarith

/-! Non-vacuity. -/

/-- A camera at the origin looking along `z`, made by the code itself from `pos`, `direction`, `fov` and aspect ratio, with a
screen of 8 by 2 pixels; `tan` is replaced by a constant. -/
def demoCamera (F : Type) [FloatOps F] : Camera F :=
  Camera.translate (fun _ => lit 25 (-2)) (lit 3 0)
    { pos := ⟨zero, zero, zero⟩, right := ⟨zero, zero, zero⟩, up := ⟨zero, zero, zero⟩, p1 := ⟨zero, zero, zero⟩,
      direction := ⟨zero, zero, one⟩, invWidth := one /. lit 8 0, invHeight := one /. lit 2 0, aspectRatio := lit 4 0,
      fov := lit 40 0 } ⟨one, lit 2 0, zero⟩

/-- C89 in binary32: the eight packets of an 8 by 4 frame hold 32 pairwise different rays, those of the pixels in order. -/
example : (8 % 4 = 0 ∧ 4 * 7 + 3 < 2 ^ 32) ∧
    ((List.range 8).map fun i => (List.finRange 4).map fun j => (chunkPacket id (demoCamera F32) 8 i).ray j).flatten =
      (List.range 32).map (pixelRay id (demoCamera F32) 8) ∧
    ((List.range 32).map (pixelRay id (demoCamera F32) 8)).Nodup := by
  refine ⟨by decide, by decide +kernel, by decide +kernel⟩

/-- C89 in exact arithmetic: pixel (4, 1) of `demoCamera` is the middle of its screen, at distance 1; the square root used
is right there. -/
example : (demoCamera Rat).pos = ⟨1, 2, 0⟩ ∧ (demoCamera Rat).right = ⟨-2, 0, 0⟩ ∧ (demoCamera Rat).up = ⟨0, -1 / 2, 0⟩ ∧
    (demoCamera Rat).pixelPoint 4 1 = ⟨1, 2, 1⟩ ∧
    (let d := ((demoCamera Rat).pixelPoint 4 1).sub (demoCamera Rat).pos; id (d.dot d) * id (d.dot d) = d.dot d ∧ d.dot d ≠ 0) ∧
    ((demoCamera Rat).generateRay id 4 1).direction = ⟨0, 0, 1⟩ := by
  refine ⟨?_, ?_, ?_, ?_, ?_, ?_⟩ <;> decide +kernel

/-- C90: five samples into an averager of capacity 3. -/
example : ([1, 2, 3, 4, 8] : List Rat).foldlM Averager.addSample (Averager.withCapacity 3) =
      some ⟨[3, 4, 8], 3, 3, true⟩ ∧
    (⟨[3, 4, 8], 3, 3, true⟩ : Averager Rat).getAverage = some 5 := by
  refine ⟨?_, ?_⟩ <;> decide +kernel

/-- C91: the three triangles of `threeTris`, one behind the other: both builders' hierarchies draw triangle 1 (the nearest
one, although it is offered last) in every mode, and nothing in the lane turned away or ending before it. -/
example : (meshScene threeTris (some 3)).Legal (List.range 3) ∧
    (builtTree ((meshScene threeTris (some 3)).constructLocb (List.range 3) 2 5)).map (fun x =>
      (drawRay threeTris (x.1.forIndices (meshCb threeTris) 9) exRay,
       drawPacket threeTris (x.1.forIndicesPacket (meshCb4 threeTris (Vec4.splat (lit 1 (-4)))) 9) exPacket)) =
      some (some 1, ⟨some 1, some 1, none, none⟩) ∧
    (builtTree ((meshScene threeTris (some 3)).constructBinnedSah (List.range 3) (List.replicate 10 0))).map (fun x =>
      drawRay threeTris (x.1.forIndices (meshCb threeTris) 9) exRay) = some (some 1) := by
  refine ⟨meshScene_legal _ _ (by decide) (by decide), ?_, ?_⟩ <;> decide +kernel

end Rtbvh
