import Verif.Props.FfiQuery
import Verif.Proofs.FfiReplay
import Verif.Proofs.Sublist
import Verif.Props.Order
/- C102: lowering `t` while iterating removes only what the final `t` would remove, and adds nothing. -/
namespace Rtbvh
open FloatOps LawfulFloat

/-- A loop body that looks at the ids and leaves the ray (or packet) alone. -/
def looksOnly {σ : Type} (r : σ) (_ : Nat) : σ × Bool := (r, false)

/-- The body of the loop leaves everything but `t` alone and never raises `t`. -/
def LowersRay {F : Type} [FloatOps F] (cb : Ray F → Nat → Ray F × Bool) : Prop := ∀ (r : Ray F) (id : Nat), r.Lowered (cb r id).1
def LowersPacket {F : Type} [FloatOps F] (cb : RayPacket4 F → Nat → RayPacket4 F × Bool) : Prop :=
  ∀ (r : RayPacket4 F) (id : Nat), r.Lowered (cb r id).1
/-- The body of the loop never breaks out of it. -/
def NeverBreaks {σ : Type} (cb : σ → Nat → σ × Bool) : Prop := ∀ r id, (cb r id).2 = false

variable {F : Type} [FloatOps F] [LawfulFloat F]

/-- C102, packets over a binary structure.  Whatever the boxes are: the ids that a loop which only lowers `t` sees are, in
the same order, some of those that a loop which leaves the packet alone sees; and if it never breaks off, the ids that a loop
sees which leaves alone the packet it ended with are, in the same order, some of those that it saw. -/
theorem C102_packet_pruning (b : Bvh F) (T : BTree F) (h : b.Denotes T) (hd : T.depth ≤ 31) (pk : RayPacket4 F)
    (hn : pk.hasNaN = false) (cb : RayPacket4 F → Nat → RayPacket4 F × Bool) (hcb : LowersPacket cb) (fuel : Nat)
    (hf : T.rounds < fuel) :
    let run := b.forIndicesPacket cb fuel pk
    pk.Lowered run.ray ∧
    run.items.Sublist (b.forIndicesPacket looksOnly fuel pk).items ∧
    (NeverBreaks cb → run.ending = .finished ∧
      (b.forIndicesPacket looksOnly fuel run.ray).items.Sublist run.items) := by
  have hmono : ∀ (a : Aabb F) (r r' : RayPacket4 F) (t : Vec4 F), r.Lowered r' → a.intersect4 r' = some t →
      a.intersect4 r = some t := fun a r r' t hr hh => by
    have hs : (a.intersect4 r').isSome = true := by rw [hh]; rfl
    obtain ⟨i, hi⟩ := (intersect4_isSome _ _).1 hs
    have hs' := (intersect4_isSome a r).2 ⟨i, mask4_lowered hr hi⟩
    obtain ⟨⟨t', rfl⟩, _⟩ := hr
    unfold Aabb.intersect4 at hh hs' ⊢
    split at hh
    · rw [← Option.some.inj hh]
      split at hs'
      · rename_i e; rw [if_pos e]; rfl
      · cases hs'
    · cases hh
  intro run
  have hrun : run = _ := C23_packet_traversal_refines b T h hd pk hn cb fuel hf
  have hlow : pk.Lowered run.ray := by
    rw [hrun]
    exact visit_rel (fun _ => RayPacket4.Lowered.refl _) (fun h h' => h.trans h') hcb T pk
  refine ⟨hlow, ?_, fun hs => ⟨by rw [hrun]; exact visit_finished hs T pk, ?_⟩⟩
  · rw [hrun, C23_packet_traversal_refines b T h hd pk hn _ fuel hf]
    have hst : T.visit _ Aabb.intersect4 closerPacket (fun r _ => (r, false)) pk = _ :=
      Still.visit (items := BTree.rangeIds b.indices) (hit := Aabb.intersect4) (closer := closerPacket) pk T
    show List.Sublist _ (T.visit _ Aabb.intersect4 closerPacket (fun r _ => (r, false)) pk).items
    rw [hst]
    exact (Thin.visit (fun _ _ _ h h' => h.trans h') hcb hmono pk T pk (RayPacket4.Lowered.refl _)).1
  · have hn' : run.ray.hasNaN = false := by
      obtain ⟨⟨t, e⟩, _⟩ := hlow
      rw [e]; exact hn
    rw [C23_packet_traversal_refines b T h hd run.ray hn' _ fuel hf]
    have hst : T.visit _ Aabb.intersect4 closerPacket (fun r _ => (r, false)) run.ray = _ :=
      Still.visit (items := BTree.rangeIds b.indices) (hit := Aabb.intersect4) (closer := closerPacket) run.ray T
    show List.Sublist (T.visit _ Aabb.intersect4 closerPacket (fun r _ => (r, false)) run.ray).items _
    rw [hst]
    have := (Thick.visit (items := BTree.rangeIds b.indices) (closer := closerPacket) (fun _ => RayPacket4.Lowered.refl _)
      (fun _ _ _ h h' => h.trans h') hcb hs hmono run.ray T pk).2.2
    rw [← hrun] at this
    exact this (RayPacket4.Lowered.refl _)

/-- C64, packets whose `t` the caller lowers: the loop yields, in the same order, some of the sequence `farthestFirst4` of
the packet it began with. -/
theorem C64_packet_lowering_partial (b : Bvh F) (T : BTree F) (h : b.Denotes T) (hd : T.depth ≤ 31) (pk : RayPacket4 F)
    (hn : pk.hasNaN = false) (cb : RayPacket4 F → Nat → RayPacket4 F × Bool) (hcb : LowersPacket cb) (fuel : Nat)
    (hf : T.rounds < fuel) :
    (b.forIndicesPacket cb fuel pk).items.Sublist (T.farthestFirst4 b.indices fun a => a.intersect4 pk) := by
  rw [← C64_packet_sequence_partial b T h hd pk hn fuel hf]
  exact (C102_packet_pruning b T h hd pk hn cb hcb fuel hf).2.1

/-- C102, single rays over a four-wide structure. -/
theorem C102_mbvh_pruning (q : Mbvh F) (Q : QTree F) (h : q.Denotes Q) (hd : Q.stackNeed ≤ 32) (ray : Ray F)
    (cb : Ray F → Nat → Ray F × Bool) (hcb : LowersRay cb) (fuel : Nat) (hf : Q.rounds ≤ fuel) :
    let run := q.forIndices cb fuel ray
    ray.Lowered run.ray ∧
    run.items.Sublist (q.forIndices looksOnly fuel ray).items ∧
    (NeverBreaks cb → run.ending = .finished ∧ (q.forIndices looksOnly fuel run.ray).items.Sublist run.items) := by
  have hids : ∀ (b : Vec4 (Aabb F)) (r r' : Ray F), r.Lowered r' → (quadHit b r').ids = (quadHit b r).ids := by
    rintro b r r' ⟨⟨t, rfl⟩, _⟩; rfl
  have hmono : ∀ (b : Vec4 (Aabb F)) (r r' : Ray F) (i : Fin 4), r.Lowered r' → (quadHit b r').result.get i = true →
      (quadHit b r).result.get i = true := fun b r r' i hr hh => by
    have e : ∀ r : Ray F, (quadHit b r).result.get i = quadTest (b.get i) r := fun r => Vec4.get_map _ _ _
    rw [e] at hh ⊢
    exact quadTest_lowered hr hh
  intro run
  have hrun : run = _ := (C28_traversal_refines q Q h hd fuel hf).1 cb ray
  have hst : ∀ r, Q.visit _ quadHit (fun r _ => (r, false)) r = _ := fun r =>
    Still.qvisit (items := BTree.rangeIds q.primIndices) (hit := quadHit) r Q
  refine ⟨?_, ?_, fun hs => ⟨by rw [hrun]; exact Q.visit_finished hs ray, ?_⟩⟩
  · rw [hrun]
    exact Q.visit_rel (fun _ => Ray.Lowered.refl _) (fun h h' => h.trans h') hcb ray
  · rw [hrun, (C28_traversal_refines q Q h hd fuel hf).1]
    show List.Sublist _ (Q.visit _ quadHit (fun r _ => (r, false)) ray).items
    rw [hst]
    exact (Thin.qvisit (fun _ _ _ h h' => h.trans h') hcb hids hmono ray Q ray (Ray.Lowered.refl _)).1
  · rw [(C28_traversal_refines q Q h hd fuel hf).1]
    show List.Sublist (Q.visit _ quadHit (fun r _ => (r, false)) run.ray).items _
    rw [hst]
    have := (Thick.qvisit (items := BTree.rangeIds q.primIndices) (fun _ => Ray.Lowered.refl _)
      (fun _ _ _ h h' => h.trans h') hcb hs hids hmono run.ray Q ray).2.2
    rw [← hrun] at this
    exact this (Ray.Lowered.refl _)

/-- C102, packets over a four-wide structure. -/
theorem C102_mbvh_packet_pruning (q : Mbvh F) (Q : QTree F) (h : q.Denotes Q) (hd : Q.stackNeed ≤ 32) (pk : RayPacket4 F)
    (cb : RayPacket4 F → Nat → RayPacket4 F × Bool) (hcb : LowersPacket cb) (fuel : Nat) (hf : Q.rounds ≤ fuel) :
    let run := q.forIndicesPacket cb fuel pk
    pk.Lowered run.ray ∧
    run.items.Sublist (q.forIndicesPacket looksOnly fuel pk).items ∧
    (NeverBreaks cb → run.ending = .finished ∧ (q.forIndicesPacket looksOnly fuel run.ray).items.Sublist run.items) := by
  have hids : ∀ (b : Vec4 (Aabb F)) (r r' : RayPacket4 F), r.Lowered r' → (quadHit4 b r').ids = (quadHit4 b r).ids :=
    fun _ _ _ _ => rfl
  have hmono : ∀ (b : Vec4 (Aabb F)) (r r' : RayPacket4 F) (i : Fin 4), r.Lowered r' →
      (quadHit4 b r').result.get i = true → (quadHit4 b r).result.get i = true := fun b r r' i hr hh => by
    have e : ∀ r : RayPacket4 F, (quadHit4 b r).result.get i = (Vec4.ofFn (quadTest4 (b.get i) r)).any :=
      fun r => Vec4.get_map _ _ _
    rw [e] at hh ⊢
    obtain ⟨j, hj⟩ := (Vec4.any_iff _).1 hh
    rw [Vec4.get_ofFn] at hj
    exact (Vec4.any_iff _).2 ⟨j, by rw [Vec4.get_ofFn]; exact quadTest4_lowered hr hj⟩
  intro run
  have hrun : run = _ := (C28_traversal_refines q Q h hd fuel hf).2 cb pk
  have hst : ∀ r, Q.visit _ quadHit4 (fun r _ => (r, false)) r = _ := fun r =>
    Still.qvisit (items := BTree.rangeIds q.primIndices) (hit := quadHit4) r Q
  refine ⟨?_, ?_, fun hs => ⟨by rw [hrun]; exact Q.visit_finished hs pk, ?_⟩⟩
  · rw [hrun]
    exact Q.visit_rel (fun _ => RayPacket4.Lowered.refl _) (fun h h' => h.trans h') hcb pk
  · rw [hrun, (C28_traversal_refines q Q h hd fuel hf).2]
    show List.Sublist _ (Q.visit _ quadHit4 (fun r _ => (r, false)) pk).items
    rw [hst]
    exact (Thin.qvisit (fun _ _ _ h h' => h.trans h') hcb hids hmono pk Q pk (RayPacket4.Lowered.refl _)).1
  · rw [(C28_traversal_refines q Q h hd fuel hf).2]
    show List.Sublist (Q.visit _ quadHit4 (fun r _ => (r, false)) run.ray).items _
    rw [hst]
    have := (Thick.qvisit (items := BTree.rangeIds q.primIndices) (fun _ => RayPacket4.Lowered.refl _)
      (fun _ _ _ h h' => h.trans h') hcb hs hids hmono run.ray Q pk).2.2
    rw [← hrun] at this
    exact this (RayPacket4.Lowered.refl _)

omit [LawfulFloat F] in
/-- C102, single rays over a binary structure: the box test does not look at `t`, so a loop that only changes `t` sees
exactly what a loop that leaves the ray alone sees, in the same order, and so does a loop over the ray it ended with. -/
theorem C102_ray_no_pruning (b : Bvh F) (T : BTree F) (h : b.Denotes T) (hd : T.depth ≤ 31) (ray : Ray F)
    (hn : ray.hasNaN = false) (cb : Ray F → Nat → Ray F × Bool)
    (hcb : ∀ r id, ∃ t, cb r id = ({ r with t := t }, false)) (fuel : Nat) (hf : T.rounds < fuel) :
    let run := b.forIndices cb fuel ray
    run.ending = .finished ∧
    run.items = (b.forIndices looksOnly fuel ray).items ∧
    run.items = (b.forIndices looksOnly fuel run.ray).items := by
  have hl : ∀ (r : Ray F) (id : Nat), ∃ t, (looksOnly r id : Ray F × Bool) = ({ r with t := t }, false) :=
    fun r _ => ⟨r.t, rfl⟩
  obtain ⟨e1, ⟨t, e2⟩, e3⟩ := C20_ray_traversal_exact b T h hd ray hn cb hcb fuel hf
  intro run
  have e := C64_sequence_partial b T h hd ray hn cb hcb fuel hf
  refine ⟨e1, e.trans (C64_sequence_partial b T h hd ray hn _ hl fuel hf).symm, e.trans ?_⟩
  have hr : run.ray = { ray with t := t } := e2
  rw [hr]
  have hn' : ({ ray with t := t } : Ray F).hasNaN = false := hn
  exact (C64_sequence_partial b T h hd _ hn' _ hl fuel hf).symm

/-! A row of four unit boxes under two interior nodes, and a loop that pulls `t` in front of everything at the first id:
it sees two ids, a loop that leaves the packet alone four, and a loop with the final `t` none. -/

def prBox (x y : Rat) : Aabb Rat := Aabb.ofPoints2 ⟨x, 0, 0⟩ ⟨y, 1, 1⟩
def prTree : BTree Rat :=
  .node (prBox 0 7) (.node (prBox 0 3) (.leaf (prBox 0 1) 0 1) (.leaf (prBox 2 3) 1 1))
    (.node (prBox 4 7) (.leaf (prBox 4 5) 2 1) (.leaf (prBox 6 7) 3 1))
def prBvh : Bvh Rat :=
  { nodes := [{ bounds := { prBox 0 7 with extra1 := -1, extra2 := 1 } },
              { bounds := { prBox 0 3 with extra1 := -1, extra2 := 3 } },
              { bounds := { prBox 4 7 with extra1 := -1, extra2 := 5 } },
              { bounds := { prBox 0 1 with extra1 := 1, extra2 := 0 } },
              { bounds := { prBox 2 3 with extra1 := 1, extra2 := 1 } },
              { bounds := { prBox 4 5 with extra1 := 1, extra2 := 2 } },
              { bounds := { prBox 6 7 with extra1 := 1, extra2 := 3 } }]
    primIndices := [0, 1, 2, 3], buildType := .binnedSAH }
def prPacket : RayPacket4 Rat :=
  RayPacket4.new (fun _ => ⟨-1, 1/4, 1/4, 0⟩) (fun _ => ⟨1, 1/100, 1/100, 0⟩)
def pullIn (r : RayPacket4 Rat) (_ : Nat) : RayPacket4 Rat × Bool :=
  ({ r with t := r.t.map fun t => Min.min t (1/2) }, false)

theorem prBvh_compact : prBvh.Compact prTree := by
  refine ⟨⟨unfold?_sound (fuel := 7) (by decide +kernel), ?_⟩, by decide, ?_, by decide, by decide⟩
  · unfold prTree prBvh BTree.RangesIn BTree.RangesIn BTree.RangesIn; decide
  · intro bb f c e; cases e

theorem pullIn_lowers : LowersPacket pullIn := fun r _ => ⟨⟨_, rfl⟩, fun i => .inr (by
  show decide ((r.t.map fun t => Min.min t (1/2)).get i ≤ r.t.get i) = true
  rw [Vec4.get_map]
  exact decide_eq_true (min_le_left _ _))⟩

/-- The hypotheses of `C102_packet_pruning` hold of a case in which both inequalities are strict. -/
example : prBvh.Denotes prTree ∧ prTree.depth ≤ 31 ∧ prPacket.hasNaN = false ∧ LowersPacket pullIn ∧
    NeverBreaks pullIn ∧ prTree.rounds < 20 ∧
    (prBvh.forIndicesPacket looksOnly 20 prPacket).items = [3, 2, 1, 0] ∧
    (prBvh.forIndicesPacket pullIn 20 prPacket).items = [3, 2] ∧
    (prBvh.forIndicesPacket looksOnly 20 (prBvh.forIndicesPacket pullIn 20 prPacket).ray).items = [] :=
  ⟨prBvh_compact.toDenotes, by decide, by decide +kernel, pullIn_lowers, fun _ _ => rfl, by decide, by decide +kernel,
    by decide +kernel, by decide +kernel⟩

def prRay : Ray Rat := Ray.new ⟨-1, 1/4, 1/4⟩ ⟨1, 1/100, 1/100⟩
/-- The four-wide structure made of it: its single quad is tested once, so the loop sees all four, a loop with the final
`t` none. -/
example : ∃ (q : Mbvh Rat) (Q : QTree Rat), Mbvh.construct 65 prBvh = some q ∧ q.Denotes Q ∧ Q.stackNeed ≤ 32 ∧
    Q.rounds ≤ 40 ∧ LowersRay (distCb fun _ => some (1/2)) ∧ NeverBreaks (distCb fun _ => some (1/2)) ∧
    (q.forIndices (distCb fun _ => some (1/2)) 40 prRay).items.length = 4 ∧
    (q.forIndices looksOnly 40 (q.forIndices (distCb fun _ => some (1/2)) 40 prRay).ray).items = [] := by
  obtain ⟨q, e, hq, h1, h2, h3, h4⟩ := construct_main prBvh prTree prBvh_compact 65 (by decide)
  refine ⟨q, _, e, hq, by decide, by decide, ?_, ?_, ?_, ?_⟩
  · intro r id
    unfold distCb
    simp only
    split
    · rename_i h; exact ⟨⟨_, rfl⟩, .inr (decide_eq_true (le_of_lt h.2))⟩
    · exact Ray.Lowered.refl r
  · intro r id
    unfold distCb
    simp only
    split <;> rfl
  · have : ((Mbvh.construct 65 prBvh).map fun q => (q.forIndices (distCb fun _ => some (1/2)) 40 prRay).items.length) =
        some 4 := by decide +kernel
    rw [e] at this; exact Option.some.inj this
  · have : ((Mbvh.construct 65 prBvh).map fun q =>
        (q.forIndices looksOnly 40 (q.forIndices (distCb fun _ => some (1/2)) 40 prRay).ray).items) =
        some [] := by decide +kernel
    rw [e] at this; exact Option.some.inj this

end Rtbvh
