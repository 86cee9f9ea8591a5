import Verif.Spec.Next
import Verif.Proofs.Next
import Verif.Props.BuildQuery
import Mathlib.Data.List.Perm.Subperm
/- Property C94: clients that call `next()` themselves, with memory. -/
namespace Rtbvh
variable {F D P : Type} [FloatOps F]

section generic
variable {σ τ ι κ : Type}

omit [FloatOps F] in
theorem session_protocol {round : τ → Round τ ι} {get : τ → σ} {set : σ → τ → τ}
    (hk : ∀ t t', (round t = .cont t' ∨ ∃ x, round t = .yield x t') → get t' = get t)
    (hgs : ∀ r t, get (set r t) = r) (hfuse : ∀ t, round t = .done → ∀ r, round (set r t) = .done)
    (hss : ∀ t r r', set r (set r' t) = set r t) (client : D → σ → Option ι → D × σ × Bool) (fuel : Nat) :
    ∀ (calls : Nat) (d : D) (t : τ), FindsRay client d (get t) (session round get set client fuel calls d t).results ∧
      Fused (session round get set client fuel calls d t).results := by
  have hcall : ∀ (n : Nat) (t : τ), (∀ x t', callNext round n t = .item x t' → get t' = get t) ∧
      (∀ t', callNext round n t = .none t' → get t' = get t ∧ round t' = .done ∧ 1 ≤ n) := by
    intro n
    induction n with
    | zero => intro t; exact ⟨fun _ _ h => (by cases h), fun _ h => by cases h⟩
    | succ n ih =>
      intro t
      simp only [callNext]
      cases e : round t with
      | done => exact ⟨fun _ _ h => (by cases h), fun t' h => (by cases h; exact ⟨rfl, e, by omega⟩)⟩
      | panic => exact ⟨fun _ _ h => (by cases h), fun _ h => by cases h⟩
      | cont t1 =>
        have h1 := hk t t1 (.inl e)
        refine ⟨fun x t' h => ((ih t1).1 x t' h).trans h1, fun t' h => ?_⟩
        obtain ⟨a, b, c⟩ := (ih t1).2 t' h
        exact ⟨a.trans h1, b, by omega⟩
      | yield y t1 =>
        refine ⟨fun x t' h => ?_, fun _ h => by cases h⟩
        cases h
        exact hk t t1 (.inr ⟨y, e⟩)
  intro calls
  induction calls with
  | zero => intro d t; exact ⟨trivial, [], 0, rfl⟩
  | succ c ih =>
    intro d t
    simp only [session]
    cases e : callNext round fuel t with
    | panic => exact ⟨trivial, [], 0, rfl⟩
    | running => exact ⟨trivial, [], 0, rfl⟩
    | none t' =>
      obtain ⟨h1, h2, h3⟩ := (hcall fuel t).2 t' e
      simp only
      cases e2 : client d (get t') none with
      | mk d' p =>
        obtain ⟨r', s⟩ := p
        cases s with
        | true => exact ⟨⟨h1, trivial⟩, [], 1, rfl⟩
        | false =>
          obtain ⟨a, b⟩ := ih d' (set r' t')
          obtain ⟨_, k, hr⟩ := session_done (get := get) (client := client) h3 (hfuse t' h2) (hss t') c d' r'
          refine ⟨⟨h1, ?_⟩, [], k + 1, ?_⟩
          · rw [e2]; rw [hgs] at a; exact a
          · simp only [Session.cons, List.map_cons, hr, List.replicate_succ, List.map_nil, List.nil_append]
    | item x t' =>
      have h1 := (hcall fuel t).1 x t' e
      simp only
      cases e2 : client d (get t') (some x) with
      | mk d' p =>
        obtain ⟨r', s⟩ := p
        cases s with
        | true => exact ⟨⟨h1, trivial⟩, [x], 0, rfl⟩
        | false =>
          obtain ⟨a, items, k, b⟩ := ih d' (set r' t')
          refine ⟨⟨h1, ?_⟩, x :: items, k, ?_⟩
          · rw [e2]; rw [hgs] at a; exact a
          · simp only [Session.cons, List.map_cons, b, List.cons_append]

/-- The round leaves the ray alone, and says `None` only if `p`. -/
def Step.Proper (t : Trav σ) (p : Prop) : Step σ ι → Prop
  | .cont t' => t'.ray = t.ray
  | .yield _ t' => t'.ray = t.ray
  | .done => p
  | .panic => True

/-- The same for the quad iterators. -/
def QStep.Proper (t : QTrav σ) (p : Prop) : QStep σ ι → Prop
  | .cont t' => t'.ray = t.ray
  | .yield _ t' => t'.ray = t.ray
  | .done => p
  | .panic => True

omit [FloatOps F] in
theorem bvhIndexStep_proper {nodes : List (BvhNode F)} {indices : List Nat} {hit : Aabb F → σ → Option κ}
    {closer : κ → κ → Bool} (t : Trav σ) : (bvhIndexStep nodes indices hit closer t).Proper t (t.stack = []) := by
  unfold bvhIndexStep
  repeat' (first | split | dsimp only)
  all_goals first | assumption | trivial | rfl

omit [FloatOps F] in
theorem bvhPrimStep_proper {nodes : List (BvhNode F)} {indices : List Nat} {prims : List P} {hit : Aabb F → σ → Option κ}
    {closer : κ → κ → Bool} (t : Trav σ) : (bvhPrimStep nodes indices prims hit closer t).Proper t (t.stack = []) := by
  unfold bvhPrimStep
  repeat' (first | split | dsimp only)
  all_goals first | assumption | trivial | rfl

omit [FloatOps F] in
theorem quadStep_proper {nodes : List (MbvhNode F)} {indices : List Nat} {item : Nat → Option ι}
    {hit : Vec4 (Aabb F) → σ → MbvhHit} (t : QTrav σ) :
    (quadStep nodes indices item hit t).Proper t (t.i ≥ 4 ∧ t.stack = []) := by
  unfold quadStep
  repeat' (first | split | dsimp only)
  all_goals first | (constructor <;> assumption) | trivial | rfl

omit [FloatOps F] in
theorem bvhIndexStep_keeps {nodes : List (BvhNode F)} {indices : List Nat} {hit : Aabb F → σ → Option κ}
    {closer : κ → κ → Bool} (t t' : Trav σ)
    (h : (bvhIndexStep nodes indices hit closer t).toRound = .cont t' ∨
      ∃ x, (bvhIndexStep nodes indices hit closer t).toRound = .yield x t') : t'.ray = t.ray := by
  have key := bvhIndexStep_proper (nodes := nodes) (indices := indices) (hit := hit) (closer := closer) t
  cases e : bvhIndexStep nodes indices hit closer t with
  | done => rw [e] at h; simp [Step.toRound] at h
  | panic => rw [e] at h; simp [Step.toRound] at h
  | cont t1 => rw [e] at h key; simp only [Step.toRound, Round.cont.injEq, reduceCtorEq, exists_false, or_false] at h; subst h; exact key
  | yield y t1 => rw [e] at h key; simp only [Step.toRound, Round.yield.injEq, reduceCtorEq, false_or] at h; obtain ⟨x, _, h⟩ := h; subst h; exact key

omit [FloatOps F] in
theorem bvhPrimStep_keeps {nodes : List (BvhNode F)} {indices : List Nat} {prims : List P} {hit : Aabb F → σ → Option κ}
    {closer : κ → κ → Bool} (t t' : Trav σ)
    (h : (bvhPrimStep nodes indices prims hit closer t).toRound = .cont t' ∨
      ∃ x, (bvhPrimStep nodes indices prims hit closer t).toRound = .yield x t') : t'.ray = t.ray := by
  have key := bvhPrimStep_proper (nodes := nodes) (indices := indices) (prims := prims) (hit := hit) (closer := closer) t
  cases e : bvhPrimStep nodes indices prims hit closer t with
  | done => rw [e] at h; simp [Step.toRound] at h
  | panic => rw [e] at h; simp [Step.toRound] at h
  | cont t1 => rw [e] at h key; simp only [Step.toRound, Round.cont.injEq, reduceCtorEq, exists_false, or_false] at h; subst h; exact key
  | yield y t1 => rw [e] at h key; simp only [Step.toRound, Round.yield.injEq, reduceCtorEq, false_or] at h; obtain ⟨x, _, h⟩ := h; subst h; exact key

omit [FloatOps F] in
theorem quadStep_keeps {nodes : List (MbvhNode F)} {indices : List Nat} {item : Nat → Option ι}
    {hit : Vec4 (Aabb F) → σ → MbvhHit} (t t' : QTrav σ)
    (h : (quadStep nodes indices item hit t).toRound = .cont t' ∨
      ∃ x, (quadStep nodes indices item hit t).toRound = .yield x t') : t'.ray = t.ray := by
  have key := quadStep_proper (nodes := nodes) (indices := indices) (item := item) (hit := hit) t
  cases e : quadStep nodes indices item hit t with
  | done => rw [e] at h; simp [QStep.toRound] at h
  | panic => rw [e] at h; simp [QStep.toRound] at h
  | cont t1 => rw [e] at h key; simp only [QStep.toRound, Round.cont.injEq, reduceCtorEq, exists_false, or_false] at h; subst h; exact key
  | yield y t1 => rw [e] at h key; simp only [QStep.toRound, Round.yield.injEq, reduceCtorEq, false_or] at h; obtain ⟨x, _, h⟩ := h; subst h; exact key

omit [FloatOps F] in
theorem bvhIndexStep_fused {nodes : List (BvhNode F)} {indices : List Nat} {hit : Aabb F → σ → Option κ}
    {closer : κ → κ → Bool} (t : Trav σ) (h : (bvhIndexStep nodes indices hit closer t).toRound = .done) (r : σ) :
    (bvhIndexStep nodes indices hit closer (t.setRay r)).toRound = .done := by
  have hst : t.stack = [] := by
    have key := bvhIndexStep_proper (nodes := nodes) (indices := indices) (hit := hit) (closer := closer) t
    cases e : bvhIndexStep nodes indices hit closer t with
    | done => rw [e] at key; exact key
    | panic => rw [e] at h; simp [Step.toRound] at h
    | cont t1 => rw [e] at h; simp [Step.toRound] at h
    | yield y t1 => rw [e] at h; simp [Step.toRound] at h
  unfold bvhIndexStep Trav.setRay
  simp only [hst]
  rfl

omit [FloatOps F] in
theorem bvhPrimStep_fused {nodes : List (BvhNode F)} {indices : List Nat} {prims : List P} {hit : Aabb F → σ → Option κ}
    {closer : κ → κ → Bool} (t : Trav σ) (h : (bvhPrimStep nodes indices prims hit closer t).toRound = .done) (r : σ) :
    (bvhPrimStep nodes indices prims hit closer (t.setRay r)).toRound = .done := by
  have hst : t.stack = [] := by
    have key := bvhPrimStep_proper (nodes := nodes) (indices := indices) (prims := prims) (hit := hit) (closer := closer) t
    cases e : bvhPrimStep nodes indices prims hit closer t with
    | done => rw [e] at key; exact key
    | panic => rw [e] at h; simp [Step.toRound] at h
    | cont t1 => rw [e] at h; simp [Step.toRound] at h
    | yield y t1 => rw [e] at h; simp [Step.toRound] at h
  unfold bvhPrimStep Trav.setRay
  simp only [hst]
  rfl

omit [FloatOps F] in
theorem quadStep_fused {nodes : List (MbvhNode F)} {indices : List Nat} {item : Nat → Option ι}
    {hit : Vec4 (Aabb F) → σ → MbvhHit} (t : QTrav σ) (h : (quadStep nodes indices item hit t).toRound = .done) (r : σ) :
    (quadStep nodes indices item hit (t.setRay r)).toRound = .done := by
  have hst : t.i ≥ 4 ∧ t.stack = [] := by
    have key := quadStep_proper (nodes := nodes) (indices := indices) (item := item) (hit := hit) t
    cases e : quadStep nodes indices item hit t with
    | done => rw [e] at key; exact key
    | panic => rw [e] at h; simp [QStep.toRound] at h
    | cont t1 => rw [e] at h; simp [QStep.toRound] at h
    | yield y t1 => rw [e] at h; simp [QStep.toRound] at h
  unfold quadStep QTrav.setRay
  simp only [hst.1, hst.2]
  rfl
end generic

/-- C94, on every `Bvh` and `Mbvh`, well-formed or not, with every slice of primitives: whatever the client of one of the
eight iterators does, at each call it finds the ray as it left it, and once `next()` has returned `None` it always does. -/
theorem C94_protocol (b : Bvh F) (q : Mbvh F) (prims : List P) (fuel calls : Nat) (d : D) (ray : Ray F)
    (pk : RayPacket4 F) :
    (∀ client, FindsRay client d ray (b.clientIndices client fuel calls d ray).results ∧
      Fused (b.clientIndices client fuel calls d ray).results) ∧
    (∀ client, FindsRay client d pk (b.clientIndicesPacket client fuel calls d pk).results ∧
      Fused (b.clientIndicesPacket client fuel calls d pk).results) ∧
    (∀ client, FindsRay client d ray (b.clientPrims prims client fuel calls d ray).results ∧
      Fused (b.clientPrims prims client fuel calls d ray).results) ∧
    (∀ client, FindsRay client d pk (b.clientPrimsPacket prims client fuel calls d pk).results ∧
      Fused (b.clientPrimsPacket prims client fuel calls d pk).results) ∧
    (∀ client, FindsRay client d ray (q.clientIndices client fuel calls d ray).results ∧
      Fused (q.clientIndices client fuel calls d ray).results) ∧
    (∀ client, FindsRay client d pk (q.clientIndicesPacket client fuel calls d pk).results ∧
      Fused (q.clientIndicesPacket client fuel calls d pk).results) ∧
    (∀ client, FindsRay client d ray (q.clientPrims prims client fuel calls d ray).results ∧
      Fused (q.clientPrims prims client fuel calls d ray).results) ∧
    (∀ client, FindsRay client d pk (q.clientPrimsPacket prims client fuel calls d pk).results ∧
      Fused (q.clientPrimsPacket prims client fuel calls d pk).results) :=
  ⟨fun client => session_protocol
      (round := fun t => (bvhIndexStep b.nodes b.primIndices Aabb.intersect closerRay t).toRound)
      (get := Trav.ray) (set := Trav.setRay) bvhIndexStep_keeps (fun _ _ => rfl)
      (fun t h r => bvhIndexStep_fused t h r) (fun _ _ _ => rfl) client fuel calls d
      (travNew (b.nodes.isEmpty || ray.hasNaN) ray),
   fun client => session_protocol
      (round := fun t => (bvhIndexStep b.nodes b.primIndices Aabb.intersect4 closerPacket t).toRound)
      (get := Trav.ray) (set := Trav.setRay) bvhIndexStep_keeps (fun _ _ => rfl)
      (fun t h r => bvhIndexStep_fused t h r) (fun _ _ _ => rfl) client fuel calls d
      (travNew (b.nodes.isEmpty || pk.hasNaN) pk),
   fun client => session_protocol
      (round := fun t => (bvhPrimStep b.nodes b.primIndices prims Aabb.intersect closerRay t).toRound)
      (get := Trav.ray) (set := Trav.setRay) bvhPrimStep_keeps (fun _ _ => rfl)
      (fun t h r => bvhPrimStep_fused t h r) (fun _ _ _ => rfl) client fuel calls d
      (travNew (b.nodes.isEmpty || ray.hasNaN || prims.isEmpty) ray),
   fun client => session_protocol
      (round := fun t => (bvhPrimStep b.nodes b.primIndices prims Aabb.intersect4 closerPacket t).toRound)
      (get := Trav.ray) (set := Trav.setRay) bvhPrimStep_keeps (fun _ _ => rfl)
      (fun t h r => bvhPrimStep_fused t h r) (fun _ _ _ => rfl) client fuel calls d
      (travNew (b.nodes.isEmpty || pk.hasNaN || prims.isEmpty) pk),
   fun client => session_protocol
      (round := fun t => (quadStep q.mNodes q.primIndices some quadHit t).toRound)
      (get := QTrav.ray) (set := QTrav.setRay) quadStep_keeps (fun _ _ => rfl)
      (fun t h r => quadStep_fused t h r) (fun _ _ _ => rfl) client fuel calls d (qtravNew q.mNodes quadHit ray),
   fun client => session_protocol
      (round := fun t => (quadStep q.mNodes q.primIndices some quadHit4 t).toRound)
      (get := QTrav.ray) (set := QTrav.setRay) quadStep_keeps (fun _ _ => rfl)
      (fun t h r => quadStep_fused t h r) (fun _ _ _ => rfl) client fuel calls d (qtravNew q.mNodes quadHit4 pk),
   fun client => session_protocol
      (round := fun t => (quadStep q.mNodes q.primIndices (fun id => prims[id]?) quadHit t).toRound)
      (get := QTrav.ray) (set := QTrav.setRay) quadStep_keeps (fun _ _ => rfl)
      (fun t h r => quadStep_fused t h r) (fun _ _ _ => rfl) client fuel calls d (qtravNew q.mNodes quadHit ray),
   fun client => session_protocol
      (round := fun t => (quadStep q.mNodes q.primIndices (fun id => prims[id]?) quadHit4 t).toRound)
      (get := QTrav.ray) (set := QTrav.setRay) quadStep_keeps (fun _ _ => rfl)
      (fun t h r => quadStep_fused t h r) (fun _ _ _ => rfl) client fuel calls d (qtravNew q.mNodes quadHit4 pk)⟩

/-- C94, `Bvh`: on a well-formed tree at most 31 deep in which every id occurs once (C03, C11), every call of every client
returns, and the calls go as in a `for` loop whose body has no memory and does what the client might do.  So what the other
theorems say about all such loops holds for all clients. -/
theorem C94_bvh_client (b : Bvh F) (T : BTree F) (h : b.Denotes T) (hd : T.depth ≤ 31) (hids : (T.ids b.indices).Nodup)
    (fuel : Nat) (hf : T.rounds < fuel) (calls : Nat) (d : D) :
    (∀ (client : D → Ray F → Option Nat → D × Ray F × Bool) (ray : Ray F),
      let s := b.clientIndices client fuel calls d ray
      (s.ending = .stopped ∨ s.ending = .more) ∧ LikeALoop client (fun cb => b.forIndices cb fuel ray) s) ∧
    (∀ (client : D → RayPacket4 F → Option Nat → D × RayPacket4 F × Bool) (pk : RayPacket4 F),
      let s := b.clientIndicesPacket client fuel calls d pk
      (s.ending = .stopped ∨ s.ending = .more) ∧ LikeALoop client (fun cb => b.forIndicesPacket cb fuel pk) s) := by
  obtain ⟨hs1, hs2⟩ := C22_stack_safe b T h hd fuel hf
  constructor
  · intro client ray
    have hg : GoodAt (fun t => (bvhIndexStep b.nodes b.primIndices Aabb.intersect closerRay t).toRound) Trav.ray Trav.setRay
        fuel (travNew (b.nodes.isEmpty || ray.hasNaN) ray) := by
      intro cb
      rw [← drive_gdrive]
      change (b.forIndices cb fuel ray).items.Nodup ∧ _
      refine ⟨?_, hs1 ray cb⟩
      by_cases hn : ray.hasNaN = false
      · rw [C20_ray_traversal_refines b T h hd ray hn cb fuel hf, List.nodup_iff_count_le_one]
        intro p
        exact Nat.le_trans (Nat.le_trans (visit_count_le (Inv := fun _ => True) (fun _ _ _ => trivial)
          (pass := fun _ => true) (fun _ _ _ _ => rfl) p T _ trivial) (reach_count_le_ids _ _ _ _))
          (List.nodup_iff_count_le_one.1 hids p)
      · unfold Bvh.forIndices travNew
        rw [Bool.not_eq_false] at hn
        rw [hn, Bool.or_true]
        cases fuel with
        | zero => omega
        | succ n => simp [drive, bvhIndexStep]
    have := session_main (get := Trav.ray) (set := Trav.setRay) (client := client) d
      (fun t h r => bvhIndexStep_fused t h r) (fun _ _ _ => rfl) calls d _ hg
    simp only [← drive_gdrive] at this
    exact this
  · intro client pk
    have hg : GoodAt (fun t => (bvhIndexStep b.nodes b.primIndices Aabb.intersect4 closerPacket t).toRound) Trav.ray
        Trav.setRay fuel (travNew (b.nodes.isEmpty || pk.hasNaN) pk) := by
      intro cb
      rw [← drive_gdrive]
      change (b.forIndicesPacket cb fuel pk).items.Nodup ∧ _
      refine ⟨?_, hs2 pk cb⟩
      by_cases hn : pk.hasNaN = false
      · rw [C23_packet_traversal_refines b T h hd pk hn cb fuel hf, List.nodup_iff_count_le_one]
        intro p
        exact Nat.le_trans (Nat.le_trans (visit_count_le (Inv := fun _ => True) (fun _ _ _ => trivial)
          (pass := fun _ => true) (fun _ _ _ _ => rfl) p T _ trivial) (reach_count_le_ids _ _ _ _))
          (List.nodup_iff_count_le_one.1 hids p)
      · unfold Bvh.forIndicesPacket travNew
        rw [Bool.not_eq_false] at hn
        rw [hn, Bool.or_true]
        cases fuel with
        | zero => omega
        | succ n => simp [drive, bvhIndexStep]
    have := session_main (get := Trav.ray) (set := Trav.setRay) (client := client) d
      (fun t h r => bvhIndexStep_fused t h r) (fun _ _ _ => rfl) calls d _ hg
    simp only [← drive_gdrive] at this
    exact this

/-- C94, `Mbvh`: the same within its stack limit (C29). -/
theorem C94_mbvh_client (q : Mbvh F) (Q : QTree F) (h : q.Denotes Q) (hd : Q.stackNeed ≤ 32)
    (hids : (Q.ids q.primIndices).Nodup) (fuel : Nat) (hf : Q.rounds ≤ fuel) (calls : Nat) (d : D) :
    (∀ (client : D → Ray F → Option Nat → D × Ray F × Bool) (ray : Ray F),
      let s := q.clientIndices client fuel calls d ray
      (s.ending = .stopped ∨ s.ending = .more) ∧ LikeALoop client (fun cb => q.forIndices cb fuel ray) s) ∧
    (∀ (client : D → RayPacket4 F → Option Nat → D × RayPacket4 F × Bool) (pk : RayPacket4 F),
      let s := q.clientIndicesPacket client fuel calls d pk
      (s.ending = .stopped ∨ s.ending = .more) ∧ LikeALoop client (fun cb => q.forIndicesPacket cb fuel pk) s) := by
  obtain ⟨hs1, hs2⟩ := C29_stack_safe q Q h hd fuel hf
  obtain ⟨hr1, hr2⟩ := C28_traversal_refines q Q h hd fuel hf
  constructor
  · intro client ray
    have hg : GoodAt (fun t => (quadStep q.mNodes q.primIndices some quadHit t).toRound) QTrav.ray QTrav.setRay
        fuel (qtravNew q.mNodes quadHit ray) := by
      intro cb
      rw [← qdrive_gdrive]
      change (q.forIndices cb fuel ray).items.Nodup ∧ _
      refine ⟨?_, hs1 cb ray⟩
      rw [hr1, List.nodup_iff_count_le_one]
      intro p
      refine Nat.le_trans (Nat.le_trans (Q.visit_count_le (Inv := fun _ => True) (fun _ _ _ => trivial)
        (pass := fun _ => true) quadHit_perm (fun _ _ _ _ _ => rfl) p _ trivial) ?_) (List.nodup_iff_count_le_one.1 hids p)
      rw [Q.root_reach h.unfolds.root_isQuad]
      exact Q.reach_count_le_ids _ _ _
    have := session_main (get := QTrav.ray) (set := QTrav.setRay) (client := client) d
      (fun t h r => quadStep_fused t h r) (fun _ _ _ => rfl) calls d _ hg
    simp only [← qdrive_gdrive] at this
    exact this
  · intro client pk
    have hg : GoodAt (fun t => (quadStep q.mNodes q.primIndices some quadHit4 t).toRound) QTrav.ray QTrav.setRay
        fuel (qtravNew q.mNodes quadHit4 pk) := by
      intro cb
      rw [← qdrive_gdrive]
      change (q.forIndicesPacket cb fuel pk).items.Nodup ∧ _
      refine ⟨?_, hs2 cb pk⟩
      rw [hr2, List.nodup_iff_count_le_one]
      intro p
      refine Nat.le_trans (Nat.le_trans (Q.visit_count_le (Inv := fun _ => True) (fun _ _ _ => trivial)
        (pass := fun _ => true) quadHit4_perm (fun _ _ _ _ _ => rfl) p _ trivial) ?_) (List.nodup_iff_count_le_one.1 hids p)
      rw [Q.root_reach h.unfolds.root_isQuad]
      exact Q.reach_count_le_ids _ _ _
    have := session_main (get := QTrav.ray) (set := QTrav.setRay) (client := client) d
      (fun t h r => quadStep_fused t h r) (fun _ _ _ => rfl) calls d _ hg
    simp only [← qdrive_gdrive] at this
    exact this

/-- The client of primitives `client`, as a client of ids. -/
def onIds {σ : Type} (prims : List P) (client : D → σ → Option P → D × σ × Bool) (d : D) (r : σ) (o : Option Nat) :
    D × σ × Bool := client d r (o.bind fun id => prims[id]?)

/-- The session of a client of ids, with the primitives in the place of the ids. -/
def Session.withPrims {σ : Type} (prims : List P) (s : Session σ Nat D) : Session σ P D :=
  ⟨s.results.map fun p => (p.1.bind fun id => prims[id]?, p.2), s.ray, s.memory, s.ending⟩

/-- C94, the iterators over primitives: if the slice covers every stored id, a client gets, call by call, `primitives[id]`
for the ids that the same client would get from the iterator over ids; on every `Bvh` and `Mbvh`. -/
theorem C94_prims (b : Bvh F) (q : Mbvh F) (prims : List P) (hne : prims ≠ [])
    (hb : ∀ id ∈ b.indices, id < prims.length) (hq : ∀ id ∈ q.primIndices, id < prims.length) (fuel calls : Nat) (d : D) :
    (∀ client ray, b.clientPrims prims client fuel calls d ray =
      (b.clientIndices (onIds prims client) fuel calls d ray).withPrims prims) ∧
    (∀ client pk, b.clientPrimsPacket prims client fuel calls d pk =
      (b.clientIndicesPacket (onIds prims client) fuel calls d pk).withPrims prims) ∧
    (∀ client ray, q.clientPrims prims client fuel calls d ray =
      (q.clientIndices (onIds prims client) fuel calls d ray).withPrims prims) ∧
    (∀ client pk, q.clientPrimsPacket prims client fuel calls d pk =
      (q.clientIndicesPacket (onIds prims client) fuel calls d pk).withPrims prims) := by
  have e : prims.isEmpty = false := by cases prims with
    | nil => exact absurd rfl hne
    | cons => rfl
  have hs : ∀ id ∈ q.primIndices, ((fun id => prims[id]?) id).isSome = true := by
    intro id hid; simp [hq id hid]
  have h1 : ∀ {σ κ : Type} {hit : Aabb F → σ → Option κ} {closer : κ → κ → Bool} (t : Trav σ),
      ((bvhIndexStep b.nodes b.primIndices hit closer t).toRound).mapItems (fun id => prims[id]?) =
        some (bvhPrimStep b.nodes b.primIndices prims hit closer t).toRound := by
    intro σ κ hit closer t
    have := bvhPrimStep_sim (nodes := b.nodes) (hit := hit) (closer := closer) hb t
    change (bvhIndexStep b.nodes b.primIndices hit closer t).mapItems _ = _ at this
    cases e1 : bvhIndexStep b.nodes b.primIndices hit closer t with
    | done => rw [e1] at this; simp only [Step.mapItems, Option.some.injEq] at this; rw [show bvhPrimStep b.nodes b.primIndices prims hit closer t = .done from this.symm]; rfl
    | panic => rw [e1] at this; simp only [Step.mapItems, Option.some.injEq] at this; rw [show bvhPrimStep b.nodes b.primIndices prims hit closer t = .panic from this.symm]; rfl
    | cont t' => rw [e1] at this; simp only [Step.mapItems, Option.some.injEq] at this; rw [show bvhPrimStep b.nodes b.primIndices prims hit closer t = .cont t' from this.symm]; rfl
    | yield x t' =>
      rw [e1] at this
      simp only [Step.mapItems] at this
      cases fx : prims[x]? with
      | none => rw [fx] at this; simp at this
      | some y =>
        rw [fx] at this
        simp only [Option.map_some, Option.some.injEq] at this
        rw [show bvhPrimStep b.nodes b.primIndices prims hit closer t = .yield y t' from this.symm]
        simp [Step.toRound, Round.mapItems, fx]
  have h2 : ∀ {σ : Type} {hit : Vec4 (Aabb F) → σ → MbvhHit} (t : QTrav σ),
      ((quadStep q.mNodes q.primIndices some hit t).toRound).mapItems (fun id => prims[id]?) =
        some (quadStep q.mNodes q.primIndices (fun id => prims[id]?) hit t).toRound := by
    intro σ hit t
    have := quadStep_sim (nodes := q.mNodes) (hit := hit) hs t
    cases e1 : quadStep q.mNodes q.primIndices some hit t with
    | done => rw [e1] at this; simp only [QStep.mapItems, Option.some.injEq] at this; rw [← this]; rfl
    | panic => rw [e1] at this; simp only [QStep.mapItems, Option.some.injEq] at this; rw [← this]; rfl
    | cont t' => rw [e1] at this; simp only [QStep.mapItems, Option.some.injEq] at this; rw [← this]; rfl
    | yield x t' =>
      rw [e1] at this
      simp only [QStep.mapItems] at this
      cases fx : prims[x]? with
      | none => rw [fx] at this; simp at this
      | some y =>
        rw [fx] at this
        simp only [Option.map_some, Option.some.injEq] at this
        rw [← this]
        simp [QStep.toRound, Round.mapItems, fx]
  refine ⟨fun client ray => ?_, fun client pk => ?_, fun client ray => ?_, fun client pk => ?_⟩
  · unfold Bvh.clientPrims
    rw [e, Bool.or_false]
    exact session_sim h1 client fuel calls d _
  · unfold Bvh.clientPrimsPacket
    rw [e, Bool.or_false]
    exact session_sim h1 client fuel calls d _
  · exact session_sim h2 client fuel calls d _
  · exact session_sim h2 client fuel calls d _

/-! ### What the client that looks for the nearest hit gets -/

section generic
variable {σ τ ι : Type}

omit [FloatOps F] in
theorem session_more {round : τ → Round τ ι} {get : τ → σ} {set : σ → τ → τ} {client : D → σ → Option ι → D × σ × Bool}
    {fuel : Nat} : ∀ {calls : Nat} {d : D} {t : τ}, (session round get set client fuel calls d t).ending = .more →
      (session round get set client fuel calls d t).results.length = calls := by
  intro calls
  induction calls with
  | zero => intro d t _; rfl
  | succ c ih =>
    intro d t h
    simp only [session] at h ⊢
    cases e : callNext round fuel t with
    | panic => simp only [e] at h; cases h
    | running => simp only [e] at h; cases h
    | none t' =>
      simp only [e] at h ⊢
      cases e2 : client d (get t') none with
      | mk d' p =>
        obtain ⟨r', s⟩ := p
        cases s with
        | true => simp only [e2] at h; cases h
        | false =>
          simp only [e2] at h ⊢
          simp only [Session.cons, List.length_cons, ih h]
    | item x t' =>
      simp only [e] at h ⊢
      cases e2 : client d (get t') (some x) with
      | mk d' p =>
        obtain ⟨r', s⟩ := p
        cases s with
        | true => simp only [e2] at h; cases h
        | false =>
          simp only [e2] at h ⊢
          simp only [Session.cons, List.length_cons, ih h]

omit [FloatOps F] in
theorem likeALoop_none {client : D → σ → Option Nat → D × σ × Bool} {loop : (σ → Nat → σ × Bool) → Run σ Nat}
    {s : Session σ Nat D} (h : LikeALoop client loop s) (he : s.ending = .stopped ∨ s.ending = .more) {calls : Nat}
    (hm : s.ending = .more → s.results.length = calls) {ids : List Nat} (hc : ids.length < calls)
    (hl : ∀ cb : σ → Nat → σ × Bool, (∀ r x, ∃ d, cb r x = (client d r (some x)).2) →
      (loop cb).ending = .finished ∧ ∀ p, (loop cb).items.count p ≤ ids.count p) :
    ∃ (cb : σ → Nat → σ × Bool) (items : List Nat) (k : Nat),
      s.results.map Prod.fst = items.map some ++ List.replicate k none ∧ 0 < k ∧
      (∀ r x, ∃ d, cb r x = (client d r (some x)).2) ∧ items = (loop cb).items ∧
      s.results[items.length]? = some (none, (loop cb).ray) := by
  obtain ⟨items, k, cb, h1, h2, h3, h4, h5⟩ := h
  obtain ⟨g1, g2⟩ := hl cb h2
  have hk : 0 < k := by
    rcases Nat.eq_zero_or_pos k with hk | hk
    · exfalso
      rcases he with he | he
      · obtain ⟨_, b, _⟩ := h5 hk he
        rw [g1] at b
        cases b
      · have e1 := hm he
        have e2 := congrArg List.length h1
        simp only [hk, List.length_map, List.replicate_zero, List.append_nil] at e2
        have e3 := h3.length_le
        have e4 : (loop cb).items.length ≤ ids.length := (List.subperm_ext_iff.2 fun p _ => g2 p).length_le
        omega
    · exact hk
  obtain ⟨a, _, c⟩ := h4 hk
  exact ⟨cb, items, k, h1, hk, h2, a.symm, c⟩
end generic

/-- C94 for the nearest hit: a client that treats every primitive by a closest-hit test, whatever it remembers meanwhile,
gets its first `None` after at most as many calls as there are ids, and what it then finds in `ray.t` is the brute-force
nearest hit over all ids, with nothing else changed in the ray; on `Bvh` and `Mbvh`. -/
theorem C94_nearest (ray : Ray Rat) (hw : ray.WellFormed) (hnz : ray.direction.NonZero) (hits : Nat → Rat → Prop)
    (boxes : Nat → Aabb Rat) (hhits : ∀ p s, hits p s → (boxes p).Has (ray.getPointAt s))
    (client : D → Ray Rat → Option Nat → D × Ray Rat × Bool)
    (hcl : ∀ (choice : Ray Rat → Nat → D), ClosestHit ray hits fun r p => (client (choice r p) r (some p)).2)
    (fuel calls : Nat) (d : D) :
    (∀ (b : Bvh Rat) (T : BTree Rat), b.Denotes T → T.depth ≤ 31 → (T.ids b.indices).Nodup → T.Bounds b.indices boxes →
      T.rounds < fuel → (T.ids b.indices).length < calls →
      let s := b.clientIndices client fuel calls d ray
      ∃ (items : List Nat) (k : Nat) (t : Rat), s.results.map Prod.fst = items.map some ++ List.replicate k none ∧
        items.length ≤ (T.ids b.indices).length ∧ s.results[items.length]? = some (none, { ray with t := t }) ∧
        IsNearest hits (T.ids b.indices) ray.tMin ray.t t) ∧
    (∀ (q : Mbvh Rat) (Q : QTree Rat), q.Denotes Q → Q.stackNeed ≤ 32 → (Q.ids q.primIndices).Nodup →
      Q.Bounds q.primIndices boxes → Q.rounds ≤ fuel → (Q.ids q.primIndices).length < calls →
      let s := q.clientIndices client fuel calls d ray
      ∃ (items : List Nat) (k : Nat) (t : Rat), s.results.map Prod.fst = items.map some ++ List.replicate k none ∧
        items.length ≤ (Q.ids q.primIndices).length ∧ s.results[items.length]? = some (none, { ray with t := t }) ∧
        IsNearest hits (Q.ids q.primIndices) ray.tMin ray.t t) := by
  have hcb : ∀ cb : Ray Rat → Nat → Ray Rat × Bool, (∀ r x, ∃ d, cb r x = (client d r (some x)).2) →
      ClosestHit ray hits cb := by
    intro cb h
    have := hcl fun r p => Classical.choose (h r p)
    rwa [show (fun r p => (client (Classical.choose (h r p)) r (some p)).2) = cb from
      funext fun r => funext fun p => (Classical.choose_spec (h r p)).symm] at this
  constructor
  · intro b T h hd hids hb hf hc s
    obtain ⟨he, hl⟩ := (C94_bvh_client b T h hd hids fuel hf calls d).1 client ray
    have hloop : ∀ cb : Ray Rat → Nat → Ray Rat × Bool, (∀ r x, ∃ d, cb r x = (client d r (some x)).2) →
        (b.forIndices cb fuel ray).ending = .finished ∧
        ∀ p, (b.forIndices cb fuel ray).items.count p ≤ (T.ids b.indices).count p := by
      intro cb h2
      have h3 := hcb cb h2
      obtain ⟨a, _, c⟩ := C20_ray_traversal_exact b T h hd ray rfl cb
        (fun r id => by obtain ⟨t, _, e⟩ := h3.1 r id; exact ⟨t, e⟩) fuel hf
      exact ⟨a, fun p => by rw [c.count_eq]; exact reach_count_le_ids _ _ _ _⟩
    obtain ⟨cb, items, k, h1, hk, h2, h3, h4⟩ := likeALoop_none hl he (fun e => session_more e) hc hloop
    obtain ⟨t, e, hn⟩ := C31_nearest_hit b T h hd boxes hb ray hw hnz hits hhits cb (hcb cb h2) fuel hf
    refine ⟨items, k, t, h1, ?_, ?_, hn⟩
    · rw [h3]
      exact (List.subperm_ext_iff.2 fun p _ => (hloop cb h2).2 p).length_le
    · rw [← e]; exact h4
  · intro q Q h hd hids hb hf hc s
    obtain ⟨he, hl⟩ := (C94_mbvh_client q Q h hd hids fuel hf calls d).1 client ray
    have hloop : ∀ cb : Ray Rat → Nat → Ray Rat × Bool, (∀ r x, ∃ d, cb r x = (client d r (some x)).2) →
        (q.forIndices cb fuel ray).ending = .finished ∧
        ∀ p, (q.forIndices cb fuel ray).items.count p ≤ (Q.ids q.primIndices).count p := by
      intro cb h2
      have h3 := hcb cb h2
      obtain ⟨a, _, c, _⟩ := C28_ray_offered q Q h hd ray cb
        (fun r id => by obtain ⟨t, hl, e⟩ := h3.1 r id; rw [e]; exact ⟨⟨⟨t, rfl⟩, .inr (rat_le.2 hl)⟩, rfl⟩) fuel hf
      exact ⟨a, c⟩
    obtain ⟨cb, items, k, h1, hk, h2, h3, h4⟩ := likeALoop_none hl he (fun e => session_more e) hc hloop
    obtain ⟨t, e, hn⟩ := C32_nearest_hit q Q h hd boxes hb ray hw hnz hits hhits cb (hcb cb h2) fuel hf
    refine ⟨items, k, t, h1, ?_, ?_, hn⟩
    · rw [h3]
      exact (List.subperm_ext_iff.2 fun p _ => (hloop cb h2).2 p).length_le
    · rw [← e]; exact h4

/-- A client that remembers how many primitives it has seen and which was the last that lowered `ray.t`, and goes on for
ever. -/
def bestClient (d : Nat × Option Nat) (r : Ray Rat) : Option Nat → (Nat × Option Nat) × Ray Rat × Bool
  | none => (d, r, false)
  | some p => ((d.1 + 1, if (distCb exDist r p).1.t < r.t then some p else d.2), distCb exDist r p)

/-- A client that changes its mind: it tests the first primitive only and lets go when it has heard `None` twice. -/
def moodyClient (d : Nat) (r : Ray Rat) : Option Nat → Nat × Ray Rat × Bool
  | none => (d + 1, { r with t := 7 }, decide (d ≥ 3))
  | some p => (d + 1, if d = 0 then (distCb exDist r p).1 else r, false)

-- the client lowers `ray.t` twice, and goes on after `None`
example : (exBvh.clientIndices bestClient 10 4 (0, none) exRay).results =
      [(some 0, exRay), (some 1, { exRay with t := 3 }), (none, { exRay with t := 1 }), (none, { exRay with t := 1 })] ∧
    (exBvh.clientIndices bestClient 10 4 (0, none) exRay).memory = (2, some 1) ∧
    (exBvh.clientIndices bestClient 10 4 (0, none) exRay).ending = .more := by decide +kernel

-- what this client does depends on its memory
example : (exBvh.clientIndices moodyClient 10 9 1 exRay).results = [(some 0, exRay), (some 1, exRay), (none, exRay)] ∧
    (exBvh.clientIndices moodyClient 10 9 1 exRay).ending = .stopped ∧
    (exBvh.clientIndices moodyClient 10 9 0 exRay).results =
      [(some 0, exRay), (some 1, { exRay with t := 3 }), (none, { exRay with t := 3 }), (none, { exRay with t := 7 })] := by
  decide +kernel

-- C94 applies to it
example : LikeALoop moodyClient (fun cb => exBvh.forIndices cb 10 exRay) (exBvh.clientIndices moodyClient 10 9 0 exRay) :=
  ((C94_bvh_client exBvh exTree ⟨unfold?_sound (fuel := 3) (by decide +kernel),
    by unfold exTree exBvh BTree.RangesIn BTree.RangesIn; decide⟩ (by decide) (by decide) 10 (by decide) 9 0).1
    moodyClient exRay).2

-- and to the same client of the quad iterator
example : ∃ (q : Mbvh Rat), Mbvh.construct 65 exBvh = some q ∧
    (q.clientIndices moodyClient 20 9 1 exRay).results.map Prod.fst = [some 1, some 0, none] ∧
    LikeALoop moodyClient (fun cb => q.forIndices cb 20 exRay) (q.clientIndices moodyClient 20 9 1 exRay) := by
  obtain ⟨q, e, hq, h1, h2, h3, h4⟩ := construct_main exBvh exTree exBvh_compact 65 (by decide)
  refine ⟨q, e, ?_, ((C94_mbvh_client q _ hq (by decide) (by rw [h2]; decide) 20 (by decide) 9 1).1 moodyClient exRay).2⟩
  have : ((Mbvh.construct 65 exBvh).map fun q => (q.clientIndices moodyClient 20 9 1 exRay).results.map Prod.fst) =
    some [some 1, some 0, none] := by decide +kernel
  rw [e] at this; exact Option.some.inj this

-- the hypotheses of C94_nearest
example : ∃ t, (none, { exRay with t := t }) ∈ (exBvh.clientIndices bestClient 10 4 (0, none) exRay).results ∧
    IsNearest (fun p s => exDist p = some s) (exTree.ids exBvh.indices) exRay.tMin exRay.t t := by
  obtain ⟨items, k, t, _, _, h, hn⟩ := (C94_nearest exRay (by decide +kernel) (by decide +kernel)
    (fun p s => exDist p = some s) exBoxes (fun p s h => by
      match p, h with
      | 0, h => have : s = 3 := by simp [exDist] at h; exact h.symm
                subst this; decide +kernel
      | 1, h => have : s = 1 := by simp [exDist] at h; exact h.symm
                subst this; decide +kernel)
    bestClient (fun _ => distCb_closest _ exDist) 10 4 (0, none)).1 exBvh exTree
    ⟨unfold?_sound (fuel := 3) (by decide +kernel), by unfold exTree exBvh BTree.RangesIn BTree.RangesIn; decide⟩
    (by decide) (by decide) (by refine ⟨by decide +kernel, ?_, ?_⟩ <;> (unfold BTree.Forall; decide +kernel)) (by decide)
    (by decide)
  exact ⟨t, List.mem_of_getElem? h, hn⟩

-- and of C94_prims
example : (exBvh.clientPrims ["a", "b"] (fun (d : List String) r o => (d ++ o.toList, r, false)) 10 4 [] exRay).memory =
    ["a", "b"] ∧ ∀ id ∈ exBvh.indices, id < ["a", "b"].length := by decide +kernel

end Rtbvh
