import Verif.Props.Validate
import Verif.Model.Ffi
import Verif.Proofs.Merge
/- C103: what can be done with a structure after `refit`. -/
namespace Rtbvh
open FloatOps

/-- A loop over a structure that handed out nothing: it ended, and left the ray (or packet) as it was. -/
def Nothing {σ ι : Type} (ray : σ) (run : Run σ ι) : Prop := run = ⟨[], ray, .finished⟩

/-- A call of a C query function that called nothing back. -/
def Silent {T D : Type} (t : T) (d : D) (out : FfiOut T D) : Prop :=
  out.calls = [] ∧ out.t = t ∧ out.data = d ∧ out.ending = .finished

section
variable {F σ ι τ : Type}

/-- Both link fields of every node are zero. -/
def Wiped (nodes : List (BvhNode F)) : Prop := ∀ nd ∈ nodes, nd.bounds.extra1 = 0 ∧ nd.bounds.extra2 = 0

/-- No slot of the quad node leads anywhere: it is an empty leaf or unused. -/
def Blank (m : MbvhNode F) : Prop := ∀ i, m.counts.get i = 0 ∨ m.counts.get i = -1 ∧ m.children.get i = -1

theorem refit_wiped [FloatOps F] {b b' : Bvh F} {bbs : List (Aabb F)} (h : b.refit bbs = some b') :
    Wiped b'.nodes ∧ b'.nodes.length = b.nodes.length ∧ b'.primIndices = b.primIndices := by
  unfold Bvh.refit at h
  rw [Option.map_eq_some_iff] at h
  obtain ⟨nodes', hl, rfl⟩ := h
  obtain ⟨hlen, hx⟩ := refitLoop_links _ _ _ hl
  refine ⟨fun nd hnd => ?_, hlen, rfl⟩
  obtain ⟨j, hj⟩ := List.mem_iff_getElem?.1 hnd
  have hlt := (List.getElem?_eq_some_iff.1 hj).1
  exact (hx j nd hj).1 (by rw [← hlen]; exact hlt)

theorem wiped_refits [FloatOps F] {idx : List Nat} {bbs : List (Aabb F)} : ∀ (i : Nat) (nodes : List (BvhNode F)), i ≤ nodes.length →
    (∀ j nd, j < i → nodes[j]? = some nd → nd.bounds.extra1 = 0 ∧ nd.bounds.extra2 = 0) →
    ∃ nodes', refitLoop idx bbs i nodes = some nodes' := by
  intro i
  induction i with
  | zero => intro nodes _ _; exact ⟨nodes, rfl⟩
  | succ i ih =>
    intro nodes hi hw
    have hlt : i < nodes.length := hi
    obtain ⟨e1, e2⟩ := hw i nodes[i] (by omega) (List.getElem?_eq_getElem hlt)
    rw [refitLoop, List.getElem?_eq_getElem hlt]
    have hb : ∃ a, refitBox nodes idx bbs nodes[i] = some a := by
      unfold refitBox
      simp [BvhNode.getLeftFirst, BvhNode.isLeaf, BvhNode.countU, e1, e2, refitLeaf]
    obtain ⟨a, ha⟩ := hb
    simp only [ha]
    refine ih _ (by rw [List.length_set]; omega) fun j nd hj hnd => hw j nd (by omega) ?_
    rwa [List.getElem?_set_ne (by omega)] at hnd

theorem wiped_drive {nodes : List (BvhNode F)} (hw : Wiped nodes) {idx : List Nat} {hit : Aabb F → σ → Option τ}
    {closer : τ → τ → Bool} (cb : σ → Nat → σ × Bool) (e : Bool) (he : nodes = [] → e = true) (ray : σ) (fuel : Nat)
    (hf : 1 < fuel) : drive (bvhIndexStep nodes idx hit closer) cb fuel (travNew e ray) = ⟨[], ray, .finished⟩ := by
  obtain ⟨n, rfl⟩ : ∃ n, fuel = n + 1 + 1 := ⟨fuel - 2, by omega⟩
  cases e with
  | true => rfl
  | false =>
    cases nodes with
    | nil => exact absurd (he rfl) (by decide)
    | cons nd rest =>
      obtain ⟨e1, e2⟩ := hw nd (List.mem_cons_self ..)
      simp [travNew, drive, bvhIndexStep, atI32, BvhNode.countU, e1]

theorem wiped_drivePrims {P : Type} {nodes : List (BvhNode F)} (hw : Wiped nodes) {idx : List Nat} {prims : List P}
    {hit : Aabb F → σ → Option τ} {closer : τ → τ → Bool} (cb : σ → P → σ × Bool) (e : Bool) (he : nodes = [] → e = true)
    (ray : σ) (fuel : Nat) (hf : 1 < fuel) :
    drive (bvhPrimStep nodes idx prims hit closer) cb fuel (travNew e ray) = ⟨[], ray, .finished⟩ := by
  obtain ⟨n, rfl⟩ : ∃ n, fuel = n + 1 + 1 := ⟨fuel - 2, by omega⟩
  cases e with
  | true => rfl
  | false =>
    cases nodes with
    | nil => exact absurd (he rfl) (by decide)
    | cons nd rest =>
      obtain ⟨e1, e2⟩ := hw nd (List.mem_cons_self ..)
      simp [travNew, drive, bvhPrimStep, atI32, BvhNode.countU, e1]

theorem blank_drive {nodes : List (MbvhNode F)} (hb : ∀ m, nodes[0]? = some m → Blank m) {idx : List Nat}
    {item : Nat → Option ι} {hit : Vec4 (Aabb F) → σ → MbvhHit} (cb : σ → ι → σ × Bool) (ray : σ) (fuel : Nat)
    (hf : 4 < fuel) : qdrive (quadStep nodes idx item hit) cb fuel (qtravNew nodes hit ray) = ⟨[], ray, .finished⟩ := by
  have key : ∀ (k : Nat) (t : QTrav σ) (fuel : Nat), t.i + k = 4 → t.stack = [] → t.j = 0 → t.current = 0 →
      (nodes = [] → t.hit = MbvhHit.default) → k < fuel →
      qdrive (quadStep nodes idx item hit) cb fuel t = ⟨[], t.ray, .finished⟩ := by
    intro k
    induction k with
    | zero =>
      intro t fuel hi hs _ _ _ hf
      obtain ⟨n, rfl⟩ : ∃ n, fuel = n + 1 := ⟨fuel - 1, by omega⟩
      have : t.i ≥ 4 := by omega
      simp [qdrive, quadStep, this, hs]
    | succ k ih =>
      intro t fuel hi hs hj hc hd hf
      obtain ⟨n, rfl⟩ : ∃ n, fuel = n + 1 := ⟨fuel - 1, by omega⟩
      have hstep : quadStep nodes idx item hit t = .cont { t with i := t.i + 1 } := by
        unfold quadStep
        rw [if_neg (by omega)]
        dsimp only
        split
        · rename_i hr
          cases hn : nodes with
          | nil => rw [hd hn] at hr; simp [MbvhHit.default, Vec4.get_splat] at hr
          | cons m rest =>
            have hB := hb m (by rw [hn]; rfl) (t.hit.ids.get (Fin.ofNat 4 (3 - t.i)))
            rw [hc]
            simp only [atI32]
            rcases hB with h | ⟨h, h'⟩
            · simp [h, hj]
            · simp [h, h']
        · rfl
      rw [qdrive, hstep]
      exact ih { t with i := t.i + 1 } n (by show t.i + 1 + k = 4; omega) hs hj hc hd (by omega)
  exact key 4 (qtravNew nodes hit ray) fuel rfl rfl rfl rfl (fun h => by subst h; rfl) hf

end

variable {F : Type} [FloatOps F]

/-- A four-wide structure none of whose iterators hands out anything. -/
def Mbvh.Idle (q : Mbvh F) : Prop :=
  (∀ cb fuel ray, 4 < fuel → Nothing ray (q.forIndices cb fuel ray)) ∧
  (∀ cb fuel pk, 4 < fuel → Nothing pk (q.forIndicesPacket cb fuel pk)) ∧
  (∀ (P : Type) (prims : List P) cb fuel ray, 4 < fuel → Nothing ray (q.forPrims prims cb fuel ray)) ∧
  (∀ (P : Type) (prims : List P) cb fuel pk, 4 < fuel → Nothing pk (q.forPrimsPacket prims cb fuel pk)) ∧
  (∀ (D : Type) o r t (d : D) cb fuel, 4 < fuel → Silent t d (ffiIntersectMbvh q.mNodes q.primIndices o r t d cb fuel)) ∧
  (∀ (D : Type) ox oy oz dx dy dz t (d : D) cb fuel, 4 < fuel →
    Silent t d (ffiIntersectMbvhPacket q.mNodes q.primIndices ox oy oz dx dy dz t d cb fuel))

theorem idle_of_blank {q : Mbvh F} (hb : ∀ m, q.mNodes[0]? = some m → Blank m) : q.Idle := by
  refine ⟨fun cb fuel ray hf => blank_drive hb cb ray fuel hf, fun cb fuel ray hf => blank_drive hb cb ray fuel hf,
    fun P prims cb fuel ray hf => blank_drive hb cb ray fuel hf, fun P prims cb fuel ray hf => blank_drive hb cb ray fuel hf,
    fun D o r t d cb fuel hf => ?_, fun D ox oy oz dx dy dz t d cb fuel hf => ?_⟩
  · unfold ffiIntersectMbvh
    split
    · exact ⟨rfl, rfl, rfl, rfl⟩
    · dsimp only
      rw [blank_drive hb _ _ fuel hf]
      exact ⟨rfl, rfl, rfl, rfl⟩
  · unfold ffiIntersectMbvhPacket
    split
    · exact ⟨rfl, rfl, rfl, rfl⟩
    · dsimp only
      rw [blank_drive hb _ _ fuel hf]
      exact ⟨rfl, rfl, rfl, rfl⟩

theorem Blank.new : Blank (MbvhNode.new : MbvhNode F) := fun i => .inr ⟨Vec4.get_splat _ _, Vec4.get_splat _ _⟩

theorem Blank.bounds {m : MbvhNode F} (h : Blank m) (i : Fin 4) (a : Aabb F) : Blank (m.setBoundsBB i a) := h

/-- A slot made an empty leaf. -/
theorem Blank.slot {m : MbvhNode F} (h : Blank m) (i : Fin 4) (c : Int) : Blank ((m.setChild i c).setCount i 0) := by
  intro j
  show (m.counts.set i 0).get j = 0 ∨ (m.counts.set i 0).get j = -1 ∧ (m.children.set i c).get j = -1
  rw [Vec4.get_set, Vec4.get_set]
  by_cases e : j = i
  · rw [if_pos e]; exact .inl rfl
  · rw [if_neg e, if_neg e]; exact h j

/-- Converting wiped nodes: one quad node, blank. -/
theorem merge_wiped {nodes : List (BvhNode F)} (hw : Wiped nodes) (hne : nodes ≠ []) (fuel : Nat) (hf : 0 < fuel) :
    ∃ ms, mergeNodes nodes fuel 0 0 (List.replicate nodes.length MbvhNode.new, 1) = some (ms, 1) ∧
      ms.length = nodes.length ∧ ∀ m, ms[0]? = some m → Blank m := by
  obtain ⟨n, rfl⟩ : ∃ n, fuel = n + 1 := ⟨fuel - 1, by omega⟩
  cases nodes with
  | nil => exact absurd rfl hne
  | cons nd rest =>
    obtain ⟨e1, e2⟩ := hw nd (List.mem_cons_self ..)
    have g0 : ∀ m : MbvhNode F, gatherChild (nd :: rest) 0 0 1 m = some (m, (0, 0), (-1, -1)) := by
      intro m
      simp [gatherChild, BvhNode.getLeftFirst, BvhNode.isLeaf, BvhNode.countU, e1, e2, asU32, asI32]
    have g1 : ∀ m : MbvhNode F, gatherChild (nd :: rest) (0 + 1) 2 3 m = some (m, (0, 0), (-1, -1)) ∨
        gatherChild (nd :: rest) (0 + 1) 2 3 m = some (m, (-1, -1), (-1, -1)) := by
      intro m
      cases rest with
      | nil => exact .inr rfl
      | cons nd' rest' =>
        obtain ⟨e1', e2'⟩ := hw nd' (by simp)
        left
        simp [gatherChild, BvhNode.getLeftFirst, BvhNode.isLeaf, BvhNode.countU, e1', e2', asU32, asI32]
    have hlf : nd.getLeftFirst = some 0 := by simp [BvhNode.getLeftFirst, e2, asU32]
    rw [mergeNodes]
    simp only [List.length_cons, List.replicate_succ, List.getElem?_cons_zero, hlf, g0]
    rcases g1 (((((MbvhNode.new : MbvhNode F).setBoundsBB 0 nd.bounds).setBoundsBB 1 nd.bounds).setBoundsBB 2
      nd.bounds).setBoundsBB 3 nd.bounds) with g1 | g1
    · rw [g1]
      refine ⟨_, rfl, by simp, fun m hm => ?_⟩
      have := Option.some.inj hm
      rw [← this]
      exact (Blank.slot ((((Blank.new.bounds _ _).bounds _ _).bounds _ _).bounds _ _) _ _).slot _ _
    · rw [g1]
      refine ⟨_, rfl, by simp, fun m hm => ?_⟩
      have := Option.some.inj hm
      rw [← this]
      exact Blank.slot ((((Blank.new.bounds _ _).bounds _ _).bounds _ _).bounds _ _) _ _

theorem rawSlots_blank : ∀ (nodes : List (BvhNode F)) (i : Nat) (m : MbvhNode F), Wiped nodes → Blank m →
    Blank (rawSlots nodes i m)
  | [], _, _, _, h => h
  | nd :: l, i, m, hw, h => by
    rw [rawSlots]
    refine rawSlots_blank l (i + 1) _ (fun x hx => hw x (List.mem_cons_of_mem _ hx)) ?_
    rw [BvhNode.countU, (hw nd (List.mem_cons_self ..)).1]
    exact (h.bounds _ _).slot _ _

/-- C103: after `refit` has returned, whatever the structure was and whatever boxes it was given: `refit` with any number
of any boxes returns again; both conversions to a four-wide structure return; and no iterator and no C query function, over
the structure or over what is made from it, panics, fails to end, changes the ray or hands out anything.  (The reason is
`C19_refit_destroys`.) -/
theorem C103_refitted_safe (b b' : Bvh F) (bbs : List (Aabb F)) (h : b.refit bbs = some b') :
    (∀ bbs', ∃ b'', b'.refit bbs' = some b'') ∧
    (∀ cb fuel ray, 1 < fuel → Nothing ray (b'.forIndices cb fuel ray)) ∧
    (∀ cb fuel pk, 1 < fuel → Nothing pk (b'.forIndicesPacket cb fuel pk)) ∧
    (∀ (P : Type) (prims : List P) cb fuel ray, 1 < fuel → Nothing ray (b'.forPrims prims cb fuel ray)) ∧
    (∀ (P : Type) (prims : List P) cb fuel pk, 1 < fuel → Nothing pk (b'.forPrimsPacket prims cb fuel pk)) ∧
    (∀ (D : Type) o r t (d : D) cb fuel, 1 < fuel → Silent t d (ffiIntersect b'.nodes b'.primIndices o r t d cb fuel)) ∧
    (∀ (D : Type) ox oy oz dx dy dz t (d : D) cb fuel, 1 < fuel →
      Silent t d (ffiIntersectPacket b'.nodes b'.primIndices ox oy oz dx dy dz t d cb fuel)) ∧
    (∀ depth > 0, ∃ q, Mbvh.construct depth b' = some q ∧ q.Idle) ∧
    (∀ depth > 0, ∃ q, Mbvh.constructFromRaw depth b'.nodes b'.primIndices = some q ∧ q.Idle) := by
  obtain ⟨hw, hl, hi⟩ := refit_wiped h
  have he : ∀ x : Bool, b'.nodes = [] → (b'.nodes.isEmpty || x) = true := fun x hn => by rw [hn]; rfl
  refine ⟨fun bbs' => ?_, fun cb fuel ray hf => wiped_drive hw cb _ (he _) ray fuel hf,
    fun cb fuel ray hf => wiped_drive hw cb _ (he _) ray fuel hf,
    fun P prims cb fuel ray hf => wiped_drivePrims hw cb _ (fun hn => by rw [hn]; rfl) ray fuel hf,
    fun P prims cb fuel ray hf => wiped_drivePrims hw cb _ (fun hn => by rw [hn]; rfl) ray fuel hf,
    fun D o r t d cb fuel hf => ?_, fun D ox oy oz dx dy dz t d cb fuel hf => ?_, fun depth hd => ?_, fun depth hd => ?_⟩
  · obtain ⟨ns, e⟩ := wiped_refits (idx := b'.primIndices) (bbs := bbs') b'.nodes.length b'.nodes (Nat.le_refl _)
      (fun j nd _ hj => hw nd (List.mem_of_getElem? hj))
    exact ⟨_, by rw [Bvh.refit, e]; rfl⟩
  · unfold ffiIntersect
    split
    · exact ⟨rfl, rfl, rfl, rfl⟩
    · dsimp only
      rw [wiped_drive hw _ _ (he _) _ fuel hf]
      exact ⟨rfl, rfl, rfl, rfl⟩
  · unfold ffiIntersectPacket
    split
    · exact ⟨rfl, rfl, rfl, rfl⟩
    · dsimp only
      rw [wiped_drive hw _ _ (he _) _ fuel hf]
      exact ⟨rfl, rfl, rfl, rfl⟩
  · unfold Mbvh.construct
    by_cases hne : b'.nodes = []
    · rw [if_pos (by rw [hne]; rfl)]
      exact ⟨_, rfl, idle_of_blank fun m hm => by cases hm⟩
    · rw [if_neg (by simpa using hne)]
      obtain ⟨ms, e, hlen, hb⟩ := merge_wiped hw hne depth hd
      rw [e]
      refine ⟨_, rfl, idle_of_blank fun m hm => hb m ?_⟩
      cases ms with
      | nil => rw [List.length_nil] at hlen; exact absurd (List.length_eq_zero_iff.1 hlen.symm) hne
      | cons => exact hm
  · unfold Mbvh.constructFromRaw
    by_cases hne : b'.nodes = []
    · rw [if_pos (by rw [hne]; rfl)]
      exact ⟨_, rfl, idle_of_blank fun m hm => by cases hm⟩
    · rw [if_neg (by simpa using hne)]
      split
      · have hpos : 0 < b'.nodes.length := List.length_pos_iff.2 hne
        unfold modifyAt
        rw [List.getElem?_replicate, if_pos hpos]
        refine ⟨_, rfl, idle_of_blank fun m hm => ?_⟩
        have hm' : ((List.replicate b'.nodes.length (MbvhNode.new : MbvhNode F)).set 0
          (rawSlots b'.nodes 0 MbvhNode.new))[0]? = some m := hm
        rw [List.getElem?_set_self (by simpa using hpos)] at hm'
        rw [← Option.some.inj hm']
        exact rawSlots_blank _ _ _ hw Blank.new
      · obtain ⟨ms, e, hlen, hb⟩ := merge_wiped hw hne depth hd
        rw [e]
        exact ⟨_, rfl, idle_of_blank hb⟩

/-- A valid BVH (a chain of two inner nodes) that is refitted: the case is not vacuous, and the BVH did hand out something before. -/
example : ∃ b b' : Bvh Rat, ∃ bbs, b.validate 64 1 = some true ∧ b.nodes ≠ [] ∧ b.refit bbs = some b' ∧
    (b.forIndices (fun r _ => (r, false)) 10 (Ray.new ⟨1 / 2, 1 / 2, -1⟩ ⟨1 / 1000, 1 / 1000, 1⟩)).items ≠ [] := by
  have h2 : ((chainBvh 2).refit [Aabb.full]).isSome = true := by decide +kernel
  obtain ⟨b', hb⟩ := Option.isSome_iff_exists.1 h2
  exact ⟨chainBvh 2, b', _, by decide +kernel, by decide +kernel, hb, by decide +kernel⟩

end Rtbvh
