import Verif.Model.Layout
/- Property C85: memory layout and alignment. -/
namespace Rtbvh

/-! ### `repr(C)` in general -/

theorem roundUp_mod {n a : Nat} : roundUp n a % a = 0 := by unfold roundUp; exact Nat.mul_mod_left ..

theorem roundUp_le {n a : Nat} (ha : 0 < a) : n ≤ roundUp n a ∧ roundUp n a < n + a := by
  unfold roundUp
  have h1 := Nat.div_add_mod (n + a - 1) a
  have h2 := Nat.mod_lt (n + a - 1) ha
  rw [Nat.mul_comm] at h1
  omega

/-- Fields in order, each aligned, none overlapping the one before, from `n` to `e`. -/
inductive Placed : Nat → List Layout → List Nat → Nat → Prop
  | nil {n} : Placed n [] [] n
  | cons {n f fs o os e} : n ≤ o → o < n + f.align → o % f.align = 0 → Placed (o + f.size) fs os e →
      Placed n (f :: fs) (o :: os) e

/-- C85: the fields of every `repr(C)` struct are placed in order, aligned, without overlap, with less padding before a
field than its alignment; and the struct's size is a multiple of its alignment, so that in a slice all elements are
aligned if the first is. -/
theorem C85_repr_c (extra : Nat) (he : 0 < extra) (fs : List Layout) (hf : ∀ f ∈ fs, 0 < f.align) :
    Placed 0 fs (fieldOffsets 0 fs).1 (fieldOffsets 0 fs).2 ∧ (fieldOffsets 0 fs).2 ≤ (reprC extra fs).size ∧
    (reprC extra fs).size % (reprC extra fs).align = 0 ∧
    ∀ base i, base % (reprC extra fs).align = 0 → elemAddr (reprC extra fs) base i % (reprC extra fs).align = 0 := by
  have hplaced : ∀ (fs : List Layout) n, (∀ f ∈ fs, 0 < f.align) → Placed n fs (fieldOffsets n fs).1 (fieldOffsets n fs).2 := by
    intro fs
    induction fs with
    | nil => intro n _; exact .nil
    | cons f fs ih =>
      intro n h
      have := roundUp_le (n := n) (h f (by simp))
      exact .cons this.1 this.2 roundUp_mod (ih _ fun g hg => h g (List.mem_cons_of_mem _ hg))
  have hpos : ∀ (fs : List Layout) a, 0 < a → 0 < fs.foldl (fun a f => Max.max a f.align) a := by
    intro fs
    induction fs with
    | nil => intro a h; exact h
    | cons f fs ih => intro a h; exact ih _ (by simp only; omega)
  have hmod : (reprC extra fs).size % (reprC extra fs).align = 0 := by unfold reprC; exact roundUp_mod
  refine ⟨hplaced fs 0 hf, ?_, hmod, fun base i hb => ?_⟩
  · unfold reprC; exact (roundUp_le (hpos fs extra he)).1
  · unfold elemAddr
    rw [Nat.add_mod, hb, Nat.mul_mod, hmod]
    simp

/-- C85: the elements of a slice of `n` lie in its `n * size` bytes and do not overlap; and the six four-float loads from
each of `n` quad nodes stay in the bytes of that node. -/
theorem C85_in_slice (T : Layout) (base n i j : Nat) (hi : i < n) (hj : j < n) :
    base ≤ elemAddr T base i ∧ elemAddr T base i + T.size ≤ base + n * T.size ∧
    (i < j → elemAddr T base i + T.size ≤ elemAddr T base j) ∧
    ∀ a ∈ pointLoads base i, elemAddr mbvhNodeLayout base i ≤ a ∧
      a + 16 ≤ elemAddr mbvhNodeLayout base i + mbvhNodeLayout.size ∧ base ≤ a ∧ a + 16 ≤ base + n * mbvhNodeLayout.size := by
  have key : ∀ (s k m : Nat), k < m → k * s + s ≤ m * s := fun s k m h => by
    have := Nat.mul_le_mul_right s (Nat.succ_le_of_lt h); rw [Nat.succ_mul] at this; exact this
  refine ⟨by unfold elemAddr; omega, ?_, fun hij => ?_, fun a ha => ?_⟩
  · unfold elemAddr; have := key T.size i n hi; omega
  · unfold elemAddr; have := key T.size i j hij; omega
  · have hs : mbvhNodeLayout.size = 128 := by decide
    have ho : ((fieldOffsets 0 mbvhNodeFields).1.take 6) = [0, 16, 32, 48, 64, 80] := by decide
    have hk := key 128 i n hi
    unfold pointLoads at ha
    rw [ho] at ha
    unfold elemAddr at ha ⊢
    rw [hs] at ha ⊢
    simp only [List.map_cons, List.map_nil, List.mem_cons, List.not_mem_nil, or_false] at ha
    omega

example : pointLoads 1000 2 = [1256, 1272, 1288, 1304, 1320, 1336] := by decide

/-- Non-vacuity: a struct with padding inside and at the end. -/
example : (fieldOffsets 0 [⟨1, 1⟩, ⟨8, 8⟩, ⟨2, 2⟩]).1 = [0, 8, 16] ∧ reprC 1 [⟨1, 1⟩, ⟨8, 8⟩, ⟨2, 2⟩] = ⟨24, 8⟩ := by decide

/-! ### The types of the crate and of the C interface -/

/-- C85: a box, a node and a quad node have the same size and the same field offsets on both sides of the C interface, so
every word of the one is the same word of the other; every field is aligned to 4 bytes, and only the library's box and
node ask for 16. -/
theorem C85_same_layout :
    aabbLayout.size = rtAabbLayout.size ∧ (fieldOffsets 0 aabbFields).1 = (fieldOffsets 0 rtAabbFields).1 ∧
    bvhNodeLayout.size = rtBvhNodeLayout.size ∧ mbvhNodeLayout.size = rtMbvhNodeLayout.size ∧
    (fieldOffsets 0 mbvhNodeFields).1 = (fieldOffsets 0 rtMbvhNodeFields).1 ∧
    (fieldOffsets 0 aabbFields).1 = [0, 12, 16, 28] ∧ aabbLayout.size = 32 ∧
    (fieldOffsets 0 mbvhNodeFields).1 = [0, 16, 32, 48, 64, 80, 96, 112] ∧ mbvhNodeLayout.size = 128 ∧
    (∀ f ∈ aabbFields ++ rtAabbFields ++ mbvhNodeFields ++ rtMbvhNodeFields, f.align = 4) ∧
    aabbLayout.align = 16 ∧ bvhNodeLayout.align = 16 ∧ mbvhNodeLayout.align = 4 ∧
    rtAabbLayout.align = 4 ∧ rtBvhNodeLayout.align = 4 ∧ rtMbvhNodeLayout.align = 4 := by decide

/-- C85: pointers handed out by the library are aligned for the C types, wherever the allocator puts the vectors: a
`Vec<BvhNode>` is aligned for `BvhNode`, hence every element for `RTBvhNode`; the same for `MbvhNode`. -/
theorem C85_handles_aligned (base i : Nat) :
    (base % bvhNodeLayout.align = 0 → elemAddr bvhNodeLayout base i % rtBvhNodeLayout.align = 0) ∧
    (base % mbvhNodeLayout.align = 0 → elemAddr mbvhNodeLayout base i % rtMbvhNodeLayout.align = 0) := by
  have e1 : bvhNodeLayout = ⟨32, 16⟩ := by decide
  have e2 : rtBvhNodeLayout = ⟨32, 4⟩ := by decide
  have e3 : mbvhNodeLayout = ⟨128, 4⟩ := by decide
  have e4 : rtMbvhNodeLayout = ⟨128, 4⟩ := by decide
  simp only [e1, e2, e3, e4, elemAddr]
  omega

/-- C85 (partial): the SIMD loads of a quad node are aligned exactly if the nodes begin at a multiple of 16, and the
boxes a C caller passes may be read as `Aabb` exactly if they begin at a multiple of 16.  Missing: neither is implied by
the alignment of the types involved, see `C85_misaligned`. -/
theorem C85_aligned_partial (base : Nat) :
    (∀ i, (∀ a ∈ pointLoads base i, loadAligned a) ↔ base % 16 = 0) ∧
    (∀ n, 0 < n → (boxesAligned base n ↔ base % 16 = 0)) := by
  have e1 : aabbLayout = ⟨32, 16⟩ := by decide
  have e3 : mbvhNodeLayout = ⟨128, 4⟩ := by decide
  have e5 : (fieldOffsets 0 mbvhNodeFields).1.take 6 = [0, 16, 32, 48, 64, 80] := by decide
  constructor
  · intro i
    simp only [pointLoads, e5, e3, elemAddr, loadAligned, List.map_cons, List.map_nil, List.mem_cons, List.not_mem_nil,
      or_false, forall_eq_or_imp, forall_eq]
    omega
  · intro n hn
    simp only [boxesAligned, e1, elemAddr]
    constructor
    · intro h; have := h 0 hn; omega
    · intro h i _; omega

/-- C85 as stated is false: a `Vec<MbvhNode>` need only be aligned to 4 bytes, and then every load of every node faults;
and boxes aligned as `RTAabb` requires need not be aligned as `Aabb` requires. -/
theorem C85_misaligned : ∃ base, base % mbvhNodeLayout.align = 0 ∧ base % rtAabbLayout.align = 0 ∧
    (∀ i, ∀ a ∈ pointLoads base i, ¬ loadAligned a) ∧ ∀ n, 0 < n → ¬ boxesAligned base n := by
  have e1 : aabbLayout = ⟨32, 16⟩ := by decide
  have e3 : mbvhNodeLayout = ⟨128, 4⟩ := by decide
  have e5 : (fieldOffsets 0 mbvhNodeFields).1.take 6 = [0, 16, 32, 48, 64, 80] := by decide
  refine ⟨4, by decide, by decide, fun i a ha => ?_, fun n hn h => ?_⟩
  · simp only [pointLoads, e5, e3, elemAddr, List.map_cons, List.map_nil, List.mem_cons, List.not_mem_nil, or_false] at ha
    unfold loadAligned
    omega
  · have := h 0 hn
    simp only [e1, elemAddr] at this
    omega

end Rtbvh
