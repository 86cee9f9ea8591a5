import Verif.Proofs.LocbMerge
import Verif.Spec.Links
import Verif.Spec.Contain
import Mathlib.Algebra.BigOperators.Group.Finset.Basic
import Mathlib.Algebra.Order.BigOperators.Group.Finset
import Mathlib.Data.Multiset.Basic
import Mathlib.Algebra.Group.Action.Defs
/- One clustering round keeps the invariant: the active nodes are the roots of a forest over all primitives. -/
namespace Rtbvh
variable {F : Type}

/-- `nd` decodes to the tree `T`; all children are at `lo` or later. -/
inductive Dec (nodes : List (BvhNode F)) (lo n : Nat) : BvhNode F → BTree F → Prop
  | leaf {nd : BvhNode F} {f c : Nat} (hc : nd.bounds.extra1 = (c : Int)) (hf : nd.bounds.extra2 = (f : Int))
      (hr : f + c ≤ n) : Dec nodes lo n nd (.leaf nd.bounds.clean f c)
  | node {nd ndl ndr : BvhNode F} {left : Nat} {l r : BTree F} (hc : nd.bounds.extra1 < 0)
      (hl : nd.bounds.extra2 = (left : Int)) (hlo : lo ≤ left) (h1 : nodes[left]? = some ndl)
      (h2 : nodes[left + 1]? = some ndr) (dl : Dec nodes lo n ndl l) (dr : Dec nodes lo n ndr r) :
      Dec nodes lo n nd (.node nd.bounds.clean l r)

theorem Dec.mono {nodes nodes' : List (BvhNode F)} {lo lo' n : Nat} (h : ∀ x, lo ≤ x → nodes'[x]? = nodes[x]?)
    (hlo : lo' ≤ lo) {nd : BvhNode F} {T : BTree F} (d : Dec nodes lo n nd T) : Dec nodes' lo' n nd T := by
  induction d with
  | leaf hc hf hr => exact .leaf hc hf hr
  | node hc hl hl' h1 h2 _ _ i1 i2 =>
    exact .node hc hl (by omega) (by rw [h _ hl']; exact h1) (by rw [h _ (by omega)]; exact h2) i1 i2

theorem Dec.unfolds {nodes : List (BvhNode F)} {lo n : Nat} {nd : BvhNode F} {T : BTree F} (d : Dec nodes lo n nd T) :
    ∀ i, nodes[i]? = some nd → Unfolds nodes i T := by
  induction d with
  | leaf hc hf hr => exact fun i h => .leaf h hc hf
  | node hc hl hl' h1 h2 _ _ i1 i2 => exact fun i h => .node h hc hl (i1 _ h1) (i2 _ h2)

theorem Dec.ranges {nodes : List (BvhNode F)} {lo : Nat} {idx : List Nat} {nd : BvhNode F} {T : BTree F}
    (d : Dec nodes lo idx.length nd T) : T.RangesIn idx := by
  induction d with
  | leaf hc hf hr => exact hr
  | node _ _ _ _ _ _ _ i1 i2 => exact ⟨i1, i2⟩

theorem Dec.bounds {nodes : List (BvhNode F)} {lo n : Nat} {nd : BvhNode F} {T : BTree F} (d : Dec nodes lo n nd T) :
    T.bounds = nd.bounds.clean := by cases d <;> rfl

/-- A decoded node has its links in order. -/
theorem Dec.links {nodes : List (BvhNode F)} {lo n x : Nat} {nd : BvhNode F} {T : BTree F} (d : Dec nodes lo n nd T)
    (hx : x < lo) : nd.LinksOk nodes.length n x := by
  cases d with
  | leaf hc hf hr => exact ⟨fun _ => by omega, fun h => by omega⟩
  | node hc hl hl' h1 h2 _ _ =>
    have := (List.getElem?_eq_some_iff.1 h2).1
    exact ⟨fun h => by omega, fun _ => by omega⟩

/-- The trees the clustering builder makes: a leaf holds one primitive and its padded box, an interior node's box is the
union of its children's boxes. -/
def LocTree [FloatOps F] (sorted : List Nat) (boxes : List (Aabb F)) : BTree F → Prop
  | .leaf bd f c => c = 1 ∧ ∃ p bb, sorted[f]? = some p ∧ boxes[p]? = some bb ∧
      bd = (bb.offsetBy (FloatOps.lit 1 (-4))).clean
  | .node bd l r => bd = r.bounds.unionOf l.bounds ∧ LocTree sorted boxes l ∧ LocTree sorted boxes r

section sums
variable {M : Type} [AddCommMonoid M]

/-- Indices without `G`, in order. -/
def unflagged (G : Nat → Bool) (c : Nat) : List Nat := (List.range c).filter fun k => !G k

theorem unflagged_length (G : Nat → Bool) (c : Nat) : (unflagged G c).length = c - cnt G c := by
  induction c with
  | zero => simp [unflagged, cnt]
  | succ c ih =>
    have := cnt_le G c
    unfold unflagged at ih ⊢
    rw [List.range_succ, List.filter_append, List.length_append, ih, cnt]
    cases h : G c <;> simp [h] <;> omega

theorem unflagged_get (G : Nat → Bool) {c k : Nat} (hk : k < c) (h : G k = false) :
    (unflagged G c)[k - cnt G k]? = some k := by
  induction c with
  | zero => omega
  | succ c ih =>
    have hl := unflagged_length G c
    have := cnt_le G c
    unfold unflagged at ih hl ⊢
    rw [List.range_succ, List.filter_append]
    by_cases hkc : k < c
    · have := rank_lt h hkc
      rw [List.getElem?_append_left (by omega)]
      exact ih hkc
    · have : k = c := by omega
      subst this
      rw [List.getElem?_append_right (by omega), hl, Nat.sub_self]
      simp [h]

theorem unflagged_get_iff (G : Nat → Bool) {c p k : Nat} (h : (unflagged G c)[p]? = some k) :
    k < c ∧ G k = false ∧ p = k - cnt G k := by
  have hm := List.mem_of_getElem? h
  unfold unflagged at hm
  simp only [List.mem_filter, List.mem_range, Bool.not_eq_true', Bool.not_eq_eq_eq_not, Bool.not_true] at hm
  refine ⟨hm.1, hm.2, ?_⟩
  have h2 := unflagged_get G hm.1 hm.2
  have hnd : (unflagged G c).Nodup := List.nodup_range.filter _
  have l1 := (List.getElem?_eq_some_iff.1 h)
  have l2 := (List.getElem?_eq_some_iff.1 h2)
  obtain ⟨a1, b1⟩ := l1
  obtain ⟨a2, b2⟩ := l2
  exact (hnd.getElem_inj_iff).1 (b1.trans b2.symm)

/-- Merging pairs changes a sum over all clusters only by the contribution of the new nodes. -/
theorem sum_merge {c : Nat} {N : Nat → Nat} (hN : Partners c N) (φ : Nat → M) (x : M) (ψ : Nat → M)
    (h1 : ∀ k < c, N (N k) ≠ k → ψ k = φ k)
    (h2 : ∀ k < c, N (N k) = k → N k < k → ψ k = φ (N k) + φ k + x) :
    ((unflagged (flag N) c).map ψ).sum = ∑ k ∈ Finset.range c, φ k + cnt (flag N) c • x := by
  have e1 : ((unflagged (flag N) c).map ψ).sum = ∑ k ∈ (Finset.range c).filter (fun k => flag N k = false), ψ k := by
    rw [← Multiset.sum_coe, ← Multiset.map_coe]
    unfold unflagged Finset.sum
    congr 2
    rw [Finset.filter_val, Finset.range_val, Multiset.range, Multiset.filter_coe]
    congr 2
    funext k
    cases flag N k <;> simp
  rw [e1, cnt_card, ← Finset.sum_filter_add_sum_filter_not (Finset.range c) (fun k => flag N k = false) φ]
  -- pairs: flagged ones sit at the partners of unflagged ones
  have e2 : ∀ k ∈ (Finset.range c).filter (fun k => flag N k = false),
      ψ k = φ k + if N (N k) = k then φ (N k) + x else 0 := by
    intro k hk
    rw [Finset.mem_filter, Finset.mem_range, flag_false] at hk
    by_cases h : N (N k) = k
    · rw [if_pos h, h2 k hk.1 h (by have := hN.ne k hk.1; omega)]
      rw [add_comm (φ (N k)) (φ k), add_assoc]
    · rw [if_neg h, add_zero, h1 k hk.1 h]
  rw [Finset.sum_congr rfl e2, Finset.sum_add_distrib, add_assoc]
  congr 1
  rw [← Finset.sum_filter, Finset.filter_filter]
  have e3 : (Finset.range c).filter (fun k => ¬ flag N k = false) = (Finset.range c).filter (fun k => flag N k = true) := by
    apply Finset.filter_congr; intro k _; simp
  rw [e3, ← Finset.sum_const, ← Finset.sum_add_distrib]
  apply Finset.sum_nbij' N N
  · intro k hk
    simp only [Finset.mem_filter, Finset.mem_range, flag_false] at hk ⊢
    refine ⟨hN.lt k hk.1, flag_true.2 ⟨?_, by rw [hk.2.2]⟩⟩
    have := hN.ne k hk.1
    rw [hk.2.2]; omega
  · intro k hk
    simp only [Finset.mem_filter, Finset.mem_range] at hk ⊢
    have := flag_true.1 hk.2
    exact ⟨hN.lt k hk.1, flag_partner hk.2, by rw [this.2]⟩
  · intro k hk
    simp only [Finset.mem_filter, Finset.mem_range] at hk
    exact hk.2.2
  · intro k hk
    simp only [Finset.mem_filter, Finset.mem_range] at hk
    exact (flag_true.1 hk.2).2
  · intro k hk; rfl

theorem sum_range_get (l : List Nat) (g : Nat → M) (d : Nat) :
    ∑ p ∈ Finset.range l.length, g (l.getD p d) = (l.map g).sum := by
  rw [← Multiset.sum_coe]
  unfold Finset.sum
  rw [Finset.range_val, Multiset.range, Multiset.map_coe]
  congr 2
  apply List.ext_getElem
  · simp
  · intro i h1 h2
    simp at h1 ⊢
    simp [h1]

end sums

section
variable [FloatOps F]

/-- The state of the clustering loop between two rounds. -/
structure LocInv (n : Nat) (sorted : List Nat) (boxes : List (Aabb F)) (nodes copy : List (BvhNode F)) (aux : List Nat)
    (b e pe : Nat) (tr : Nat → BTree F) : Prop where
  lenN : nodes.length = 2 * n - 1
  lenC : copy.length = 2 * n - 1
  lenA : aux.length = (2 * n - 1) * 3
  count : e = b + (b + 1)
  le : e ≤ pe
  peLe : pe ≤ 2 * n - 1
  agree : ∀ x, pe ≤ x → nodes[x]? = copy[x]?
  dec : ∀ k ≤ b, ∃ nd, nodes[b + k]? = some nd ∧ Dec nodes e n nd (tr k)
  loc : ∀ k ≤ b, LocTree sorted boxes (tr k)
  size : ∑ k ∈ Finset.range (b + 1), (tr k).size + b = 2 * n - 1
  ranges : ∑ k ∈ Finset.range (b + 1), ((tr k).ranges : Multiset (Nat × Nat)) = ((List.range n).map fun i => (i, 1))
  links : ∀ x nd, e ≤ x → nodes[x]? = some nd → nd.LinksOk (2 * n - 1) n x

/-- Number of merged pairs of a round. -/
def pairsOf (r : Nat) (nodes : List (BvhNode F)) (b e : Nat) : Nat :=
  cnt (flag fun k => nbOf r nodes b e (b + k) - b) (e - b)

/-- Every cluster has found a neighbour. -/
def AllFound (r : Nat) (nodes : List (BvhNode F)) (b e : Nat) : Prop :=
  ∀ i, b ≤ i → i < e → b ≤ nbOf r nodes b e i ∧ nbOf r nodes b e i < e ∧ nbOf r nodes b e i ≠ i

/-- The tree in the place of cluster `k` after a round, `N` being the neighbours. -/
def nextTree (N : Nat → Nat) (tr : Nat → BTree F) (k : Nat) : BTree F :=
  if N (N k) = k then .node ((tr k).bounds.unionOf (tr (N k)).bounds) (tr (N k)) (tr k) else tr k

/-- The trees after a round of `c` clusters. -/
def nextTrees (N : Nat → Nat) (c : Nat) (tr : Nat → BTree F) (p : Nat) : BTree F :=
  nextTree N tr ((unflagged (flag N) c).getD p 0)

theorem round_spec {n : Nat} {sorted : List Nat} {boxes : List (Aabb F)} {nodes copy : List (BvhNode F)}
    {aux : List Nat} {b e pe : Nat} {tr : Nat → BTree F} (I : LocInv n sorted boxes nodes copy aux b e pe tr)
    (hn : n ≤ 2 ^ 30) (r t : Nat) (ht : 0 < t) (hb : 0 < b) (hnb : AllFound r nodes b e) :
    ∃ out aux', locbCluster r t (2 * n - 1) nodes copy aux b e pe =
        some (out, aux', b - pairsOf r nodes b e, e - 2 * pairsOf r nodes b e) ∧
      pairsOf r nodes b e ≤ b ∧
      LocInv n sorted boxes out nodes aux' (b - pairsOf r nodes b e) (e - 2 * pairsOf r nodes b e) e
        (nextTrees (fun k => nbOf r nodes b e (b + k) - b) (e - b) tr) := by
  have hcnt := I.count
  have hle := I.le
  have hpe := I.peLe
  generalize hN' : (fun k => nbOf r nodes b e (b + k) - b) = N
  have hN'' : ∀ k, N k = nbOf r nodes b e (b + k) - b := fun k => by rw [← hN']
  have hN : Partners (e - b) N := by
    constructor
    · intro k hk
      have := hnb (b + k) (by omega) (by omega)
      rw [hN'' k]; omega
    · intro k hk
      have := hnb (b + k) (by omega) (by omega)
      rw [hN'' k]; omega
  have hM : pairsOf r nodes b e = cnt (flag N) (e - b) := by unfold pairsOf; rw [hN']
  have h2M := two_cnt_le hN
  rw [hM]
  generalize hMg : cnt (flag N) (e - b) = m at *
  have hA := I.lenA
  -- search
  have s1 := searchAll_spec r t ht nodes b e (by omega) (by rw [I.lenN]; omega) aux (by rw [I.lenA]; omega)
  have hl1 : (auxAt r nodes b e aux e).length = aux.length := by simp [auxAt]
  have hnb1 : HasNb (auxAt r nodes b e aux e) b (e - b) N := by
    intro k hk
    have := hnb (b + k) (by omega) (by omega)
    unfold auxAt
    rw [List.getElem?_mapIdx, List.getElem?_eq_getElem (by rw [hA]; omega), Option.map_some, if_pos (by omega), hN'' k]
    congr 1; omega
  obtain ⟨a2, s2, hl2, hnb2, hf2⟩ := markMerged_spec (nc := 2 * n - 1) hN hnb1 (e := e) (by omega) (by omega)
    (by rw [hl1, hA]; omega)
  obtain ⟨a3, s3, hl3, hnb3, hf3⟩ := sumMerged_spec (nc := 2 * n - 1) (flag N) hnb2 (e := e) (by omega) (by omega)
    (by omega) (by rw [hl2, hl1, hA]; omega) hf2
  have hlast : a3[2 * n - 1 + (e - 1)]? = some m := by
    have := hf3 (e - b - 1) (by omega)
    rw [show e - b - 1 + 1 = e - b by omega, hMg] at this
    rw [← this]; congr 1; omega
  -- cluster nodes
  obtain ⟨cl, hcl, hdec⟩ : ∃ cl : Nat → BvhNode F, (∀ k < e - b, nodes[b + k]? = some (cl k)) ∧
      ∀ k < e - b, Dec nodes e n (cl k) (tr k) := by
    refine ⟨fun k => (nodes[b + k]?).getD BvhNode.new, ?_, ?_⟩
    · intro k hk
      obtain ⟨nd, h1, _⟩ := I.dec k (by omega)
      simp only [h1, Option.getD_some]
    · intro k hk
      obtain ⟨nd, h1, h2⟩ := I.dec k (by omega)
      simp only [h1, Option.getD_some]; exact h2
  obtain ⟨o1, s4, hol, hox, hopair, hosing⟩ := merge_spec (nc := 2 * n - 1) hN (output := copy) (ub := b - m)
    (chb := e - 2 * m) hnb3 hf3 hcl (e := e) (by rw [hMg]; omega) (by rw [hMg]; omega) (by omega) I.lenC (by omega)
    (by omega)
  obtain ⟨o2, s5, ho2l, ho2⟩ := copy_spec (nc := 2 * n - 1) hle I.lenN hol hpe
  refine ⟨o2, a3, ?_, by omega, ?_⟩
  · unfold locbCluster
    rw [s1]; simp only [Option.bind_some]
    rw [s2]; simp only [Option.bind_some]
    rw [s3]; simp only [Option.bind_some, hlast]
    rw [csub_eq (by omega), csub_eq (by omega)]
    simp only [Option.bind_some]
    rw [csub_eq (by omega)]
    simp only [Option.bind_some]
    rw [show m * 2 = 2 * m by omega, show e - (2 * m + (e - b - m)) = b - m by omega, s4]
    simp only [Option.bind_some]
    rw [s5]; rfl
  · -- the new array behind `e` is the old one
    have hhigh : ∀ x, e ≤ x → o2[x]? = nodes[x]? := by
      intro x hx
      rw [ho2]
      by_cases h : x < pe
      · rw [if_pos ⟨hx, h⟩]
      · rw [if_neg (by omega), hox x hx]
        exact (I.agree x (by omega)).symm
    have hlow : ∀ x, x < e → o2[x]? = o1[x]? := by
      intro x hx
      rw [ho2, if_neg (by omega)]
    have posU : ∀ k < e - b, flag N k = false → b - m + (k - cnt (flag N) k) < e - 2 * m := by
      intro k hk hf
      have := rank_lt hf hk
      omega
    have posC : ∀ k < e - b, flag N k = true → e - 2 * m + 2 * cnt (flag N) k + 1 < e := by
      intro k hk hf
      have := cnt_lt hf hk; omega
    -- every merged child slot is the child of some pair
    have hslot : ∀ q, q < m → ∃ k < e - b, flag N k = true ∧ cnt (flag N) k = q := by
      have : ∀ c q, q < cnt (flag N) c → ∃ k < c, flag N k = true ∧ cnt (flag N) k = q := by
        intro c
        induction c with
        | zero => intro q hq; simp [cnt] at hq
        | succ c ih =>
          intro q hq
          by_cases h : q < cnt (flag N) c
          · obtain ⟨k, h1, h2⟩ := ih q h
            exact ⟨k, by omega, h2⟩
          · cases hf : flag N c with
            | true => rw [cnt_succ_true hf] at hq; exact ⟨c, by omega, hf, by omega⟩
            | false => rw [cnt_succ_false hf] at hq; exact absurd hq h
      intro q hq
      exact this (e - b) q (by rw [hMg]; exact hq)
    let f : Nat → BTree F := nextTree N tr
    let L := unflagged (flag N) (e - b)
    have hLl : L.length = b - m + 1 := by
      show (unflagged (flag N) (e - b)).length = _
      rw [unflagged_length, hMg]; omega
    have hget : ∀ p ≤ b - m, ∃ k, L[p]? = some k ∧ L.getD p 0 = k ∧ k < e - b ∧ flag N k = false ∧
        p = k - cnt (flag N) k := by
      intro p hp
      have hpl : p < L.length := by omega
      have e1 : L[p]? = some L[p] := List.getElem?_eq_getElem hpl
      obtain ⟨h1, h2, h3⟩ := unflagged_get_iff (flag N) e1
      exact ⟨L[p], e1, by simp [List.getD, e1], h1, h2, h3⟩
    have hdecO : ∀ k < e - b, Dec o2 (e - 2 * m) n (cl k) (tr k) := fun k hk => (hdec k hk).mono hhigh (by omega)
    show LocInv n sorted boxes o2 nodes a3 (b - m) (e - 2 * m) e (fun p => f (L.getD p 0))
    have sums : ∀ {A : Type} [AddCommMonoid A] (φ : BTree F → A) (x : A)
        (hφ : ∀ bd l r, φ (.node bd l r) = φ l + φ r + x),
        ∑ p ∈ Finset.range (b - m + 1), φ (f (L.getD p 0)) = ∑ k ∈ Finset.range (b + 1), φ (tr k) + m • x := by
      intro A _ φ x hφ
      rw [← hLl, sum_range_get L (fun k => φ (f k)) 0, ← hMg, show b + 1 = e - b by omega]
      apply sum_merge hN (fun k => φ (tr k)) x
      · intro k hk h; simp only [f, nextTree]; rw [if_neg h]
      · intro k hk h _; simp only [f, nextTree]; rw [if_pos h, hφ]
    constructor
    · exact ho2l
    · exact I.lenN
    · rw [hl3, hl2, hl1, hA]
    · omega
    · omega
    · omega
    · exact hhigh
    · intro p hp
      obtain ⟨k, _, hk0, hk1, hk2, hk3⟩ := hget p hp
      simp only [hk0]
      have hpu := posU k hk1 hk2
      rw [← hk3] at hpu
      rw [hlow _ (by omega)]
      by_cases hm : N (N k) = k
      · have hlt : N k < k := by
          have h1 := flag_false.1 hk2
          have h2 := hN.ne k hk1
          omega
        have hfl : flag N (N k) = true := flag_true.2 ⟨by rw [hm]; exact hlt, by rw [hm]⟩
        have hNk := hN.lt k hk1
        have hNlt : N k < e - b := hNk
        obtain ⟨q1, q2, q3⟩ := hopair (N k) hNk hfl
        rw [hm] at q1 q3
        rw [← hk3] at q1
        refine ⟨parentOf cl N (e - 2 * m) k, q1, ?_⟩
        have hc := posC (N k) hNk hfl
        have hd : Dec o2 (e - 2 * m) n (parentOf cl N (e - 2 * m) k)
            (.node (parentOf cl N (e - 2 * m) k).bounds.clean (tr (N k)) (tr k)) :=
          .node (left := e - 2 * m + 2 * cnt (flag N) (N k)) (by show (-1 : Int) < 0; omega) rfl (by omega)
            (by rw [hlow _ (by omega)]; exact q2) (by rw [hlow _ (by omega)]; exact q3) (hdecO _ hNk) (hdecO _ hk1)
        have : f k = .node (parentOf cl N (e - 2 * m) k).bounds.clean (tr (N k)) (tr k) := by
          simp only [f, nextTree]; rw [if_pos hm, (hdec _ hk1).bounds, (hdec _ hNk).bounds]; rfl
        rw [this]; exact hd
      · refine ⟨cl k, ?_, ?_⟩
        · have := hosing k hk1 hm
          rw [← hk3] at this; exact this
        · have : f k = tr k := by simp only [f, nextTree]; rw [if_neg hm]
          rw [this]; exact hdecO _ hk1
    · intro p hp
      obtain ⟨k, _, hk0, hk1, hk2, hk3⟩ := hget p hp
      simp only [hk0]
      by_cases hm : N (N k) = k
      · have hNk := hN.lt k hk1
        have : f k = .node ((tr k).bounds.unionOf (tr (N k)).bounds) (tr (N k)) (tr k) := by
          simp only [f, nextTree]; rw [if_pos hm]
        rw [this]
        exact ⟨rfl, I.loc _ (by omega), I.loc _ (by omega)⟩
      · have : f k = tr k := by simp only [f, nextTree]; rw [if_neg hm]
        rw [this]; exact I.loc _ (by omega)
    · rw [sums BTree.size 1 (fun _ _ _ => rfl)]
      have := I.size
      simp only [smul_eq_mul, Nat.mul_one]
      omega
    · rw [sums (fun T => (T.ranges : Multiset (Nat × Nat))) 0 (fun _ l r => by
        simp only [BTree.ranges, add_zero]; exact (Multiset.coe_add _ _).symm), I.ranges]
      simp
    · intro x nd hx hnd
      by_cases hxe : e ≤ x
      · rw [hhigh x hxe] at hnd
        exact I.links x nd hxe hnd
      · rw [hlow x (by omega)] at hnd
        obtain ⟨k, hk1, hk2, hk3⟩ := hslot ((x - (e - 2 * m)) / 2) (by omega)
        obtain ⟨_, q2, q3⟩ := hopair k hk1 hk2
        have hlen : o2.length = nodes.length := by rw [ho2l, I.lenN]
        have lk : ∀ j < e - b, (cl j).LinksOk (2 * n - 1) n x := by
          intro j hj
          have := (hdec j hj).links (x := x) (by omega)
          rwa [I.lenN] at this
        rw [hk3] at q2 q3
        by_cases hpar : (x - (e - 2 * m)) % 2 = 0
        · rw [show e - 2 * m + 2 * ((x - (e - 2 * m)) / 2) = x by omega, hnd] at q2
          cases q2; exact lk k hk1
        · rw [show e - 2 * m + 2 * ((x - (e - 2 * m)) / 2) + 1 = x by omega, hnd] at q3
          cases q3; exact lk (N k) (hN.lt k hk1)

end
end Rtbvh
