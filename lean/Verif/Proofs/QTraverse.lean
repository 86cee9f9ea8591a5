import Verif.Spec.Quad
import Verif.Proofs.Traverse
/- The stack machine of the quad iterators implements the recursive specification. -/
namespace Rtbvh
variable {F σ ι : Type}

/-- The items of a list of ids up to the first one without item. -/
def firstSome (item : Nat → Option ι) : List Nat → List ι
  | [] => []
  | x :: xs => match item x with | some y => y :: firstSome item xs | none => []

theorem firstSome_some (l : List Nat) : firstSome some l = l := by
  induction l with
  | nil => rfl
  | cons x xs ih => simp [firstSome, ih]

variable {nodes : List (MbvhNode F)} {indices : List Nat} {item : Nat → Option ι}
  {hit : Vec4 (Aabb F) → σ → MbvhHit} {cb : σ → ι → σ × Bool}

theorem qdrive_cont {step : QTrav σ → QStep σ ι} {fuel : Nat} {t t' : QTrav σ}
    (h : step t = .cont t') : qdrive step cb (fuel + 1) t = qdrive step cb fuel t' := by
  simp [qdrive, h]

/-- The slots of a hit in the order the iterator looks at them. -/
def MbvhHit.order (h : MbvhHit) : List (Fin 4) := [h.ids.get 3, h.ids.get 2, h.ids.get 1, h.ids.get 0]

/-- One leaf slot: from position `k` on. -/
theorem qdrive_leaf {h : MbvhHit} {cur : Int} {m : MbvhNode F} {i : Nat} {st : List Int} {f c : Nat}
    {s : Fin 4} (hi : i < 4) (hs : h.ids.get (Fin.ofNat 4 (3 - i)) = s) (hr : h.result.get s = true)
    (hm : atI32 nodes cur = some m) (hc : m.counts.get s = (c : Int)) (hf : m.children.get s = (f : Int))
    (hin : f + c ≤ indices.length) : ∀ (n k : Nat) (ray : σ), k + n = c → ∃ q, q ≤ n + 1 ∧ ∀ fuel,
      qdrive (quadStep nodes indices item hit) cb (q + fuel) ⟨ray, h, cur, i, k, st⟩ =
        (visitItems cb (firstSome item ((BTree.rangeIds indices f c).drop k)) ray).andThen
          (fun r => qdrive (quadStep nodes indices item hit) cb fuel ⟨r, h, cur, i + 1, 0, st⟩) := by
  have hlen : (BTree.rangeIds indices f c).length = c := by simp [BTree.rangeIds]; omega
  intro n
  induction n with
  | zero =>
    intro k ray hk
    obtain rfl : k = c := by omega
    refine ⟨1, by omega, fun fuel => ?_⟩
    have hstep : quadStep nodes indices item hit ⟨ray, h, cur, i, k, st⟩ = .cont ⟨ray, h, cur, i + 1, 0, st⟩ := by
      unfold quadStep
      simp only [ge_iff_le, Nat.not_le.2 hi, if_false, hs, hr, if_true, hm, hc]
      rw [if_pos (by omega), if_neg (by omega)]
    rw [Nat.add_comm, qdrive_cont hstep, List.drop_eq_nil_of_le (by omega)]
    simp [firstSome, visitItems, Run.andThen]
  | succ n ih =>
    intro k ray hk
    have hkl : k < (BTree.rangeIds indices f c).length := by omega
    rw [List.drop_eq_getElem_cons hkl]
    have hidx : atI32 indices ((f : Int) + (k : Nat)) = some (BTree.rangeIds indices f c)[k] := by
      rw [show ((f : Nat) : Int) + (k : Nat) = ((f + k : Nat) : Int) by omega, atI32_nat, ← List.getElem?_eq_getElem hkl]
      simp [BTree.rangeIds, show k < c by omega]
    generalize hid : (BTree.rangeIds indices f c)[k] = id at *
    cases hitem : item id with
    | none =>
      have hstep : quadStep nodes indices item hit ⟨ray, h, cur, i, k, st⟩ = .cont ⟨ray, h, cur, i + 1, 0, st⟩ := by
        unfold quadStep
        simp only [ge_iff_le, Nat.not_le.2 hi, if_false, hs, hr, if_true, hm, hc, hf, hidx, hitem]
        rw [if_pos (by omega), if_pos (by omega)]
      refine ⟨1, by omega, fun fuel => ?_⟩
      rw [Nat.add_comm, qdrive_cont hstep]
      simp [firstSome, hitem, visitItems, Run.andThen]
    | some x =>
      have hstep : quadStep nodes indices item hit ⟨ray, h, cur, i, k, st⟩ = .yield x ⟨ray, h, cur, i, k + 1, st⟩ := by
        unfold quadStep
        simp only [ge_iff_le, Nat.not_le.2 hi, if_false, hs, hr, if_true, hm, hc, hf, hidx, hitem]
        rw [if_pos (by omega), if_pos (by omega)]
      simp only [firstSome, hitem, visitItems]
      cases hcb : cb ray x with
      | mk ray' stop =>
        cases stop with
        | true =>
          refine ⟨1, by omega, fun fuel => ?_⟩
          rw [Nat.add_comm, qdrive, hstep]
          simp only [hcb]
          rw [Run.andThen_not (by simp)]
        | false =>
          obtain ⟨q, hq, hd⟩ := ih (k + 1) ray' (by omega)
          refine ⟨q + 1, by omega, fun fuel => ?_⟩
          rw [show q + 1 + fuel = (q + fuel) + 1 by omega, qdrive, hstep]
          simp only [hcb]
          rw [Run.cons_andThen, ← hd fuel]
          rfl

/-- Number of rounds spent on a slot besides descending. -/
def QTree.slotCost : QTree F → Nat
  | .leaf _ c => c + 1
  | _ => 1

/-- The stack after the slots `ss` have been looked at. -/
def pushAll (h : MbvhHit) (kid : Fin 4 → QTree F) (child : Fin 4 → Int) : List (Fin 4) → List Int → List Int
  | [], st => st
  | s :: ss, st => pushAll h kid child ss (if h.result.get s && (kid s).isQuad then child s :: st else st)

/-- The gate of `QTree.visit`. -/
def gateBy (h : MbvhHit) (k : Fin 4 → σ → Run σ ι) (i : Fin 4) (r : σ) : Run σ ι :=
  if h.result.get i then k i r else ⟨[], r, .finished⟩

variable {m : MbvhNode F} {kid : Fin 4 → QTree F} {items : Nat → Nat → List ι}

theorem qdrive_slot (hitems : ∀ f c, items f c = firstSome item (BTree.rangeIds indices f c)) {h : MbvhHit} {cur : Int}
    (hm : atI32 nodes cur = some m) {i : Nat} (hi : i < 4) {s : Fin 4} (hs : h.ids.get (Fin.ofNat 4 (3 - i)) = s)
    (hk : QSlot nodes (m.children.get s) (m.counts.get s) (kid s)) (hin : (kid s).RangesIn indices) (ray : σ)
    (st : List Int) (hroom : (h.result.get s && (kid s).isQuad) = true → st.length < 32) :
    ∃ q, q ≤ (kid s).slotCost ∧ ∀ fuel, qdrive (quadStep nodes indices item hit) cb (q + fuel) ⟨ray, h, cur, i, 0, st⟩ =
      (gateBy h (fun s => QTree.giveLeaf items cb (kid s)) s ray).andThen
        (fun r => qdrive (quadStep nodes indices item hit) cb fuel
          ⟨r, h, cur, i + 1, 0, if h.result.get s && (kid s).isQuad then m.children.get s :: st else st⟩) := by
  have one : 1 ≤ (kid s).slotCost := by unfold QTree.slotCost; split <;> omega
  cases hr : h.result.get s with
  | false =>
    refine ⟨1, one, fun fuel => ?_⟩
    have hstep : quadStep nodes indices item hit ⟨ray, h, cur, i, 0, st⟩ = .cont ⟨ray, h, cur, i + 1, 0, st⟩ := by
      unfold quadStep
      simp only [ge_iff_le, Nat.not_le.2 hi, if_false, hs, hr, Bool.false_eq_true]
    rw [Nat.add_comm, qdrive_cont hstep]
    simp [gateBy, hr, Run.andThen]
  | true =>
    simp only [gateBy, hr, if_true, Bool.true_and]
    rw [hr] at hroom
    generalize hkid : kid s = K at *
    generalize hch : m.children.get s = child at *
    generalize hco : m.counts.get s = count at *
    cases hk with
    | none hc hn =>
      refine ⟨1, one, fun fuel => ?_⟩
      have hstep : quadStep nodes indices item hit ⟨ray, h, cur, i, 0, st⟩ = .cont ⟨ray, h, cur, i + 1, 0, st⟩ := by
        unfold quadStep
        simp only [ge_iff_le, Nat.not_le.2 hi, if_false, hs, hr, if_true, hm, hch, hco]
        rw [if_neg (by omega), if_neg (by omega)]
      rw [Nat.add_comm, qdrive_cont hstep]
      simp [QTree.giveLeaf, QTree.isQuad, Run.andThen]
    | @leaf _ _ f c hc hf =>
      obtain ⟨q, hq, e⟩ := qdrive_leaf (item := item) (hit := hit) (cb := cb) (st := st) hi hs hr hm
        (hco.trans hc) (hch.trans hf) hin c 0 ray (by omega)
      refine ⟨q, by simpa [QTree.slotCost] using hq, fun fuel => ?_⟩
      have := e fuel
      simp only [Int.ofNat_zero, List.drop_zero] at this
      rw [this]
      simp [QTree.giveLeaf, QTree.isQuad, hitems]
    | @quad _ _ j m' c0 c1 c2 c3 hc hj hm' =>
      refine ⟨1, one, fun fuel => ?_⟩
      have hstep : quadStep nodes indices item hit ⟨ray, h, cur, i, 0, st⟩ =
          .cont ⟨ray, h, cur, i + 1, 0, child :: st⟩ := by
        unfold quadStep
        simp only [ge_iff_le, Nat.not_le.2 hi, if_false, hs, hr, if_true, hm, hch, hco]
        rw [if_neg (by omega), if_pos (by omega), push32, if_pos (hroom rfl)]
      rw [Nat.add_comm, qdrive_cont hstep]
      simp [QTree.giveLeaf, QTree.isQuad, Run.andThen]

/-- All slots of one node, starting at slot position `4 - ss.length`. -/
theorem qdrive_slots (hitems : ∀ f c, items f c = firstSome item (BTree.rangeIds indices f c)) {h : MbvhHit} {cur : Int}
    (hm : atI32 nodes cur = some m) (hk : ∀ s, QSlot nodes (m.children.get s) (m.counts.get s) (kid s))
    (hin : ∀ s, (kid s).RangesIn indices) : ∀ (ss : List (Fin 4)) (pre : List (Fin 4)) (ray : σ) (st : List Int),
    pre ++ ss = h.order → st.length + (ss.filter fun s => h.result.get s && (kid s).isQuad).length ≤ 32 →
    ∃ q, q ≤ (ss.map fun s => (kid s).slotCost).sum ∧ ∀ fuel,
      qdrive (quadStep nodes indices item hit) cb (q + fuel) ⟨ray, h, cur, pre.length, 0, st⟩ =
      (QTree.inOrder (gateBy h fun s => QTree.giveLeaf items cb (kid s)) ss ray).andThen
        (fun r => qdrive (quadStep nodes indices item hit) cb fuel
          ⟨r, h, cur, 4, 0, pushAll h kid m.children.get ss st⟩) := by
  intro ss
  induction ss with
  | nil =>
    intro pre ray st hpre _
    have : pre.length = 4 := by rw [List.append_nil] at hpre; rw [hpre]; rfl
    refine ⟨0, by simp, fun fuel => ?_⟩
    simp [QTree.inOrder, Run.andThen, pushAll, this]
  | cons s ss ih =>
    intro pre ray st hpre hroom
    have hlen : pre.length < 4 := by
      have := congrArg List.length hpre
      simp [MbvhHit.order] at this; omega
    have hs : h.ids.get (Fin.ofNat 4 (3 - pre.length)) = s := by
      have h1 : h.order[pre.length]? = some s := by rw [← hpre]; simp
      have : pre.length = 0 ∨ pre.length = 1 ∨ pre.length = 2 ∨ pre.length = 3 := by omega
      rcases this with e | e | e | e <;> rw [e] at h1 ⊢ <;> simpa [MbvhHit.order] using h1
    have hroom1 : (h.result.get s && (kid s).isQuad) = true → st.length < 32 := by
      intro hh; rw [List.filter_cons, if_pos hh] at hroom; simp at hroom; omega
    obtain ⟨q1, hq1, e1⟩ := qdrive_slot (cb := cb) (hit := hit) hitems hm hlen hs (hk s) (hin s) ray st hroom1
    generalize hst : (if h.result.get s && (kid s).isQuad then m.children.get s :: st else st) = st' at *
    have hroom2 : st'.length + (ss.filter fun s => h.result.get s && (kid s).isQuad).length ≤ 32 := by
      rw [List.filter_cons] at hroom
      by_cases hh : (h.result.get s && (kid s).isQuad) = true
      · rw [if_pos hh] at hroom hst; subst hst; simp at hroom ⊢; omega
      · rw [if_neg hh] at hroom hst; subst hst; exact hroom
    obtain ⟨q2, hq2, e2⟩ := ih (pre ++ [s]) (gateBy h (fun s => QTree.giveLeaf items cb (kid s)) s ray).ray st'
      (by simpa using hpre) hroom2
    refine ⟨q1 + q2, by simp only [List.map_cons, List.sum_cons]; omega, fun fuel => ?_⟩
    rw [show q1 + q2 + fuel = q1 + (q2 + fuel) by omega, e1, QTree.inOrder, Run.andThen_assoc]
    have hl : (pre ++ [s]).length = pre.length + 1 := by simp
    rw [hl] at e2
    have hp : pushAll h kid m.children.get (s :: ss) st = pushAll h kid m.children.get ss st' := by
      rw [pushAll, hst]
    rw [hp]
    by_cases hf : (gateBy h (fun s => QTree.giveLeaf items cb (kid s)) s ray).ending = .finished
    · rw [Run.andThen_finished hf, Run.andThen_finished hf, e2]
    · rw [Run.andThen_not hf, Run.andThen_not hf]

theorem pushAll_eq (h : MbvhHit) (kid : Fin 4 → QTree F) (child : Fin 4 → Int) (ss : List (Fin 4)) (st : List Int) :
    pushAll h kid child ss st =
      ((ss.reverse.filter fun s => h.result.get s && (kid s).isQuad).map child) ++ st := by
  induction ss generalizing st with
  | nil => rfl
  | cons s ss ih =>
    rw [pushAll, ih, List.reverse_cons, List.filter_append, List.map_append, List.append_assoc]
    congr 1
    by_cases hh : (h.result.get s && (kid s).isQuad) = true
    · rw [if_pos hh]; simp [hh]
    · rw [if_neg hh]; simp [hh]

/-- With all slots done, the last test result and node no longer matter. -/
theorem qdrive_pop (ray : σ) (h h' : MbvhHit) (cur cur' : Int) (st : List Int) (fuel : Nat) :
    qdrive (quadStep nodes indices item hit) cb fuel ⟨ray, h, cur, 4, 0, st⟩ =
      qdrive (quadStep nodes indices item hit) cb fuel ⟨ray, h', cur', 4, 0, st⟩ := by
  cases fuel with
  | zero => rfl
  | succ fuel =>
    simp only [qdrive, quadStep, ge_iff_le, Nat.le_refl, if_true]

theorem andThen_skip (ray : σ) (k : σ → Run σ ι) : (⟨[], ray, .finished⟩ : Run σ ι).andThen k = k ray := by
  simp [Run.andThen]

/-- Descending into the quad slots among `ss`, which lie on top of the stack. -/
theorem qdrive_descend {h : MbvhHit} {child : Fin 4 → Int} {cost : Fin 4 → Nat} {descend : Fin 4 → σ → Run σ ι}
    (hnil : ∀ s r, (kid s).isQuad = false → descend s r = ⟨[], r, .finished⟩) {room : Nat}
    (hd : ∀ s, (kid s).isQuad = true → ∀ (rest : List Int) (ray : σ), rest.length ≤ room →
      ∃ n, n ≤ cost s ∧ ∀ fuel, qdrive (quadStep nodes indices item hit) cb (n + fuel)
        ⟨ray, MbvhHit.default, 0, 4, 0, child s :: rest⟩ =
        (descend s ray).andThen (fun r => qdrive (quadStep nodes indices item hit) cb fuel
          ⟨r, MbvhHit.default, 0, 4, 0, rest⟩)) : ∀ (ss : List (Fin 4)) (rest : List Int) (ray : σ),
    rest.length + (ss.filter fun s => h.result.get s && (kid s).isQuad).length ≤ room + 1 →
    ∃ n, n ≤ (ss.map cost).sum ∧ ∀ fuel, qdrive (quadStep nodes indices item hit) cb (n + fuel)
        ⟨ray, MbvhHit.default, 0, 4, 0, ((ss.filter fun s => h.result.get s && (kid s).isQuad).map child) ++ rest⟩ =
        (QTree.inOrder (gateBy h descend) ss ray).andThen (fun r => qdrive (quadStep nodes indices item hit) cb fuel
          ⟨r, MbvhHit.default, 0, 4, 0, rest⟩) := by
  intro ss
  induction ss with
  | nil => intro rest ray _; exact ⟨0, by simp, fun fuel => by simp [QTree.inOrder, Run.andThen]⟩
  | cons s ss ih =>
    intro rest ray hroom
    by_cases hh : (h.result.get s && (kid s).isQuad) = true
    · rw [List.filter_cons, if_pos hh, List.length_cons] at hroom
      obtain ⟨hr, hq⟩ := (Bool.and_eq_true _ _).mp hh |> fun x => x
      obtain ⟨n1, hn1, e1⟩ := hd s hq (((ss.filter fun s => h.result.get s && (kid s).isQuad).map child) ++ rest) ray (by
        simp only [List.length_append, List.length_map]; omega)
      obtain ⟨n2, hn2, e2⟩ := ih rest (descend s ray).ray (by omega)
      refine ⟨n1 + n2, by simp only [List.map_cons, List.sum_cons]; omega, fun fuel => ?_⟩
      rw [List.filter_cons, if_pos hh, List.map_cons, List.cons_append, show n1 + n2 + fuel = n1 + (n2 + fuel) by omega,
        e1, QTree.inOrder, Run.andThen_assoc]
      have hg : gateBy h descend s ray = descend s ray := by simp [gateBy, hr]
      rw [hg]
      by_cases hf : (descend s ray).ending = .finished
      · rw [Run.andThen_finished hf, Run.andThen_finished hf, e2]
      · rw [Run.andThen_not hf, Run.andThen_not hf]
    · have hg : gateBy h descend s ray = ⟨[], ray, .finished⟩ := by
        unfold gateBy
        split
        · rename_i hr
          exact hnil s ray (by cases hx : (kid s).isQuad <;> simp_all)
        · rfl
      obtain ⟨n2, hn2, e2⟩ := ih rest ray (by rw [List.filter_cons, if_neg hh] at hroom; exact hroom)
      refine ⟨n2, by simp only [List.map_cons, List.sum_cons]; omega, fun fuel => ?_⟩
      rw [List.filter_cons, if_neg hh, e2, QTree.inOrder, hg, andThen_skip]

theorem QTree.kid_ranges {c0 c1 c2 c3 : QTree F} {b : Vec4 (Aabb F)} {idx : List Nat}
    (h : (QTree.quad b c0 c1 c2 c3).RangesIn idx) (s : Fin 4) : (QTree.kid c0 c1 c2 c3 s).RangesIn idx := by
  obtain ⟨h0, h1, h2, h3⟩ := h
  unfold QTree.kid; split <;> assumption

/-- Number of slots holding a quad node. -/
def QTree.quadKids (c0 c1 c2 c3 : QTree F) : Nat :=
  (if c0.isQuad then 1 else 0) + (if c1.isQuad then 1 else 0) + (if c2.isQuad then 1 else 0) + (if c3.isQuad then 1 else 0)

theorem QTree.kid_need {c0 c1 c2 c3 : QTree F} {b : Vec4 (Aabb F)} (s : Fin 4)
    (h : (QTree.kid c0 c1 c2 c3 s).isQuad = true) :
    QTree.quadKids c0 c1 c2 c3 - 1 + max 1 (QTree.kid c0 c1 c2 c3 s).stackNeed ≤ (QTree.quad b c0 c1 c2 c3).stackNeed ∧
      1 ≤ QTree.quadKids c0 c1 c2 c3 := by
  unfold QTree.kid at h ⊢
  split at h <;> simp only [QTree.stackNeed, QTree.quadKids, h, if_true] <;> omega

theorem quadKids_count {c0 c1 c2 c3 : QTree F} {l : List (Fin 4)} (h : l.Perm [0, 1, 2, 3]) (g : Fin 4 → Bool) :
    (l.filter fun s => g s && (QTree.kid c0 c1 c2 c3 s).isQuad).length ≤ QTree.quadKids c0 c1 c2 c3 := by
  rw [(h.filter _).length_eq]
  have e : ([0, 1, 2, 3] : List (Fin 4)).filter (fun s => g s && (QTree.kid c0 c1 c2 c3 s).isQuad) =
      (([0, 1, 2, 3] : List (Fin 4)).filter (fun s => (QTree.kid c0 c1 c2 c3 s).isQuad)).filter g := by
    rw [List.filter_filter]
  rw [e]
  refine Nat.le_trans (List.length_filter_le _ _) ?_
  simp only [List.filter_cons, List.filter_nil, QTree.kid, QTree.quadKids]
  cases c0.isQuad <;> cases c1.isQuad <;> cases c2.isQuad <;> cases c3.isQuad <;> simp

/-- Three entries per level and one more are always enough. -/
theorem QTree.stackNeed_le (Q : QTree F) : Q.stackNeed ≤ 3 * Q.depth + 1 := by
  induction Q with
  | none => simp [stackNeed]
  | leaf => simp [stackNeed]
  | quad b c0 c1 c2 c3 h0 h1 h2 h3 =>
    simp only [stackNeed, depth]
    generalize c0.isQuad = q0, c1.isQuad = q1, c2.isQuad = q2, c3.isQuad = q3
    cases q0 <;> cases q1 <;> cases q2 <;> cases q3 <;> simp <;> omega

theorem perm_sum {l : List (Fin 4)} (h : l.Perm [0, 1, 2, 3]) (f : Fin 4 → Nat) :
    (l.map f).sum = f 0 + f 1 + f 2 + f 3 := by
  rw [(h.map f).sum_nat]; simp; omega

theorem QTree.visit_notQuad {c : QTree F} (h : c.isQuad = false) (r : σ) :
    c.visit items hit cb r = ⟨[], r, .finished⟩ := by
  cases c with
  | none => rfl
  | leaf => rfl
  | quad => simp [QTree.isQuad] at h

/-- Number of rounds spent on descending into a slot. -/
def QTree.downCost : QTree F → Nat
  | .quad b c0 c1 c2 c3 => (QTree.quad b c0 c1 c2 c3).rounds
  | _ => 0

/-- The recursive equation of `visit` in terms of `kid`. -/
theorem QTree.visit_quad (b : Vec4 (Aabb F)) (c0 c1 c2 c3 : QTree F) (r : σ) :
    (QTree.quad b c0 c1 c2 c3).visit items hit cb r =
      (QTree.inOrder (gateBy (hit b r) fun s => QTree.giveLeaf items cb (QTree.kid c0 c1 c2 c3 s)) (hit b r).order r).andThen
        (QTree.inOrder (gateBy (hit b r) fun s => (QTree.kid c0 c1 c2 c3 s).visit items hit cb) (hit b r).order.reverse) := by
  have e : ∀ is r', QTree.inOrder (fun i r => if (hit b r').result.get i then
      (match i with
      | 0 => c0.visit items hit cb | 1 => c1.visit items hit cb
      | 2 => c2.visit items hit cb | 3 => c3.visit items hit cb : σ → Run σ ι) r else ⟨[], r, .finished⟩) is =
      QTree.inOrder (gateBy (hit b r') fun s => (QTree.kid c0 c1 c2 c3 s).visit items hit cb) is := by
    intro is r'
    congr 1
    funext i r
    match i with
    | 0 => rfl
    | 1 => rfl
    | 2 => rfl
    | 3 => rfl
  simp only [QTree.visit, MbvhHit.order, List.reverse_cons, List.reverse_nil, List.nil_append, List.cons_append]
  exact congrArg _ (e _ r)

/-- From the moment a quad node has been popped and tested. -/
theorem qdrive_visit (hp : ∀ b r, (hit b r).order.Perm [0, 1, 2, 3])
    (hitems : ∀ f c, items f c = firstSome item (BTree.rangeIds indices f c)) {child count : Int} {Q : QTree F}
    (hQ : QSlot nodes child count Q) : Q.isQuad = true → Q.RangesIn indices → ∀ (rest : List Int) (ray : σ),
    rest.length + Q.stackNeed ≤ 32 → ∃ m, atI32 nodes child = some m ∧
    ∃ n, n + 1 ≤ Q.rounds ∧ ∀ fuel, qdrive (quadStep nodes indices item hit) cb (n + fuel)
        ⟨ray, hit m.boxes ray, child, 0, 0, rest⟩ =
        (Q.visit items hit cb ray).andThen (fun r => qdrive (quadStep nodes indices item hit) cb fuel
          ⟨r, MbvhHit.default, 0, 4, 0, rest⟩) := by
  induction hQ with
  | none => intro h; simp [QTree.isQuad] at h
  | leaf => intro h; simp [QTree.isQuad] at h
  | @quad child count i m c0 c1 c2 c3 hc hi hm k0 k1 k2 k3 ih0 ih1 ih2 ih3 =>
    intro _ hR rest ray hroom
    subst hi
    have hat : atI32 nodes (i : Int) = some m := by rw [atI32_nat]; exact hm
    refine ⟨m, hat, ?_⟩
    have hk : ∀ s, QSlot nodes (m.children.get s) (m.counts.get s) (QTree.kid c0 c1 c2 c3 s) := by
      intro s; unfold QTree.kid; split <;> assumption
    have hin := fun s => QTree.kid_ranges hR s
    have ih : ∀ s, (QTree.kid c0 c1 c2 c3 s).isQuad = true → ∀ (rest : List Int) (ray : σ),
        rest.length + (QTree.kid c0 c1 c2 c3 s).stackNeed ≤ 32 → ∃ m', atI32 nodes (m.children.get s) = some m' ∧
        ∃ n, n + 1 ≤ (QTree.kid c0 c1 c2 c3 s).rounds ∧ ∀ fuel,
        qdrive (quadStep nodes indices item hit) cb (n + fuel) ⟨ray, hit m'.boxes ray, m.children.get s, 0, 0, rest⟩ =
        ((QTree.kid c0 c1 c2 c3 s).visit items hit cb ray).andThen (fun r =>
          qdrive (quadStep nodes indices item hit) cb fuel ⟨r, MbvhHit.default, 0, 4, 0, rest⟩) := by
      intro s hs
      have hR' := hin s
      unfold QTree.kid at hs hR' ⊢
      split at hs
      · exact ih0 hs hR'
      · exact ih1 hs hR'
      · exact ih2 hs hR'
      · exact ih3 hs hR'
    generalize hh : hit m.boxes ray = h
    have hperm : h.order.Perm [0, 1, 2, 3] := by rw [← hh]; exact hp _ _
    have hcount := quadKids_count (c0 := c0) (c1 := c1) (c2 := c2) (c3 := c3) hperm h.result.get
    have hroom0 : rest.length + (h.order.filter fun s => h.result.get s && (QTree.kid c0 c1 c2 c3 s).isQuad).length ≤ 32 := by
      by_cases he : (h.order.filter fun s => h.result.get s && (QTree.kid c0 c1 c2 c3 s).isQuad) = []
      · rw [he]; simp; omega
      · obtain ⟨s, hs⟩ := List.exists_mem_of_ne_nil _ he
        have hq := (List.mem_filter.1 hs).2
        simp only [Bool.and_eq_true] at hq
        have := QTree.kid_need (b := m.boxes) s hq.2
        omega
    obtain ⟨n1, hn1, e1⟩ := qdrive_slots (cb := cb) (hit := hit) hitems hat hk hin h.order [] ray rest rfl hroom0
    generalize hA : QTree.inOrder (gateBy h fun s => QTree.giveLeaf items cb (QTree.kid c0 c1 c2 c3 s)) h.order ray = A
      at *
    obtain ⟨n2, hn2, e2⟩ := qdrive_descend (nodes := nodes) (indices := indices) (item := item) (hit := hit) (cb := cb)
      (h := h) (child := m.children.get) (kid := QTree.kid c0 c1 c2 c3) (room := rest.length + QTree.quadKids c0 c1 c2 c3 - 1)
      (cost := fun s => (QTree.kid c0 c1 c2 c3 s).downCost)
      (descend := fun s => (QTree.kid c0 c1 c2 c3 s).visit items hit cb)
      (fun s r hs => QTree.visit_notQuad hs r)
      (by
        intro s hs rest' ray' hlen
        have := QTree.kid_need (b := m.boxes) s hs
        obtain ⟨m', hm', n, hn, e⟩ := ih s hs rest' ray' (by omega)
        refine ⟨n + 1, ?_, fun fuel => ?_⟩
        · generalize QTree.kid c0 c1 c2 c3 s = K at *
          cases K with
          | quad => exact hn
          | _ => simp [QTree.isQuad] at hs
        rw [show n + 1 + fuel = (n + fuel) + 1 by omega, qdrive_cont (t' :=
          ⟨ray', hit m'.boxes ray', m.children.get s, 0, 0, rest'⟩) (by simp [quadStep, hm']), e])
      h.order.reverse rest A.ray (by
        have := quadKids_count (c0 := c0) (c1 := c1) (c2 := c2) (c3 := c3) ((List.reverse_perm _).trans hperm) h.result.get
        omega)
    refine ⟨n1 + n2, ?_, fun fuel => ?_⟩
    · rw [perm_sum hperm] at hn1
      rw [perm_sum ((List.reverse_perm _).trans hperm)] at hn2
      have cost : ∀ c : QTree F, c.slotCost + c.downCost ≤ c.rounds + 1 := by
        intro c; cases c <;> simp [QTree.slotCost, QTree.downCost, QTree.rounds] <;> omega
      have d0 := cost c0
      have d1 := cost c1
      have d2 := cost c2
      have d3 := cost c3
      simp only [QTree.rounds]
      simp only [QTree.kid] at hn1 hn2
      omega
    · rw [show n1 + n2 + fuel = n1 + (n2 + fuel) by omega]
      have e1' := e1 (n2 + fuel)
      simp only [List.length_nil] at e1'
      rw [e1', QTree.visit_quad, hh, hA, Run.andThen_assoc]
      by_cases hf : A.ending = .finished
      · rw [Run.andThen_finished hf, Run.andThen_finished hf, pushAll_eq,
          qdrive_pop _ h MbvhHit.default _ 0, e2]
      · rw [Run.andThen_not hf, Run.andThen_not hf]

/-- The whole traversal from a fresh iterator. -/
theorem qdrive_fresh (hp : ∀ b r, (hit b r).order.Perm [0, 1, 2, 3])
    (hitems : ∀ f c, items f c = firstSome item (BTree.rangeIds indices f c)) {count : Int} {Q : QTree F}
    (hQ : QSlot nodes 0 count Q) (hq : Q.isQuad = true) (hR : Q.RangesIn indices) (ray : σ) (hd : Q.stackNeed ≤ 32)
    {fuel : Nat} (hf : Q.rounds ≤ fuel) :
    qdrive (quadStep nodes indices item hit) cb fuel (qtravNew nodes hit ray) = Q.visit items hit cb ray := by
  obtain ⟨m, hm, n, hn, e⟩ := qdrive_visit (cb := cb) hp hitems hQ hq hR [] ray (by simp; omega)
  obtain ⟨k, rfl⟩ : ∃ k, fuel = n + (k + 1) := ⟨fuel - n - 1, by omega⟩
  have hm' : nodes[0]? = some m := by simpa [atI32] using hm
  have h0 : qtravNew nodes hit ray = ⟨ray, hit m.boxes ray, 0, 0, 0, []⟩ := by simp [qtravNew, hm']
  rw [h0, e]
  have : (fun r => qdrive (quadStep nodes indices item hit) cb (k + 1) ⟨r, MbvhHit.default, 0, 4, 0, []⟩) =
      fun r => (⟨[], r, .finished⟩ : Run σ ι) := by
    funext r; simp [qdrive, quadStep]
  rw [this, Run.andThen_finish]

end Rtbvh
