import Verif.Proofs.SpatialClip
import Verif.Proofs.SpatialPlane
import Verif.Proofs.SpatialMain
/- The trees of the spatial builder obey `SpatialRule`. -/
namespace Rtbvh
open FloatOps
variable {F : Type} [FloatOps F] [LawfulFloat F]

omit [LawfulFloat F] in
theorem sortView_order {ctx : SpatialCtx F} {V W : RefView F} {n : Nat} {b : Bool} (h : sortView ctx V n b = some W) :
    InOrder ctx V n b W := by
  unfold sortView at h
  cases b with
  | true =>
    simp only [if_true, Option.some.injEq] at h
    exact .inl ⟨rfl, h.symm⟩
  | false =>
    simp only [Bool.false_eq_true, if_false] at h
    split at h
    · rename_i x y z hx hy hz
      simp only [Option.some.injEq] at h
      subst h
      refine .inr ⟨rfl, fun a => ?_⟩
      match a with
      | 0 => exact ⟨x, hx, rfl⟩
      | 1 => exact ⟨y, hy, rfl⟩
      | 2 => exact ⟨z, hz, rfl⟩
    · cases h

/-- What a decision means. -/
theorem spatialDecide_rule {N M : Nat} {ctx : SpatialCtx F} (hsort : ctx.Sorts) (hN : ctx.prims.length = N) {thr : F}
    {bounds : Aabb F} {v : RefView F} {begin n len depth : Nat} {srt : Bool} {out : SpatialOutcome F} (hl : v.Len len)
    (ha : v.All fun r => r.primId < N) (hn : n ≤ len)
    (h : spatialDecide ctx thr M bounds v begin n depth srt = .ok out) :
    ((n ≤ 1 ∨ ctx.maxDepth ≤ depth) ∧ out = .leaf v) ∨
    (1 < n ∧ depth < ctx.maxDepth ∧ ∃ W, InOrder ctx v n srt W ∧
      (out = .leaf W ∧ SpatialLeaf ctx thr bounds W n ∨
        ∃ r V', out = .split { r with view := V' } ∧ SpatialCut ctx thr bounds W begin n r ∧
          ∀ a, Shifted r.mid r.stop (leftShare W.x.length r.mid r.stop r.leftBox r.rightBox) (r.view.get a) (V'.get a))) := by
  unfold spatialDecide at h
  split at h
  · rename_i hnd
    simp only [Except.ok.injEq] at h
    exact .inl ⟨hnd, h.symm⟩
  · rename_i hnd
    refine .inr ⟨by omega, by omega, ?_⟩
    split at h
    · cases h
    · rename_i W hW
      obtain ⟨hl', ha'⟩ := sortView_ok hsort hl ha hW
      refine ⟨W, sortView_order hW, ?_⟩
      simp only at h
      obtain ⟨b1, b2, b3⟩ := findObjectSplit_best hl' hn
      generalize findObjectSplit W n = object at h b1 b2 b3
      rw [b2] at h
      have hx : W.x.length = len := hl'.get 0
      split at h
      · cases h
      · rename_i plane hplane
        have hcand : Candidates ctx thr bounds W n object.cut object.cost plane := by
          refine ⟨b1, fun h1 h2 => ?_, fun h1 => ?_⟩
          · simp only [h1, h2, decide_true, Bool.and_self, if_true] at hplane
            exact findSpatialSplit_spec hplane
          · have : (overlapOf (fun a => (W.get a).take n) object.cut >. thr && decide (n < W.x.length)) = false := by
              rcases h1 with h1 | h1
              · rw [h1]; rfl
              · rw [decide_eq_false (by omega), Bool.and_false]
            rw [this] at hplane
            simp only [Bool.false_eq_true, if_false, Option.some.injEq] at hplane
            rw [← hplane]; rfl
        have fin : ∀ {r : Option (SplitResult F)} {out : SpatialOutcome F},
            (∀ x, r = some x → SplitOk (fun r => r.primId < N) n len x ∧ SpatialCut ctx thr bounds W begin n x) →
            (match r with
              | none => Except.error Fault.panic
              | some r => match shiftRight r with
                | none => .error .wildWrite
                | some view => .ok (.split { r with view := view }) : Except Fault (SpatialOutcome F)) = .ok out →
            ∃ r V', out = .split { r with view := V' } ∧ SpatialCut ctx thr bounds W begin n r ∧
              ∀ a, Shifted r.mid r.stop (leftShare W.x.length r.mid r.stop r.leftBox r.rightBox) (r.view.get a) (V'.get a) := by
          intro r out hr he
          split at he
          · cases he
          · rename_i r
            obtain ⟨ok, hc⟩ := hr r rfl
            split at he
            · cases he
            · rename_i V' hsh
              simp only [Except.ok.injEq] at he
              refine ⟨r, V', he.symm, hc, fun a => ?_⟩
              have hrx : r.view.x.length = len := ok.len.get 0
              have := shiftRight_spec ok.mid (by rw [hrx]; exact ok.stop) (by rw [hrx]; exact ok.len) hsh a
              rw [hrx] at this
              rw [hx]
              exact this
        split at h
        · rename_i hgain
          split at h
          · rename_i hbig
            refine .inr (fin (fun x hx => ?_) h)
            obtain ⟨hc, e1, e2⟩ := applyObjectSplit_cut hx
            refine ⟨(applyObjectSplit_ok hl' ha' hn hx).1, object.cut, object.cost, plane, hcand, .inl ⟨hgain, hbig, hc, ?_, ?_⟩⟩
            · rw [e1, refsBox_eq, List.take_take, Nat.min_eq_left (by omega)]
            · rw [e2, refsBox_eq]
          · rename_i hsmall
            simp only [Except.ok.injEq] at h
            exact .inl ⟨h.symm, object.cut, object.cost, plane, hcand, .inl ⟨hgain, by omega⟩⟩
        · rename_i hgain
          split at h
          · rename_i hlt
            refine .inr (fin (fun x hx => ?_) h)
            exact ⟨applySpatialSplit_ok hN hl' ha' hn hx, object.cut, object.cost, plane, hcand,
              .inr (.inl ⟨hgain, hlt, applySpatialSplit_clip hl' hn hx⟩)⟩
          · rename_i hlt
            have hlt : (FloatOps.min plane.cost object.cost <. object.cost) = false := by
              cases e : (FloatOps.min plane.cost object.cost <. object.cost) with
              | true => exact absurd e hlt
              | false => rfl
            split at h
            · rename_i k hk
              refine .inr (fin (fun x hx => ?_) h)
              obtain ⟨hc, e1, e2⟩ := applyObjectSplit_cut hx
              obtain ⟨e3, e4⟩ := b3 k hk
              refine ⟨(applyObjectSplit_ok hl' ha' hn hx).1, object.cut, object.cost, plane, hcand,
                .inr (.inr ⟨hgain, hlt, object.axis, k, by simp [ObjectSplit.cut, hk], hc, ?_, ?_⟩)⟩
              · have := hc.lt
                rw [e1, e3, List.take_take, Nat.min_eq_left (by omega)]
              · rw [e2, e4]
            · rename_i hk
              simp only [Except.ok.injEq] at h
              exact .inl ⟨h.symm, object.cut, object.cost, plane, hcand, .inr ⟨hgain, hlt, by simp [ObjectSplit.cut, hk]⟩⟩

theorem spatialTree_rule {N M : Nat} {ctx : SpatialCtx F} (hsort : ctx.Sorts) (hN : ctx.prims.length = N) {thr : F} :
    ∀ (d : Nat) {bounds : Aabb F} {v : RefView F} {begin n len : Nat} {srt : Bool} {T : IdTree F}, d ≤ ctx.maxDepth →
    v.Len len → v.All (fun r => r.primId < N) → n ≤ len → spatialTree ctx thr M d bounds v begin n srt = .ok T →
    SpatialRule ctx thr (fun _ _ _ => True) (ctx.maxDepth - d) bounds v begin n srt T
  | 0, bounds, v, begin, n, len, srt, T, hd, hl, ha, hn, h => by
    rw [spatialTree] at h
    split at h
    · cases h
    · rename_i v' hdec
      rcases spatialDecide_rule hsort hN hl ha hn hdec with ⟨h1, h2⟩ | ⟨_, h2, _⟩
      · cases h2
        cases h
        exact .bottom (.inr (by omega))
      · omega
    · cases h
  | d + 1, bounds, v, begin, n, len, srt, T, hd, hl, ha, hn, h => by
    rw [spatialTree] at h
    split at h
    · cases h
    · rename_i v' hdec
      rcases spatialDecide_rule hsort hN hl ha hn hdec with ⟨h1, h2⟩ | ⟨h1, h2, W, hW, ⟨h3, h4⟩ | ⟨_, _, h3, _⟩⟩
      · cases h2
        cases h
        exact .bottom h1
      · cases h3
        cases h
        exact .leaf h1 h2 hW h4
      · cases h3
    · rename_i r hdec
      obtain ⟨L, R, hL, hR, rfl⟩ := combine_ok h
      rcases spatialDecide_rule hsort hN hl ha hn hdec with ⟨_, h2⟩ | ⟨h1, h2, W, hW, ⟨h3, h4⟩ | ⟨r0, V', h3, h4, h5⟩⟩
      · cases h2
      · cases h3
      · rcases spatialDecide_ok hsort hN hl ha hn hdec with ⟨_, h6, _⟩ | ⟨r', h6, ok, _⟩
        · cases h6
        cases h6
        cases h3
        have hx : V'.x.length = len := ok.len.get 0
        have hm : r0.mid ≤ len := Nat.le_trans ok.mid ok.stop
        obtain ⟨_, lenL, lenR⟩ := RefView.split_append ok.len hm
        simp only at lenL lenR hL hR
        rw [← hx] at lenR
        have e : ctx.maxDepth - (d + 1) + 1 = ctx.maxDepth - d := by omega
        refine .node h1 h2 hW h4 (fun a => by rw [hl.get a, ← ok.len.get a]; exact ((h5 a).1).symm) trivial h5 ?_ ?_
        · rw [e]
          exact spatialTree_rule hsort hN d (by omega) lenL (ok.all.slice _ _) (Nat.le_refl _) hL
        · rw [e]
          have := ok.stop
          exact spatialTree_rule hsort hN d (by omega) lenR (ok.all.slice _ _) (by simp only at *; omega) hR

/-- The whole tree. -/
theorem spatialRootTree_rule {ctx : SpatialCtx F} {N : Nat} (hs : SpatialSetting ctx N) {T : IdTree F}
    (h : spatialRootTree ctx = .ok T) : SpatialRule ctx (spatialThreshold ctx) (fun _ _ _ => True) 0 (Aabb.unionOfList ctx.aabbs)
      (.ofFn fun _ => initialRefs ctx) 0 N false T := by
  have hM : N ≤ maxReferenceCount ctx := by unfold maxReferenceCount; rw [hs.aabbs]; omega
  have hl := initialRefs_length (ctx := ctx) (by rw [hs.prims, hs.aabbs])
  have hi := initialRefs_ids hs
  have hlen : (RefView.ofFn fun _ => initialRefs ctx).Len (maxReferenceCount ctx) := by
    refine ⟨?_, ?_, ?_⟩ <;> simpa [RefView.ofFn] using hl
  have hall : (RefView.ofFn fun _ => initialRefs ctx).All fun r => r.primId < N := by
    refine ⟨?_, ?_, ?_⟩ <;> simpa [RefView.ofFn] using hi
  unfold spatialRootTree at h
  rw [hs.aabbs] at h
  have := spatialTree_rule hs.sorts hs.prims ctx.maxDepth (Nat.le_refl _) hlen hall hM h
  rwa [Nat.sub_self] at this

end Rtbvh
