import Verif.Spec.Box
/- Order facts about boxes over any lawful float type. -/
namespace Rtbvh
open FloatOps
variable {F : Type} [FloatOps F] [LawfulFloat F]
open LawfulFloat

theorem min_isNum {a b : F} (ha : Num a) (hb : Num b) : Num (FloatOps.min a b) := by
  rcases min_num ha hb with ⟨h, _⟩ | ⟨h, _⟩ <;> rw [h] <;> assumption
theorem max_isNum {a b : F} (ha : Num a) (hb : Num b) : Num (FloatOps.max a b) := by
  rcases max_num ha hb with ⟨h, _⟩ | ⟨h, _⟩ <;> rw [h] <;> assumption
theorem min_le_left' {a b : F} (ha : Num a) (hb : Num b) : (FloatOps.min a b <=. a) = true := by
  rcases min_num ha hb with ⟨h, h'⟩ | ⟨h, h'⟩ <;> rw [h]
  · exact le_refl ha
  · exact h'
theorem min_le_right' {a b : F} (ha : Num a) (hb : Num b) : (FloatOps.min a b <=. b) = true := by
  rcases min_num ha hb with ⟨h, h'⟩ | ⟨h, h'⟩ <;> rw [h]
  · exact h'
  · exact le_refl hb
theorem le_min' {a b c : F} (h1 : (c <=. a) = true) (h2 : (c <=. b) = true) : (c <=. FloatOps.min a b) = true := by
  rcases min_num (le_num h1).2 (le_num h2).2 with ⟨h, h'⟩ | ⟨h, h'⟩ <;> rw [h] <;> assumption
theorem le_max_left' {a b : F} (ha : Num a) (hb : Num b) : (a <=. FloatOps.max a b) = true := by
  rcases max_num ha hb with ⟨h, h'⟩ | ⟨h, h'⟩ <;> rw [h]
  · exact le_refl ha
  · exact h'
theorem le_max_right' {a b : F} (ha : Num a) (hb : Num b) : (b <=. FloatOps.max a b) = true := by
  rcases max_num ha hb with ⟨h, h'⟩ | ⟨h, h'⟩ <;> rw [h]
  · exact h'
  · exact le_refl hb
theorem max_le' {a b c : F} (h1 : (a <=. c) = true) (h2 : (b <=. c) = true) : (FloatOps.max a b <=. c) = true := by
  rcases max_num (le_num h1).1 (le_num h2).1 with ⟨h, h'⟩ | ⟨h, h'⟩ <;> rw [h] <;> assumption

namespace Vec3
theorem Numeric.min {a b : Vec3 F} (ha : a.Numeric) (hb : b.Numeric) : (a.min b).Numeric :=
  ⟨min_isNum ha.1 hb.1, min_isNum ha.2.1 hb.2.1, min_isNum ha.2.2 hb.2.2⟩
theorem Numeric.max {a b : Vec3 F} (ha : a.Numeric) (hb : b.Numeric) : (a.max b).Numeric :=
  ⟨max_isNum ha.1 hb.1, max_isNum ha.2.1 hb.2.1, max_isNum ha.2.2 hb.2.2⟩
theorem Le.refl {a : Vec3 F} (h : a.Numeric) : a.Le a := ⟨le_refl h.1, le_refl h.2.1, le_refl h.2.2⟩
theorem Le.trans {a b c : Vec3 F} (h : a.Le b) (h' : b.Le c) : a.Le c :=
  ⟨le_trans h.1 h'.1, le_trans h.2.1 h'.2.1, le_trans h.2.2 h'.2.2⟩
theorem Le.num_left {a b : Vec3 F} (h : a.Le b) : a.Numeric :=
  ⟨(le_num h.1).1, (le_num h.2.1).1, (le_num h.2.2).1⟩
theorem Le.num_right {a b : Vec3 F} (h : a.Le b) : b.Numeric :=
  ⟨(le_num h.1).2, (le_num h.2.1).2, (le_num h.2.2).2⟩
theorem min_le_left {a b : Vec3 F} (ha : a.Numeric) (hb : b.Numeric) : (a.min b).Le a :=
  ⟨min_le_left' ha.1 hb.1, min_le_left' ha.2.1 hb.2.1, min_le_left' ha.2.2 hb.2.2⟩
theorem min_le_right {a b : Vec3 F} (ha : a.Numeric) (hb : b.Numeric) : (a.min b).Le b :=
  ⟨min_le_right' ha.1 hb.1, min_le_right' ha.2.1 hb.2.1, min_le_right' ha.2.2 hb.2.2⟩
theorem le_max_left {a b : Vec3 F} (ha : a.Numeric) (hb : b.Numeric) : a.Le (a.max b) :=
  ⟨le_max_left' ha.1 hb.1, le_max_left' ha.2.1 hb.2.1, le_max_left' ha.2.2 hb.2.2⟩
theorem le_max_right {a b : Vec3 F} (ha : a.Numeric) (hb : b.Numeric) : b.Le (a.max b) :=
  ⟨le_max_right' ha.1 hb.1, le_max_right' ha.2.1 hb.2.1, le_max_right' ha.2.2 hb.2.2⟩
theorem le_min {a b c : Vec3 F} (h : c.Le a) (h' : c.Le b) : c.Le (a.min b) :=
  ⟨le_min' h.1 h'.1, le_min' h.2.1 h'.2.1, le_min' h.2.2 h'.2.2⟩
theorem max_le {a b c : Vec3 F} (h : a.Le c) (h' : b.Le c) : (a.max b).Le c :=
  ⟨max_le' h.1 h'.1, max_le' h.2.1 h'.2.1, max_le' h.2.2 h'.2.2⟩
theorem sub_splat_le {a : Vec3 F} {d : F} (ha : a.Numeric) (hd : Fin' d) (h0 : ((zero : F) <=. d) = true) :
    (a.sub (splat d)).Le a :=
  ⟨sub_le h0 (sub_fin ha.1 hd), sub_le h0 (sub_fin ha.2.1 hd), sub_le h0 (sub_fin ha.2.2 hd)⟩
theorem le_add_splat {a : Vec3 F} {d : F} (ha : a.Numeric) (hd : Fin' d) (h0 : ((zero : F) <=. d) = true) :
    a.Le (a.add (splat d)) :=
  ⟨le_add h0 (add_fin ha.1 hd), le_add h0 (add_fin ha.2.1 hd), le_add h0 (add_fin ha.2.2 hd)⟩
end Vec3

namespace Aabb
theorem Within.refl {a : Aabb F} (h : a.Numeric) : a.Within a := ⟨Vec3.Le.refl h.1, Vec3.Le.refl h.2⟩
theorem Within.trans {a b c : Aabb F} (h : a.Within b) (h' : b.Within c) : a.Within c :=
  ⟨h'.1.trans h.1, h.2.trans h'.2⟩
theorem Within.num_left {a b : Aabb F} (h : a.Within b) : a.Numeric := ⟨h.1.num_right, h.2.num_left⟩
theorem Within.num_right {a b : Aabb F} (h : a.Within b) : b.Numeric := ⟨h.1.num_left, h.2.num_right⟩
theorem Within.has {a b : Aabb F} (h : a.Within b) {p : Vec3 F} (hp : a.Has p) : b.Has p :=
  ⟨h.1.trans hp.1, hp.2.trans h.2⟩
theorem new_numeric : (Aabb.new : Aabb F).Numeric :=
  ⟨⟨lit_num _ _, lit_num _ _, lit_num _ _⟩, ⟨lit_num _ _, lit_num _ _, lit_num _ _⟩⟩

theorem growBB_numeric {a b : Aabb F} (ha : a.Numeric) (hb : b.Numeric) : (a.growBB b).Numeric :=
  ⟨ha.1.min hb.1, ha.2.max hb.2⟩
theorem within_growBB_left {a b : Aabb F} (ha : a.Numeric) (hb : b.Numeric) : a.Within (a.growBB b) :=
  ⟨Vec3.min_le_left ha.1 hb.1, Vec3.le_max_left ha.2 hb.2⟩
theorem within_growBB_right {a b : Aabb F} (ha : a.Numeric) (hb : b.Numeric) : b.Within (a.growBB b) :=
  ⟨Vec3.min_le_right ha.1 hb.1, Vec3.le_max_right ha.2 hb.2⟩
theorem growBB_within {a b c : Aabb F} (ha : a.Within c) (hb : b.Within c) : (a.growBB b).Within c :=
  ⟨Vec3.le_min ha.1 hb.1, Vec3.max_le ha.2 hb.2⟩
theorem unionOf_numeric {a b : Aabb F} (ha : a.Numeric) (hb : b.Numeric) : (a.unionOf b).Numeric :=
  growBB_numeric (a := a) ha hb
theorem within_unionOf_left {a b : Aabb F} (ha : a.Numeric) (hb : b.Numeric) : a.Within (a.unionOf b) :=
  within_growBB_left (a := a) ha hb
theorem within_unionOf_right {a b : Aabb F} (ha : a.Numeric) (hb : b.Numeric) : b.Within (a.unionOf b) :=
  within_growBB_right (a := a) ha hb
theorem unionOf_within {a b c : Aabb F} (ha : a.Within c) (hb : b.Within c) : (a.unionOf b).Within c :=
  growBB_within (a := a) ha hb

theorem within_offsetBy {a : Aabb F} {d : F} (ha : a.Numeric) (hd : Fin' d) (h0 : ((zero : F) <=. d) = true) :
    a.Within (a.offsetBy d) :=
  ⟨Vec3.sub_splat_le ha.1 hd h0, Vec3.le_add_splat ha.2 hd h0⟩
theorem within_offset_lit {a : Aabb F} (ha : a.Numeric) {m e : Int} (h0 : 0 ≤ m) (h1 : m.natAbs ≤ 10)
    (h2 : -100 ≤ e) (h3 : e ≤ 34) : a.Within (a.offsetBy (lit m e)) :=
  within_offsetBy ha (lit_fin h1 h2 h3) (lit_nonneg e h0)

theorem foldl_growBB {bs : List (Aabb F)} (hb : ∀ b ∈ bs, b.Numeric) :
    ∀ {a : Aabb F}, a.Numeric → a.Within (bs.foldl growBB a) ∧ ∀ b ∈ bs, b.Within (bs.foldl growBB a) := by
  induction bs with
  | nil => intro a ha; exact ⟨Within.refl ha, by simp⟩
  | cons b bs ih =>
    intro a ha
    have hb1 := hb b (by simp)
    obtain ⟨h1, h2⟩ := ih (fun c hc => hb c (by simp [hc])) (growBB_numeric ha hb1)
    refine ⟨(within_growBB_left ha hb1).trans h1, ?_⟩
    intro c hc
    rcases List.mem_cons.1 hc with rfl | hc
    · exact (within_growBB_right ha hb1).trans h1
    · exact h2 c hc

theorem foldl_growBB_least {bs : List (Aabb F)} {c : Aabb F} (hb : ∀ b ∈ bs, b.Within c) :
    ∀ {a : Aabb F}, a.Within c → (bs.foldl growBB a).Within c := by
  induction bs with
  | nil => intro a ha; exact ha
  | cons b bs ih =>
    intro a ha
    exact ih (fun x hx => hb x (by simp [hx])) (growBB_within ha (hb b (by simp)))

omit [LawfulFloat F] in
theorem growBBs_eq (a : Aabb F) (bs : List (Aabb F)) : a.growBBs bs = bs.foldl growBB a := by
  unfold growBBs
  induction bs generalizing a with
  | nil => rfl
  | cons b bs ih =>
    simp only [List.foldl_cons]
    exact ih (a.growBB b)

theorem foldl_grow {ps : List (Vec3 F)} (hp : ∀ p ∈ ps, p.Numeric) :
    ∀ {a : Aabb F}, a.Numeric → a.Within (ps.foldl grow a) ∧ ∀ p ∈ ps, (ps.foldl grow a).Has p := by
  induction ps with
  | nil => intro a ha; exact ⟨Within.refl ha, by simp⟩
  | cons p ps ih =>
    intro a ha
    have h := hp p (by simp)
    have hn : (a.grow p).Numeric := ⟨ha.1.min h, ha.2.max h⟩
    obtain ⟨h1, h2⟩ := ih (fun c hc => hp c (by simp [hc])) hn
    refine ⟨Within.trans ⟨Vec3.min_le_left ha.1 h, Vec3.le_max_left ha.2 h⟩ h1, ?_⟩
    intro c hc
    rcases List.mem_cons.1 hc with rfl | hc
    · exact h1.has ⟨Vec3.min_le_right ha.1 h, Vec3.le_max_right ha.2 h⟩
    · exact h2 c hc
end Aabb
end Rtbvh
