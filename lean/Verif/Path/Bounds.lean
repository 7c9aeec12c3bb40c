import Verif.Path.Ops3
import Mathlib.Tactic.Linarith
import Mathlib.Tactic.Ring
import Mathlib.Tactic.LinearCombination
import Mathlib.Tactic.FieldSimp
import Mathlib.Algebra.Order.Field.Rat
/-! # Boxes -/
namespace Blend2D.Path
open Cow Spec

/-! ### Curves -/

theorem bez1_in {lo hi a b t : Rat} (h0 : 0 ≤ t) (h1 : t ≤ 1) (ha : lo ≤ a ∧ a ≤ hi) (hb : lo ≤ b ∧ b ≤ hi) :
    lo ≤ bez1 a b t ∧ bez1 a b t ≤ hi := by
  unfold bez1
  constructor
  · nlinarith [mul_nonneg h0 (sub_nonneg.2 hb.1), mul_nonneg (sub_nonneg.2 h1) (sub_nonneg.2 ha.1)]
  · nlinarith [mul_nonneg h0 (sub_nonneg.2 hb.2), mul_nonneg (sub_nonneg.2 h1) (sub_nonneg.2 ha.2)]

theorem bez2_eq (a c b t : Rat) : bez2 a c b t = bez1 (bez1 a c t) (bez1 c b t) t := by unfold bez2 bez1; ring

theorem bez3_eq (a c d b t : Rat) : bez3 a c d b t = bez1 (bez2 a c d t) (bez2 c d b t) t := by unfold bez3 bez2 bez1; ring

theorem bez2_in {lo hi a c b t : Rat} (h0 : 0 ≤ t) (h1 : t ≤ 1) (ha : lo ≤ a ∧ a ≤ hi) (hc : lo ≤ c ∧ c ≤ hi) (hb : lo ≤ b ∧ b ≤ hi) :
    lo ≤ bez2 a c b t ∧ bez2 a c b t ≤ hi := by
  rw [bez2_eq]; exact bez1_in h0 h1 (bez1_in h0 h1 ha hc) (bez1_in h0 h1 hc hb)

theorem bez3_in {lo hi a c d b t : Rat} (h0 : 0 ≤ t) (h1 : t ≤ 1) (ha : lo ≤ a ∧ a ≤ hi) (hc : lo ≤ c ∧ c ≤ hi) (hd : lo ≤ d ∧ d ≤ hi)
    (hb : lo ≤ b ∧ b ≤ hi) : lo ≤ bez3 a c d b t ∧ bez3 a c d b t ≤ hi := by
  rw [bez3_eq]; exact bez1_in h0 h1 (bez2_in h0 h1 ha hc hd) (bez2_in h0 h1 hc hd hb)

/-- The parameter `quad_extrema_point` uses. -/
def tStar (a c b : Rat) : Rat := clampDiv (some (a - c)) (some (a - c - c + b))

theorem tStar_in (a c b : Rat) : 0 ≤ tStar a c b ∧ tStar a c b ≤ 1 := by
  unfold tStar clampDiv
  simp only
  split
  · split <;> constructor <;> norm_num
  · split
    · constructor <;> norm_num
    · split
      · constructor <;> norm_num
      · constructor <;> linarith

theorem quadExtremum_eq (a c b : Rat) : quadExtremum (some a) (some c) (some b) = some (bez2 a c b (tStar a c b)) := by
  have : clampDiv (F.sub (some a) (some c)) (F.add (F.sub (F.sub (some a) (some c)) (some c)) (some b)) = tStar a c b := rfl
  unfold quadExtremum
  simp only [this]
  show some _ = some _
  unfold bez2
  congr 1
  ring

/-- For a curve that is convex upwards: nothing is below the ends and the extremum. -/
theorem quad_low {lo a c b t : Rat} (h0 : 0 ≤ t) (h1 : t ≤ 1) (ha : lo ≤ a) (hb : lo ≤ b) (he : lo ≤ bez2 a c b (tStar a c b)) :
    lo ≤ bez2 a c b t := by
  have key : ∀ s, bez2 a c b s = a - 2 * (a - c) * s + (a - c - c + b) * s ^ 2 := by intro s; unfold bez2; ring
  rcases lt_trichotomy (a - c - c + b) 0 with hd | hd | hd
  · -- concave: above the chord
    have : bez2 a c b t = bez1 a b t - (a - c - c + b) * (t * (1 - t)) := by unfold bez2 bez1; ring
    have h2 : lo ≤ bez1 a b t := by
      unfold bez1
      nlinarith [mul_nonneg h0 (sub_nonneg.2 hb), mul_nonneg (sub_nonneg.2 h1) (sub_nonneg.2 ha)]
    have h3 : 0 ≤ t * (1 - t) := mul_nonneg h0 (by linarith)
    rw [this]
    nlinarith
  · have : bez2 a c b t = bez1 a b t := by
      rw [key, hd]; unfold bez1
      have : b = 2 * c - a := by linarith
      rw [this]; ring
    rw [this]
    unfold bez1
    nlinarith [mul_nonneg h0 (sub_nonneg.2 hb), mul_nonneg (sub_nonneg.2 h1) (sub_nonneg.2 ha)]
  · have hd0 : a - c - c + b ≠ 0 := ne_of_gt hd
    unfold tStar clampDiv at he
    simp only [if_neg hd0] at he
    generalize hq : (a - c) / (a - c - c + b) = q at he
    have hv : a - c = q * (a - c - c + b) := by rw [← hq]; field_simp
    split at he
    · -- q < 0
      rename_i hq0
      have hvn : a - c < 0 := by rw [hv]; nlinarith
      rw [key]
      nlinarith [mul_nonneg h0 (le_of_lt (neg_pos.2 hvn)), mul_nonneg (le_of_lt hd) (mul_nonneg h0 h0)]
    · split at he
      · rename_i hq1
        have hvn : a - c - c + b < a - c := by nlinarith
        have e : bez2 a c b t = b + (1 - t) * (2 * (a - c) - (a - c - c + b) * (1 + t)) := by unfold bez2; ring
        rw [e]
        have : 0 ≤ 2 * (a - c) - (a - c - c + b) * (1 + t) := by nlinarith
        nlinarith [mul_nonneg (sub_nonneg.2 h1) this]
      · have e : bez2 a c b t = bez2 a c b q + (a - c - c + b) * (t - q) ^ 2 := by
          rw [key, key]; linear_combination (2 * q - 2 * t) * hv
        rw [e]
        nlinarith [mul_nonneg (le_of_lt hd) (sq_nonneg (t - q))]

theorem tStar_neg (a c b : Rat) : tStar (-a) (-c) (-b) = tStar a c b ∨ a - c - c + b = 0 := by
  by_cases h : a - c - c + b = 0
  · exact .inr h
  · left
    have h2 : -a - -c - -c + -b ≠ 0 := by intro e; apply h; linarith
    have e : (-a - -c) / (-a - -c - -c + -b) = (a - c) / (a - c - c + b) := by
      rw [show -a - -c = -(a - c) by ring, show -(a - c) - -c + -b = -(a - c - c + b) by ring, neg_div_neg_eq]
    unfold tStar clampDiv
    simp only [if_neg h, if_neg h2, e]

theorem bez2_neg (a c b t : Rat) : bez2 (-a) (-c) (-b) t = -bez2 a c b t := by unfold bez2; ring

theorem quad_in {lo hi a c b t : Rat} (h0 : 0 ≤ t) (h1 : t ≤ 1) (ha : lo ≤ a ∧ a ≤ hi) (hb : lo ≤ b ∧ b ≤ hi)
    (he : lo ≤ bez2 a c b (tStar a c b) ∧ bez2 a c b (tStar a c b) ≤ hi) : lo ≤ bez2 a c b t ∧ bez2 a c b t ≤ hi := by
  refine ⟨quad_low h0 h1 ha.1 hb.1 he.1, ?_⟩
  rcases tStar_neg a c b with h | h
  · have := quad_low (lo := -hi) (a := -a) (c := -c) (b := -b) h0 h1 (by linarith) (by linarith) (by rw [h, bez2_neg]; linarith)
    rw [bez2_neg] at this; linarith
  · have e : bez2 a c b t = bez1 a b t := by
      unfold bez1 bez2
      have : b = 2 * c - a := by linarith
      rw [this]; ring
    rw [e]; exact (bez1_in h0 h1 ha hb).2

/-! ### Intervals -/

/-- `q` is in the interval. -/
def In (iv : Iv) (q : Rat) : Prop := ∃ a b, iv = some (a, b) ∧ a ≤ q ∧ q ≤ b

/-- The second interval contains the first one. -/
def Sub (u v : Iv) : Prop := ∀ q, In u q → In v q

theorem Sub.rfl' (u : Iv) : Sub u u := fun _ h => h

theorem Sub.trans {u v w : Iv} (h1 : Sub u v) (h2 : Sub v w) : Sub u w := fun q h => h2 q (h1 q h)

theorem sub_bound (u : Iv) (f : F) : Sub u (u.bound f) := by
  intro q ⟨a, b, h, h1, h2⟩
  subst h
  cases f with
  | none => exact ⟨a, b, rfl, h1, h2⟩
  | some r =>
    refine ⟨_, _, rfl, ?_, ?_⟩
    · split <;> linarith
    · split <;> linarith

theorem in_bound (u : Iv) (q : Rat) : In (u.bound (some q)) q := by
  cases u with
  | none => exact ⟨q, q, rfl, le_refl _, le_refl _⟩
  | some p =>
    obtain ⟨a, b⟩ := p
    refine ⟨_, _, rfl, ?_, ?_⟩
    · split
      · exact le_refl _
      · linarith
    · split
      · exact le_refl _
      · linarith

theorem sub_union_left (u v : Iv) : Sub u (u.union v) := by
  intro q ⟨a, b, h, h1, h2⟩
  subst h
  cases v with
  | none => exact ⟨a, b, rfl, h1, h2⟩
  | some p =>
    refine ⟨_, _, rfl, ?_, ?_⟩
    · split <;> linarith
    · split <;> linarith

theorem sub_union_right (u v : Iv) : Sub v (u.union v) := by
  intro q ⟨a, b, h, h1, h2⟩
  subst h
  cases u with
  | none => exact ⟨a, b, rfl, h1, h2⟩
  | some p =>
    refine ⟨_, _, rfl, ?_, ?_⟩
    · split <;> linarith
    · split <;> linarith

theorem in_has {u : Iv} {q : Rat} : u.has (some q) = true ↔ In u q := by
  cases u with
  | none => simp [Iv.has, In]
  | some p =>
    obtain ⟨a, b⟩ := p
    simp only [Iv.has, Bool.and_eq_true, decide_eq_true_eq]
    constructor
    · intro h; exact ⟨a, b, rfl, h.1, h.2⟩
    · rintro ⟨a', b', e, h1, h2⟩
      simp only [Option.some.injEq, Prod.mk.injEq] at e
      obtain ⟨rfl, rfl⟩ := e
      exact ⟨h1, h2⟩

/-- Both axes. -/
def RSub (u v : Rng) : Prop := Sub u.x v.x ∧ Sub u.y v.y

theorem RSub.trans {u v w : Rng} (h1 : RSub u v) (h2 : RSub v w) : RSub u w := ⟨h1.1.trans h2.1, h1.2.trans h2.2⟩

theorem RSub.rfl' (u : Rng) : RSub u u := ⟨Sub.rfl' _, Sub.rfl' _⟩

theorem rsub_bound (u : Rng) (p : Pt) : RSub u (u.bound p) := ⟨sub_bound _ _, sub_bound _ _⟩

/-- The point is in the box, where it is not a NaN. -/
def PIn (u : Rng) (p : Pt) : Prop := (∀ x, p.x = some x → In u.x x) ∧ (∀ y, p.y = some y → In u.y y)

theorem pin_bound (u : Rng) (p : Pt) : PIn (u.bound p) p := by
  constructor
  · intro x hx; simp only [Rng.bound, hx]; exact in_bound _ _
  · intro x hx; simp only [Rng.bound, hx]; exact in_bound _ _

theorem PIn.mono {u v : Rng} {p : Pt} (h : PIn u p) (hs : RSub u v) : PIn v p :=
  ⟨fun x hx => hs.1 _ (h.1 x hx), fun y hy => hs.2 _ (h.2 y hy)⟩

/-! ### The steps -/

theorem quadStep_bounds {u v : Upd} {p c e : Pt} (h : quadStep u (some p) c e = some v) :
    RSub u.bounding v.bounding ∧ RSub u.control v.control ∧ PIn v.bounding e ∧ v.moves = u.moves ∧
    (PIn v.control c ∨ PIn v.bounding c) ∧
    ((v.bounding = u.bounding.bound e ∧ PIn v.bounding c) ∨ v.bounding = (u.bounding.bound e).bound (quadExtremaPoint p c e)) := by
  simp only [quadStep] at h
  split at h
  · rename_i hh
    simp only [Option.some.injEq] at h
    subst h
    have : PIn (u.bounding.bound e) c := by
      simp only [Rng.has, Bool.and_eq_true] at hh
      constructor
      · intro x hx; rw [hx] at hh; exact in_has.1 hh.1
      · intro x hx; rw [hx] at hh; exact in_has.1 hh.2
    exact ⟨rsub_bound _ _, RSub.rfl' _, pin_bound _ _, rfl, .inr this, .inl ⟨rfl, this⟩⟩
  · simp only [Option.bind_eq_bind, Option.bind_some] at h
    cases h
    exact ⟨(rsub_bound _ _).trans (rsub_bound _ _), rsub_bound _ _, (pin_bound _ _).mono (rsub_bound _ _), rfl, .inl (pin_bound _ _), .inr rfl⟩

theorem conicStep_bounds {E : Ext} {u v : Upd} {p c w e : Pt} (h : conicStep E u (some p) c w e = some v) :
    RSub u.bounding v.bounding ∧ RSub u.control v.control ∧ PIn v.bounding e := by
  simp only [conicStep] at h
  split at h
  · simp only [Option.some.injEq] at h
    subst h
    exact ⟨rsub_bound _ _, RSub.rfl' _, pin_bound _ _⟩
  · simp only [Option.bind_eq_bind, Option.bind_some] at h
    cases h
    exact ⟨((rsub_bound _ _).trans (rsub_bound _ _)).trans (rsub_bound _ _), rsub_bound _ _,
      ((pin_bound _ _).mono (rsub_bound _ _)).mono (rsub_bound _ _)⟩

theorem inside_in {u : Iv} {a b : F} (h : u.inside (F.min a b) (F.max a b) = true) :
    (∀ x, a = some x → In u x) ∧ (∀ x, b = some x → In u x) := by
  cases u with
  | none => cases h1 : F.min a b <;> cases h2 : F.max a b <;> simp [Iv.inside] at h
  | some p =>
    obtain ⟨l, r⟩ := p
    cases a with
    | none =>
      cases b with
      | none => simp [F.min, F.max, F.lt, Iv.inside] at h
      | some y => simp [F.min, F.max, F.lt, Iv.inside] at h
    | some x =>
      cases b with
      | none =>
        simp only [F.min, F.max, F.lt, Iv.inside, Bool.false_eq_true, if_false, Bool.and_eq_true, decide_eq_true_eq] at h
        exact ⟨fun z hz => by cases hz; exact ⟨l, r, rfl, h.1, h.2⟩, fun z hz => by simp at hz⟩
      | some y =>
        have h2 : (l ≤ x ∧ l ≤ y) ∧ (x ≤ r ∧ y ≤ r) := by
          simp only [F.min, F.max, F.lt, decide_eq_true_eq] at h
          rcases lt_trichotomy x y with hxy | hxy | hxy
          · rw [if_neg (not_lt.2 (le_of_lt hxy)), if_pos hxy] at h
            simp only [Iv.inside, Bool.and_eq_true, decide_eq_true_eq] at h
            exact ⟨⟨h.1, by linarith⟩, by linarith, h.2⟩
          · subst hxy
            simp only [lt_irrefl, if_false, Iv.inside, Bool.and_eq_true, decide_eq_true_eq] at h
            exact ⟨⟨h.1, h.1⟩, h.2, h.2⟩
          · rw [if_pos hxy, if_neg (not_lt.2 (le_of_lt hxy))] at h
            simp only [Iv.inside, Bool.and_eq_true, decide_eq_true_eq] at h
            exact ⟨⟨by linarith, h.1⟩, h.2, by linarith⟩
        exact ⟨fun z hz => by cases hz; exact ⟨l, r, rfl, h2.1.1, h2.2.1⟩, fun z hz => by cases hz; exact ⟨l, r, rfl, h2.1.2, h2.2.2⟩⟩

theorem cubicStep_bounds {E : Ext} {u v : Upd} {p c d e : Pt} (h : cubicStep E u (some p) c d e = some v) :
    RSub u.bounding v.bounding ∧ RSub u.control v.control ∧ PIn v.bounding e ∧ ((PIn v.control c ∧ PIn v.control d) ∨ (PIn v.bounding c ∧ PIn v.bounding d)) := by
  simp only [cubicStep] at h
  split at h
  · rename_i hh
    simp only [Option.some.injEq] at h
    subst h
    simp only [Bool.and_eq_true] at hh
    obtain ⟨a1, a2⟩ := inside_in hh.1
    obtain ⟨b1, b2⟩ := inside_in hh.2
    exact ⟨rsub_bound _ _, RSub.rfl' _, pin_bound _ _, .inr ⟨⟨a1, b1⟩, a2, b2⟩⟩
  · simp only [Option.bind_eq_bind, Option.bind_some] at h
    cases h
    exact ⟨((rsub_bound _ _).trans (rsub_bound _ _)).trans (rsub_bound _ _), (rsub_bound _ _).trans (rsub_bound _ _),
      ((pin_bound _ _).mono (rsub_bound _ _)).mono (rsub_bound _ _), .inl ⟨(pin_bound _ _).mono (rsub_bound _ _), pin_bound _ _⟩⟩

/-! ### All segments -/

/-- Where a segment is: its end and, if it is basic, all of it in the bounding box, and all of it in the control box. -/
structure SegIn (s : Seg) (b c : Rng) : Prop where
  stop : PIn b s.stop
  basic : s.Basic → ∀ x y, s.Through x y → In b.x x ∧ In b.y y
  all : ∀ x y, s.Through x y → In c.x x ∧ In c.y y
  ctrl : match s with
    | .quad _ p _ => PIn c p
    | .cubic _ p q _ => PIn c p ∧ PIn c q
    | _ => True

theorem move_in {p : Pt} {b : Rng} {x y : Rat} (h : PIn b p) (ht : Seg.Through x y (.move p)) : In b.x x ∧ In b.y y := by
  simp only [Seg.Through] at ht
  subst ht
  exact ⟨h.1 x rfl, h.2 y rfl⟩

theorem in_conv {iv : Iv} {q : Rat} {l : List Rat} (hl : ∀ a ∈ l, In iv a) (hne : l ≠ [])
    (h : ∀ lo hi, (∀ a ∈ l, lo ≤ a ∧ a ≤ hi) → lo ≤ q ∧ q ≤ hi) : In iv q := by
  cases l with
  | nil => exact absurd rfl hne
  | cons a t =>
    obtain ⟨lo, hi, e, h1, h2⟩ := hl a (by simp)
    have := h lo hi (by
      intro z hz
      obtain ⟨lo', hi', e', g1, g2⟩ := hl z hz
      rw [e] at e'
      simp only [Option.some.injEq, Prod.mk.injEq] at e'
      obtain ⟨rfl, rfl⟩ := e'
      exact ⟨g1, g2⟩)
    exact ⟨lo, hi, e, this.1, this.2⟩

theorem line_in {a e : Pt} {b : Rng} {x y : Rat} (ha : PIn b a) (he : PIn b e) (ht : Seg.Through x y (.line a e)) :
    In b.x x ∧ In b.y y := by
  obtain ⟨ax, ay⟩ := a
  obtain ⟨ex, ey⟩ := e
  cases ax <;> cases ay <;> cases ex <;> cases ey <;> simp only [Seg.Through] at ht
  rename_i ax ay ex ey
  obtain ⟨t, h0, h1, rfl, rfl⟩ := ht
  constructor
  · exact in_conv (l := [ax, ex]) (by intro z hz; simp at hz; rcases hz with rfl | rfl; exact ha.1 _ rfl; exact he.1 _ rfl) (by simp)
      (fun lo hi h => bez1_in h0 h1 (h _ (by simp)) (h _ (by simp)))
  · exact in_conv (l := [ay, ey]) (by intro z hz; simp at hz; rcases hz with rfl | rfl; exact ha.2 _ rfl; exact he.2 _ rfl) (by simp)
      (fun lo hi h => bez1_in h0 h1 (h _ (by simp)) (h _ (by simp)))

theorem quad_hull {a c e : Pt} {b : Rng} {x y : Rat} (ha : PIn b a) (hc : PIn b c) (he : PIn b e) (ht : Seg.Through x y (.quad a c e)) :
    In b.x x ∧ In b.y y := by
  obtain ⟨ax, ay⟩ := a
  obtain ⟨cx, cy⟩ := c
  obtain ⟨ex, ey⟩ := e
  cases ax <;> cases ay <;> cases cx <;> cases cy <;> cases ex <;> cases ey <;> simp only [Seg.Through] at ht
  rename_i ax ay cx cy ex ey
  obtain ⟨t, h0, h1, rfl, rfl⟩ := ht
  constructor
  · exact in_conv (l := [ax, cx, ex]) (by intro z hz; simp at hz; rcases hz with rfl | rfl | rfl; exact ha.1 _ rfl; exact hc.1 _ rfl; exact he.1 _ rfl) (by simp)
      (fun lo hi h => bez2_in h0 h1 (h _ (by simp)) (h _ (by simp)) (h _ (by simp)))
  · exact in_conv (l := [ay, cy, ey]) (by intro z hz; simp at hz; rcases hz with rfl | rfl | rfl; exact ha.2 _ rfl; exact hc.2 _ rfl; exact he.2 _ rfl) (by simp)
      (fun lo hi h => bez2_in h0 h1 (h _ (by simp)) (h _ (by simp)) (h _ (by simp)))

theorem quad_ext {a c e : Pt} {b : Rng} {x y : Rat} (ha : PIn b a) (hx : PIn b (quadExtremaPoint a c e)) (he : PIn b e) (ht : Seg.Through x y (.quad a c e)) :
    In b.x x ∧ In b.y y := by
  obtain ⟨ax, ay⟩ := a
  obtain ⟨cx, cy⟩ := c
  obtain ⟨ex, ey⟩ := e
  cases ax <;> cases ay <;> cases cx <;> cases cy <;> cases ex <;> cases ey <;> simp only [Seg.Through] at ht
  rename_i ax ay cx cy ex ey
  obtain ⟨t, h0, h1, rfl, rfl⟩ := ht
  have hx1 := hx.1 _ (quadExtremum_eq ax cx ex)
  have hx2 := hx.2 _ (quadExtremum_eq ay cy ey)
  constructor
  · exact in_conv (l := [ax, bez2 ax cx ex (tStar ax cx ex), ex]) (by intro z hz; simp at hz; rcases hz with rfl | rfl | rfl; exact ha.1 _ rfl; exact hx1; exact he.1 _ rfl) (by simp)
      (fun lo hi h => quad_in h0 h1 (h _ (by simp)) (h _ (by simp)) (h _ (by simp)))
  · exact in_conv (l := [ay, bez2 ay cy ey (tStar ay cy ey), ey]) (by intro z hz; simp at hz; rcases hz with rfl | rfl | rfl; exact ha.2 _ rfl; exact hx2; exact he.2 _ rfl) (by simp)
      (fun lo hi h => quad_in h0 h1 (h _ (by simp)) (h _ (by simp)) (h _ (by simp)))

theorem cubic_hull {a c d e : Pt} {b : Rng} {x y : Rat} (ha : PIn b a) (hc : PIn b c) (hd : PIn b d) (he : PIn b e) (ht : Seg.Through x y (.cubic a c d e)) :
    In b.x x ∧ In b.y y := by
  obtain ⟨ax, ay⟩ := a
  obtain ⟨cx, cy⟩ := c
  obtain ⟨dx, dy⟩ := d
  obtain ⟨ex, ey⟩ := e
  cases ax <;> cases ay <;> cases cx <;> cases cy <;> cases dx <;> cases dy <;> cases ex <;> cases ey <;> simp only [Seg.Through] at ht
  rename_i ax ay cx cy dx dy ex ey
  obtain ⟨t, h0, h1, rfl, rfl⟩ := ht
  constructor
  · exact in_conv (l := [ax, cx, dx, ex]) (by intro z hz; simp at hz; rcases hz with rfl | rfl | rfl | rfl; exact ha.1 _ rfl; exact hc.1 _ rfl; exact hd.1 _ rfl; exact he.1 _ rfl) (by simp)
      (fun lo hi h => bez3_in h0 h1 (h _ (by simp)) (h _ (by simp)) (h _ (by simp)) (h _ (by simp)))
  · exact in_conv (l := [ay, cy, dy, ey]) (by intro z hz; simp at hz; rcases hz with rfl | rfl | rfl | rfl; exact ha.2 _ rfl; exact hc.2 _ rfl; exact hd.2 _ rfl; exact he.2 _ rfl) (by simp)
      (fun lo hi h => bez3_in h0 h1 (h _ (by simp)) (h _ (by simp)) (h _ (by simp)) (h _ (by simp)))

/-- The current vertex, as far as there is one. -/
def cur (hp : Bool) (prev : Option Pt) : Option Pt := if hp then prev else none

theorem update_segs {E : Ext} (n : Nat) : ∀ (xs : List Item), xs.length ≤ n → ∀ (hp : Bool) (prev : Option Pt) (u v : Upd),
    (hp = true → ∃ p, prev = some p ∧ PIn u.bounding p) → update E hp prev u xs = some (true, v) →
    RSub u.bounding v.bounding ∧ RSub u.control v.control ∧ RSub v.bounding v.control ∧
    ∀ s ∈ segs (cur hp prev) xs, SegIn s v.bounding v.control := by
  have base : ∀ (hp : Bool) (prev : Option Pt) (u v : Upd), update E hp prev u [] = some (true, v) →
      RSub u.bounding v.bounding ∧ RSub u.control v.control ∧ RSub v.bounding v.control ∧ ∀ s ∈ segs (cur hp prev) [], SegIn s v.bounding v.control := by
    intro hp prev u v h
    unfold update at h
    simp only [Option.some.injEq, Prod.mk.injEq, true_and] at h
    subst h
    refine ⟨RSub.rfl' _, ⟨sub_union_left _ _, sub_union_left _ _⟩, ⟨sub_union_right _ _, sub_union_right _ _⟩, ?_⟩
    intro s hs; simp [segs] at hs
  induction n with
  | zero =>
    intro xs hl hp prev u v _ h
    have : xs = [] := List.length_eq_zero_iff.1 (by omega)
    subst this
    exact base _ _ _ _ h
  | succ n ih =>
    intro xs hl hp prev u v hprev h
    cases xs with
    | nil => exact base _ _ _ _ h
    | cons i t =>
      have hlt : t.length ≤ n := by simpa using hl
      unfold update at h
      unfold segs
      split at h
      · rename_i hc
        rw [if_pos hc]
        obtain ⟨r1, r2, r3, r4⟩ := ih t hlt _ _ _ _ (fun _ => ⟨_, rfl, pin_bound _ _⟩) h
        have hin : PIn v.bounding i.vtx := (pin_bound _ _).mono r1
        refine ⟨(rsub_bound _ _).trans r1, r2, r3, ?_⟩
        intro s hs
        rcases List.mem_cons.1 hs with rfl | hs
        · exact ⟨hin, fun _ x y ht => move_in hin ht, fun x y ht => move_in (hin.mono r3) ht, trivial⟩
        · exact r4 s hs
      rename_i hc0
      rw [if_neg hc0]
      split at h
      · rename_i hc
        split at h
        · simp at h
        · rename_i hh
          have hh : hp = true := by simpa using hh
          subst hh
          obtain ⟨p, rfl, hp⟩ := hprev rfl
          obtain ⟨r1, r2, r3, r4⟩ := ih t hlt _ _ _ _ (fun _ => ⟨_, rfl, pin_bound _ _⟩) h
          have hin : PIn v.bounding i.vtx := (pin_bound _ _).mono r1
          have hinp : PIn v.bounding p := (hp.mono (rsub_bound _ _)).mono r1
          refine ⟨(rsub_bound _ _).trans r1, r2, r3, ?_⟩
          intro s hs
          rw [if_neg (by rw [hc]; decide)] at hs
          simp only [cur, if_true] at hs
          rw [if_pos hc] at hs
          rcases List.mem_cons.1 hs with rfl | hs
          · exact ⟨hin, fun _ x y ht => line_in hinp hin ht, fun x y ht => line_in (hinp.mono r3) (hin.mono r3) ht, trivial⟩
          · exact r4 s hs
      rename_i hc1
      split at h
      · rename_i hc
        cases t with
        | nil => simp at h
        | cons e t =>
          simp only at h
          split at h
          · simp at h
          · rename_i hh
            have hh : hp = true := by simpa using hh
            subst hh
            obtain ⟨p, rfl, hp⟩ := hprev rfl
            obtain ⟨w, hw1, hw2⟩ := Option.bind_eq_some_iff.1 h
            obtain ⟨q1, q2, q3, _, q4, q5⟩ := quadStep_bounds hw1
            obtain ⟨r1, r2, r3, r4⟩ := ih t (by simp at hlt; omega) _ _ _ _ (fun _ => ⟨_, rfl, q3⟩) hw2
            have hin : PIn v.bounding e.vtx := q3.mono r1
            have hinp : PIn v.bounding p := (hp.mono q1).mono r1
            have hctl : PIn v.control i.vtx := q4.elim (fun g => g.mono r2) (fun g => (g.mono r1).mono r3)
            refine ⟨q1.trans r1, q2.trans r2, r3, ?_⟩
            intro s hs
            rw [if_neg (by rw [hc]; decide)] at hs
            simp only [cur, if_true] at hs
            rw [if_neg hc1, if_pos hc] at hs
            rcases List.mem_cons.1 hs with rfl | hs
            · refine ⟨hin, fun _ x y ht => ?_, fun x y ht => quad_hull (hinp.mono r3) hctl (hin.mono r3) ht, hctl⟩
              rcases q5 with ⟨q5, q6⟩ | q5
              · exact quad_hull hinp (q6.mono r1) hin ht
              · exact quad_ext hinp (by rw [q5] at r1; exact (pin_bound _ _).mono r1) hin ht
            · exact r4 s hs
      rename_i hc2
      split at h
      · rename_i hc
        rcases t with _ | ⟨w, _ | ⟨e, t⟩⟩
        · simp at h
        · simp at h
        · simp only at h
          split at h
          · simp at h
          · rename_i hh
            have hh : hp = true := by simpa using hh
            subst hh
            obtain ⟨p, rfl, hp⟩ := hprev rfl
            obtain ⟨z, hw1, hw2⟩ := Option.bind_eq_some_iff.1 h
            obtain ⟨q1, q2, q3⟩ := conicStep_bounds hw1
            obtain ⟨r1, r2, r3, r4⟩ := ih t (by simp at hlt; omega) _ _ _ _ (fun _ => ⟨_, rfl, q3⟩) hw2
            refine ⟨q1.trans r1, q2.trans r2, r3, ?_⟩
            intro s hs
            rw [if_neg (by rw [hc]; decide)] at hs
            simp only [cur, if_true] at hs
            rw [if_neg hc1, if_neg hc2, if_pos hc] at hs
            rcases List.mem_cons.1 hs with rfl | hs
            · exact ⟨q3.mono r1, fun g => g.elim, fun x y g => by simp [Seg.Through] at g, trivial⟩
            · exact r4 s hs
      rename_i hc3
      split at h
      · rename_i hc
        rcases t with _ | ⟨w, _ | ⟨e, t⟩⟩
        · simp at h
        · simp at h
        · simp only at h
          split at h
          · simp at h
          · rename_i hh
            have hh : hp = true := by simpa using hh
            subst hh
            obtain ⟨p, rfl, hp⟩ := hprev rfl
            obtain ⟨z, hw1, hw2⟩ := Option.bind_eq_some_iff.1 h
            obtain ⟨q1, q2, q3, q4⟩ := cubicStep_bounds hw1
            obtain ⟨r1, r2, r3, r4⟩ := ih t (by simp at hlt; omega) _ _ _ _ (fun _ => ⟨_, rfl, q3⟩) hw2
            have hctl : PIn v.control i.vtx ∧ PIn v.control w.vtx :=
              q4.elim (fun g => ⟨g.1.mono r2, g.2.mono r2⟩) (fun g => ⟨(g.1.mono r1).mono r3, (g.2.mono r1).mono r3⟩)
            have hinp : PIn v.bounding p := (hp.mono q1).mono r1
            refine ⟨q1.trans r1, q2.trans r2, r3, ?_⟩
            intro s hs
            rw [if_neg (by rw [hc]; decide)] at hs
            simp only [cur, if_true] at hs
            rw [if_neg hc1, if_neg hc2, if_neg hc3, if_pos hc] at hs
            rcases List.mem_cons.1 hs with rfl | hs
            · exact ⟨q3.mono r1, fun g => g.elim,
                fun x y g => cubic_hull (hinp.mono r3) hctl.1 hctl.2 ((q3.mono r1).mono r3) g, hctl⟩
            · exact r4 s hs
      split at h
      · rename_i hc
        rw [if_pos hc]
        obtain ⟨r1, r2, r3, r4⟩ := ih t hlt _ _ _ _ (fun h => by simp at h) h
        exact ⟨r1, r2, r3, r4⟩
      · simp at h

/-! ### The box is not too big -/

/-- Each end of the interval is a coordinate of a point. -/
def Att (P : Rat → Prop) (iv : Iv) : Prop := ∀ a b, iv = some (a, b) → P a ∧ P b

theorem att_bound {P : Rat → Prop} {iv : Iv} (h : Att P iv) (f : F) (hf : ∀ q, f = some q → P q) : Att P (iv.bound f) := by
  intro a b hab
  cases f with
  | none => exact h a b hab
  | some q =>
    cases iv with
    | none => simp only [Iv.bound, Option.some.injEq, Prod.mk.injEq] at hab; exact ⟨hab.1 ▸ hf q rfl, hab.2 ▸ hf q rfl⟩
    | some p =>
      obtain ⟨l, r⟩ := p
      simp only [Iv.bound, Option.some.injEq, Prod.mk.injEq] at hab
      obtain ⟨h1, h2⟩ := h l r rfl
      constructor
      · rw [← hab.1]; split
        · exact hf q rfl
        · exact h1
      · rw [← hab.2]; split
        · exact hf q rfl
        · exact h2

/-- Points of segments. -/
def On (S : List Seg) (x y : Rat) : Prop := ∃ s ∈ S, s.Through x y

/-- Both axes. -/
def RAtt (S : List Seg) (r : Rng) : Prop := Att (fun x => ∃ y, On S x y) r.x ∧ Att (fun y => ∃ x, On S x y) r.y

theorem ratt_bound {S : List Seg} {r : Rng} (h : RAtt S r) (p : Pt) (hp : ∀ x, p.x = some x → ∃ y, On S x y)
    (hq : ∀ y, p.y = some y → ∃ x, On S x y) : RAtt S (r.bound p) := ⟨att_bound h.1 _ hp, att_bound h.2 _ hq⟩

/-- The end of a segment is on it. -/
theorem on_stop {S : List Seg} {s : Seg} (hs : s ∈ S) (x y : Rat) (ht : s.Through x y) {r : Rng} (h : RAtt S r) : RAtt S (r.bound ⟨some x, some y⟩) :=
  ratt_bound h _ (fun q hq => by cases hq; exact ⟨y, s, hs, ht⟩) (fun q hq => by cases hq; exact ⟨x, s, hs, ht⟩)

theorem update_att {E : Ext} {S : List Seg} (n : Nat) : ∀ (xs : List Item), xs.length ≤ n → ∀ (hp : Bool) (prev : Option Pt) (u v : Upd),
    (hp = true → ∃ p, prev = some p) → (∀ s ∈ segs (cur hp prev) xs, s ∈ S ∧ s.Basic ∧ s.Finite) → RAtt S u.bounding → update E hp prev u xs = some (true, v) →
    RAtt S v.bounding := by
  have base : ∀ (hp : Bool) (prev : Option Pt) (u v : Upd), RAtt S u.bounding → update E hp prev u [] = some (true, v) →
      RAtt S v.bounding := by
    intro hp prev u v ha h
    unfold update at h
    simp only [Option.some.injEq, Prod.mk.injEq, true_and] at h
    subst h
    exact ha
  induction n with
  | zero =>
    intro xs hl hp prev u v _ _ ha h
    have : xs = [] := List.length_eq_zero_iff.1 (by omega)
    subst this
    exact base _ _ _ _ ha h
  | succ n ih =>
    intro xs hl hp prev u v hprev hseg ha h
    cases xs with
    | nil => exact base _ _ _ _ ha h
    | cons i t =>
      have hlt : t.length ≤ n := by simpa using hl
      unfold update at h
      unfold segs at hseg
      split at h
      · rename_i hc
        rw [if_pos hc] at hseg
        obtain ⟨x, y, hi⟩ := (hseg (.move i.vtx) (by simp)).2.2
        refine ih t hlt _ _ _ _ (fun _ => ⟨_, rfl⟩) (fun s hs => hseg s (by simp only [cur, if_true] at hs; simp [hs])) ?_ h
        have := hseg (.move i.vtx) (by simp)
        rw [hi] at this ⊢
        exact on_stop this.1 x y rfl ha
      rename_i hc0
      rw [if_neg hc0] at hseg
      split at h
      · rename_i hc
        split at h
        · simp at h
        · rename_i hh
          have hh : hp = true := by simpa using hh
          subst hh
          obtain ⟨p, rfl⟩ := hprev rfl
          rw [if_neg (by rw [hc]; decide)] at hseg
          simp only [cur, if_true] at hseg
          rw [if_pos hc] at hseg
          obtain ⟨⟨px, py, rfl⟩, x, y, hi⟩ := (hseg (.line p i.vtx) (List.mem_cons_self ..)).2.2
          refine ih t hlt _ _ _ _ (fun _ => ⟨_, rfl⟩) (fun s hs => hseg s (by simp only [cur, if_true] at hs; simp [hs])) ?_ h
          have := hseg (.line _ i.vtx) (List.mem_cons_self ..)
          rw [hi] at this ⊢
          exact on_stop this.1 x y ⟨1, by norm_num, by norm_num, by simp [bez1], by simp [bez1]⟩ ha
      rename_i hc1
      split at h
      · rename_i hc
        cases t with
        | nil => simp at h
        | cons e t =>
          simp only at h
          split at h
          · simp at h
          · rename_i hh
            have hh : hp = true := by simpa using hh
            subst hh
            obtain ⟨p, rfl⟩ := hprev rfl
            obtain ⟨w, hw1, hw2⟩ := Option.bind_eq_some_iff.1 h
            rw [if_neg (by rw [hc]; decide)] at hseg
            simp only [cur, if_true] at hseg
            rw [if_neg hc1, if_pos hc] at hseg
            have hs0 := hseg (.quad p i.vtx e.vtx) (List.mem_cons_self ..)
            obtain ⟨_, _, _, _, _, q5⟩ := quadStep_bounds hw1
            obtain ⟨⟨px, py, rfl⟩, ⟨cx, cy, hi⟩, x, y, hex⟩ := hs0.2.2
            refine ih t (by simp at hlt; omega) _ _ _ _ (fun _ => ⟨_, rfl⟩) (fun s hs => hseg s (by simp only [cur, if_true] at hs; simp [hs])) ?_ hw2
            rw [hi, hex] at hs0
            have h1 : RAtt S (u.bounding.bound e.vtx) := by
              rw [hex]
              exact on_stop hs0.1 x y ⟨1, by norm_num, by norm_num, by simp [bez2], by simp [bez2]⟩ ha
            rcases q5 with ⟨q5, _⟩ | q5
            · rw [q5]; exact h1
            · rw [q5, hi, hex]
              rw [hex] at h1
              apply ratt_bound h1
              · intro q hq
                simp only [quadExtremaPoint, quadExtremum_eq, Option.some.injEq] at hq
                subst hq
                obtain ⟨t0, t1⟩ := tStar_in px cx x
                exact ⟨_, _, hs0.1, _, t0, t1, rfl, rfl⟩
              · intro q hq
                simp only [quadExtremaPoint, quadExtremum_eq, Option.some.injEq] at hq
                subst hq
                obtain ⟨t0, t1⟩ := tStar_in py cy y
                exact ⟨_, _, hs0.1, _, t0, t1, rfl, rfl⟩
      rename_i hc2
      split at h
      · rename_i hc
        rcases t with _ | ⟨w, _ | ⟨e, t⟩⟩
        · simp at h
        · simp at h
        · simp only at h
          split at h
          · simp at h
          · rename_i hh
            have hh : hp = true := by simpa using hh
            subst hh
            obtain ⟨p, rfl⟩ := hprev rfl
            rw [if_neg (by rw [hc]; decide)] at hseg
            simp only [cur, if_true] at hseg
            rw [if_neg hc1, if_neg hc2, if_pos hc] at hseg
            exact (hseg _ (List.mem_cons_self ..)).2.1.elim
      rename_i hc3
      split at h
      · rename_i hc
        rcases t with _ | ⟨w, _ | ⟨e, t⟩⟩
        · simp at h
        · simp at h
        · simp only at h
          split at h
          · simp at h
          · rename_i hh
            have hh : hp = true := by simpa using hh
            subst hh
            obtain ⟨p, rfl⟩ := hprev rfl
            rw [if_neg (by rw [hc]; decide)] at hseg
            simp only [cur, if_true] at hseg
            rw [if_neg hc1, if_neg hc2, if_neg hc3, if_pos hc] at hseg
            exact (hseg _ (List.mem_cons_self ..)).2.1.elim
      split at h
      · rename_i hc
        rw [if_pos hc] at hseg
        exact ih t hlt _ _ _ _ (fun h => by simp at h) (fun s hs => hseg s (by simpa [cur] using hs)) ha h
      · simp at h

end Blend2D.Path
