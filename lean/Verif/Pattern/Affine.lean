import Verif.Pattern.Lemmas
import Mathlib.Tactic.Linarith
import Mathlib.Tactic.FieldSimp

/-!
# C32: Patterns with an arbitrary transformation
-/

namespace Blend2D.Pattern

/-! ### Remainder of the axis parameters -/

/-- 32.32 fixed point one. -/
abbrev one : Int := 4294967296

/-- Parameters of a repeated or reflected axis. -/
structure Tiled (w : Int) (m : Ext) (neg : Bool) (a : Axis) : Prop where
  hm : m ≠ .pad
  hr : a.r = period w m
  htw : a.tw = period w m
  ho : a.o = if neg ∧ m = .rep then -1 else w - 1
  hmn : a.mn = i32Min
  hmx : a.mx = if neg ∧ m = .rep then -1 else w - 1
  hcor : a.cor = if m = .rep ∧ ¬ neg then 0 else w - 1
  hxx0 : 0 ≤ a.xx
  hxx1 : a.xx < period w m * one

/-- Parameters of a padded axis. -/
structure Padded (w : Int) (a : Axis) : Prop where
  hr : a.r = 0
  htw : a.tw = i32Max
  ho : a.o = i32Max
  hmn : a.mn = 0
  hmx : a.mx = w - 1
  hcor : a.cor = w - 1

theorem fmod_range {x y : ℚ} (hx : 0 ≤ x) (hy : 0 < y) : 0 ≤ fmod x y ∧ fmod x y < y := by
  have hxy : 0 ≤ x / y := by positivity
  unfold fmod
  rw [if_pos hxy]
  have h1 := Int.floor_le (x / y)
  have h2 := Int.lt_floor_add_one (x / y)
  have e : y * (x / y) = x := by field_simp
  have h3 := mul_le_mul_of_nonneg_left h1 hy.le
  have h4 := mul_lt_mul_of_pos_left h2 hy
  rw [e] at h3 h4
  constructor <;> nlinarith

theorem fmod_congr (x y : ℚ) : ∃ j : Int, fmod x y = x - y * j := ⟨_, rfl⟩

/-- Whether the axis is stored mirrored. -/
def mirrored (m : Ext) (xx : ℚ) : Bool := m ≠ .pad ∧ xx < 0

theorem tiled_init {w : Int} (hw : 0 < w) {m : Ext} (hm : m ≠ .pad) (xx yx tx : ℚ) (nearest fits : Bool) :
    Tiled w m (mirrored m xx) (initAxis w m xx yx tx nearest fits) := by
  have hp : (if m = .reflect then w * 2 else w) = period w m := by
    cases m with
    | pad => exact absurd rfl hm
    | rep => simp [period]
    | reflect => simp [period]
  have hpp : 0 < period w m := by
    cases m with
    | pad => exact absurd rfl hm
    | rep => exact hw
    | reflect => simp only [period]; omega
  have hq : (0 : ℚ) < (period w m : Int) := by exact_mod_cast hpp
  have hx : ∀ z : ℚ, 0 ≤ z → z < (period w m : Int) → 0 ≤ (if fits then ⌊z * 4294967296⌋ else 0) ∧
      (if fits then ⌊z * 4294967296⌋ else 0) < period w m * one := by
    intro z h0 h1
    split_ifs
    · constructor
      · exact Int.floor_nonneg.mpr (by positivity)
      · rw [Int.floor_lt]
        push_cast
        have : z * 4294967296 < (period w m : Int) * 4294967296 := mul_lt_mul_of_pos_right h1 (by norm_num)
        exact this
    · exact ⟨le_refl _, by positivity⟩
  have hnn : 0 ≤ (if mirrored m xx then -xx else xx) := by
    unfold mirrored
    by_cases h : xx < 0
    · simp only [hm, h, ne_eq, not_false_eq_true, and_self, decide_true, if_true]; linarith
    · simp only [h, and_false, decide_false, Bool.false_eq_true, if_false]; linarith
  have hxx : ∃ z : ℚ, 0 ≤ z ∧ z < (period w m : Int) ∧
      (initAxis w m xx yx tx nearest fits).xx = (if fits then ⌊z * 4294967296⌋ else 0) := by
    refine ⟨_, ?_, ?_, rfl⟩
    · simp only [hm, hp, ne_eq, not_false_eq_true, true_and]
      split_ifs with h1 h2
      all_goals first
        | exact (fmod_range (by linarith) hq).1
        | (simp only [decide_eq_true_eq] at *; linarith)
    · simp only [hm, hp, ne_eq, not_false_eq_true, true_and]
      split_ifs with h1 h2
      all_goals first
        | exact (fmod_range (by simp only [decide_eq_true_eq] at *; linarith) hq).2
        | (simp only [decide_eq_true_eq] at *; linarith)
  obtain ⟨z, z0, z1, ze⟩ := hxx
  refine ⟨hm, ?_, ?_, ?_, ?_, ?_, ?_, ?_, ?_⟩
  · simp only [initAxis, hm, if_false, hp]
  · simp only [initAxis, hm, if_false, hp]
  · simp only [initAxis, hm, if_false, mirrored]; congr
  · simp only [initAxis, hm, if_false]
  · simp only [initAxis, mirrored]; congr
  · simp only [initAxis, mirrored]; congr
  · rw [ze]; exact (hx z z0 z1).1
  · rw [ze]; exact (hx z z0 z1).2

theorem padded_init (w : Int) (xx yx tx : ℚ) (nearest fits : Bool) :
    Padded w (initAxis w .pad xx yx tx nearest fits) := by
  refine ⟨?_, ?_, ?_, ?_, ?_, ?_⟩ <;> simp [initAxis]

/-! ### Position and index -/

theorem hi_lo (v : Int) : v = hi v * one + lo v := by unfold hi lo one; omega

theorem lo_range (v : Int) : 0 ≤ lo v ∧ lo v < one := by unfold lo one; omega

theorem hi_mk {x l : Int} (h : 0 ≤ l ∧ l < one) : hi (x * one + l) = x := by unfold hi one at *; omega

theorem lo_mk {x l : Int} (h : 0 ≤ l ∧ l < one) : lo (x * one + l) = l := by unfold lo one at *; omega

theorem wrap64_id {x : Int} (h0 : -(2 ^ 63) ≤ x) (h1 : x < 2 ^ 63) : wrap64 x = x := by
  unfold wrap64
  exact Int.bmod_eq_of_le (by omega) (by omega)

theorem wrap64_range (x : Int) : -(2 ^ 63) ≤ wrap64 x ∧ wrap64 x < 2 ^ 63 := by
  unfold wrap64
  have h1 := Int.le_bmod (x := x) (m := 2 ^ 64) (by norm_num)
  have h2 := Int.bmod_lt (x := x) (m := 2 ^ 64) (by norm_num)
  constructor <;> omega

theorem wrap64_add (x y : Int) : wrap64 (wrap64 x + y) = wrap64 (x + y) := by
  unfold wrap64; exact Int.bmod_add_bmod

/-- The stored position is inside of the tile and denotes `P`. -/
def NInv (a : Axis) (p P : Int) : Prop :=
  a.o + 1 - a.r ≤ hi p ∧ hi p ≤ a.o ∧ ∃ j, p = P + j * a.r * one

section
variable {w : Int} {m : Ext} {neg : Bool} {a : Axis}

theorem Tiled.bounds (T : Tiled w m neg a) (hw : 0 < w) (hw' : w < 2 ^ 16) :
    0 < a.r ∧ a.r < 2 ^ 17 ∧ a.o + 1 ≤ a.r ∧ -1 ≤ a.o ∧ a.o < 2 ^ 16 := by
  have hr := T.hr
  have ho := T.ho
  have hm := T.hm
  cases m with
  | pad => exact absurd rfl hm
  | rep =>
    simp only [period] at hr
    split_ifs at ho <;> omega
  | reflect =>
    simp only [period, reduceCtorEq, and_false, if_false] at hr ho
    omega

theorem Tiled.normalize (T : Tiled w m neg a) (hw : 0 < w) (hw' : w < 2 ^ 16) (v : Int) : NInv a (normalize a v) v := by
  obtain ⟨b1, b2, b3, b4, b5⟩ := T.bounds hw hw'
  have htw : a.tw = a.r := by rw [T.htw, T.hr]
  have e1 := Int.tmod_add_mul_tdiv (hi v) a.r
  have c1 : (hi v).tmod a.r < a.r := Int.tmod_lt_of_pos _ b1
  have c2 : -a.r < (hi v).tmod a.r := by have := Int.lt_tmod_of_pos (hi v) b1; omega
  have l := lo_range v
  have key : ∃ x j, Pattern.normalize a v = wrap64 (x * one + lo v) ∧ a.o + 1 - a.r ≤ x ∧ x ≤ a.o ∧ x = hi v + j * a.r := by
    unfold Pattern.normalize
    rw [htw]
    dsimp only
    split_ifs with h1 h2 h2
    · exact ⟨_, -(hi v).tdiv a.r, rfl, by omega, by omega, by linear_combination e1⟩
    · exact ⟨_, 1 - (hi v).tdiv a.r, rfl, by omega, by omega, by linear_combination e1⟩
    · exact ⟨_, -1 - (hi v).tdiv a.r, rfl, by omega, by omega, by linear_combination e1⟩
    · exact ⟨_, -(hi v).tdiv a.r, rfl, by omega, by omega, by linear_combination e1⟩
  obtain ⟨x, j, ex, x0, x1, xe⟩ := key
  rw [wrap64_id (by unfold one at *; omega) (by unfold one at *; omega)] at ex
  rw [ex]
  refine ⟨by rw [hi_mk l]; omega, by rw [hi_mk l]; omega, j, ?_⟩
  have := hi_lo v
  rw [xe]
  linear_combination -this

theorem Tiled.advance (T : Tiled w m neg a) (hw : 0 < w) (hw' : w < 2 ^ 16) {p P : Int} (h : NInv a p P) :
    NInv a (advanceX a p) (P + a.xx) := by
  obtain ⟨b1, b2, b3, b4, b5⟩ := T.bounds hw hw'
  obtain ⟨h0, h1, j, hj⟩ := h
  have x0 := T.hxx0
  have x1 := T.hxx1
  rw [← T.hr] at x1
  have e := hi_lo p
  have l := lo_range p
  have hb : hi p * one ≤ a.o * one := Int.mul_le_mul_of_nonneg_right h1 (by decide)
  have hb' : (a.o + 1 - a.r) * one ≤ hi p * one := Int.mul_le_mul_of_nonneg_right h0 (by decide)
  have ew : wrap64 (p + a.xx) = p + a.xx := wrap64_id (by unfold one at *; omega) (by unfold one at *; omega)
  unfold advanceX
  simp only [ew]
  have l' := lo_range (p + a.xx)
  have e' := hi_lo (p + a.xx)
  have u1 : hi (p + a.xx) ≤ a.o + a.r := by unfold hi one at *; omega
  have u0 : a.o + 1 - a.r ≤ hi (p + a.xx) := by unfold hi one at *; omega
  split_ifs with hs
  · have ew2 : wrap64 ((hi (p + a.xx) - a.r) * 4294967296 + lo (p + a.xx)) = (hi (p + a.xx) - a.r) * one + lo (p + a.xx) :=
      wrap64_id (by unfold one at *; omega) (by unfold one at *; omega)
    rw [ew2]
    refine ⟨by rw [hi_mk l']; omega, by rw [hi_mk l']; omega, j - 1, ?_⟩
    linear_combination hj - e'
  · have ew2 : wrap64 (hi (p + a.xx) * 4294967296 + lo (p + a.xx)) = hi (p + a.xx) * one + lo (p + a.xx) :=
      wrap64_id (by unfold one at *; omega) (by unfold one at *; omega)
    rw [ew2]
    refine ⟨by rw [hi_mk l']; omega, by rw [hi_mk l']; omega, j, ?_⟩
    linear_combination hj - e'

/-- The position in the orientation of the image. -/
def orient (neg : Bool) (x : Int) : Int := if neg then -1 - x else x

theorem pixelAt_shift {n : Int} {m : Ext} (hm : m ≠ .pad) (x j : Int) : pixelAt n m (x + j * period n m) = pixelAt n m x := by
  cases m with
  | pad => exact absurd rfl hm
  | rep => simp only [pixelAt, period, Int.add_mul_emod_self_right]
  | reflect =>
    have e : (x + j * period n .reflect) % (2 * n) = x % (2 * n) := by
      rw [show x + j * period n .reflect = x + j * (2 * n) by simp only [period]; ring, Int.add_mul_emod_self_right]
    simp only [pixelAt, e]

theorem reflect_symm {n : Int} (hn : 0 < n) (x : Int) : pixelAt n .reflect (-1 - x) = pixelAt n .reflect x := by
  have h0 := Int.emod_nonneg x (show 2 * n ≠ 0 by omega)
  have h1 := Int.emod_lt_of_pos x (show 0 < 2 * n by omega)
  have e : (-1 - x) % (2 * n) = 2 * n - 1 - x % (2 * n) := by
    have hd := Int.emod_add_mul_ediv x (2 * n)
    rw [show -1 - x = (2 * n - 1 - x % (2 * n)) + (2 * n) * (-1 - x / (2 * n)) by linear_combination hd,
      Int.add_mul_emod_self_left]
    exact Int.emod_eq_of_lt (by omega) (by omega)
  simp only [pixelAt, e]
  split_ifs <;> omega

theorem Tiled.index (T : Tiled w m neg a) (hw : 0 < w) (hw' : w < 2 ^ 16) {p P off : Int} (h : NInv a p P)
    (ho : off = 0 ∨ off = 1) : index a p off = pixelAt w m (orient neg (hi P + off)) := by
  obtain ⟨b1, b2, b3, b4, b5⟩ := T.bounds hw hw'
  obtain ⟨h0, h1, j, hj⟩ := h
  have hP : hi P = hi p + (-j) * a.r := by
    have e1 := hi_lo p
    have l1 := lo_range p
    rw [show P = (hi p + (-j) * a.r) * one + lo p by linear_combination e1 - hj]
    exact hi_mk l1
  have hpos : pixelAt w m (orient neg (hi P + off)) = pixelAt w m (orient neg (hi p + off)) := by
    rw [hP, T.hr]
    unfold orient
    split_ifs
    · rw [show -1 - (hi p + -j * period w m + off) = -1 - (hi p + off) + j * period w m by ring]
      exact pixelAt_shift T.hm _ _
    · rw [show hi p + -j * period w m + off = hi p + off + (-j) * period w m by ring]
      exact pixelAt_shift T.hm _ _
  rw [hpos]
  obtain ⟨x, hx⟩ : ∃ x, x = hi p := ⟨_, rfl⟩
  have et : toI32 (hi p + off) = x + off := by
    unfold toI32
    rw [hx]
    exact Int.bmod_eq_of_le (by omega) (by omega)
  rw [← hx] at h0 h1 ⊢
  have hm := T.hm
  have emx := T.hmx
  have eo := T.ho
  have ecor := T.hcor
  have emn := T.hmn
  have er := T.hr
  unfold Pattern.index
  rw [et, emn]
  have emax : max (x + off) i32Min = x + off := by unfold i32Min; omega
  simp only [emax]
  cases m with
  | pad => exact absurd rfl hm
  | rep =>
    simp only [period] at er
    cases neg with
    | false =>
      simp only [Bool.false_eq_true, false_and, if_false, not_false_eq_true, and_self, if_true] at emx eo ecor
      rw [emx, ecor]
      simp only [orient, Bool.false_eq_true, if_false, pixelAt]
      by_cases hc : x + off > w - 1
      · have : x + off = w := by omega
        rw [if_pos hc, this, Int.emod_self, if_neg (by omega)]
      · rw [if_neg hc, if_neg (by omega)]
        exact (Int.emod_eq_of_lt (by omega) (by omega)).symm
    | true =>
      simp only [not_true, and_false, if_false, and_self, if_true] at emx eo ecor
      rw [emx, ecor]
      simp only [orient, if_true, pixelAt]
      by_cases hc : x + off > -1
      · have : x + off = 0 := by omega
        rw [if_pos hc, this, if_neg (by omega), show (-1 - 0 : Int) = (w - 1) + w * (-1) by ring, Int.add_mul_emod_self_left]
        exact (Int.emod_eq_of_lt (by omega) (by omega)).symm
      · rw [if_neg hc, if_pos (by omega), show -(x + off) - 1 = -1 - (x + off) by ring]
        exact (Int.emod_eq_of_lt (by omega) (by omega)).symm
  | reflect =>
    simp only [period] at er
    simp only [reduceCtorEq, and_false, false_and, if_false] at emx eo ecor
    rw [emx, ecor]
    have hs : pixelAt w .reflect (orient neg (x + off)) = pixelAt w .reflect (x + off) := by
      cases neg
      · rfl
      · exact reflect_symm hw _
    rw [hs]
    have hcore : ∀ z : Int, -w ≤ z → z ≤ w → pixelAt w .reflect z = if z > w - 1 then w - 1 else if z < 0 then -z - 1 else z := by
      intro z z0 z1
      simp only [pixelAt]
      by_cases hz : z < 0
      · have : z % (2 * w) = z + 2 * w := by
          rw [show z = (z + 2 * w) + (2 * w) * (-1) by ring, Int.add_mul_emod_self_left]
          rw [Int.emod_eq_of_lt (by omega) (by omega)]; ring
        rw [this]
        split_ifs <;> omega
      · have : z % (2 * w) = z := Int.emod_eq_of_lt (by omega) (by omega)
        rw [this]
        split_ifs <;> omega
    rw [hcore _ (by omega) (by omega)]
    split_ifs <;> omega

theorem Padded.index (T : Padded w a) (hw : 0 < w) {p off : Int} (h0 : -(2 ^ 62) ≤ p) (h1 : p < 2 ^ 62)
    (ho : off = 0 ∨ off = 1) : index a p off = pixelAt w .pad (hi p + off) := by
  have et : toI32 (hi p + off) = hi p + off := by
    unfold toI32
    refine Int.bmod_eq_of_le ?_ ?_ <;> unfold hi <;> omega
  unfold Pattern.index
  rw [et, T.hmn, T.hmx, T.hcor]
  simp only [pixelAt]
  split_ifs <;> omega

theorem Padded.normalize (T : Padded w a) {v : Int} (h0 : -(2 ^ 62) ≤ v) (h1 : v < 2 ^ 62) : normalize a v = v := by
  have e := hi_lo v
  have l := lo_range v
  have c : -(2 ^ 30) ≤ hi v ∧ hi v < 2 ^ 30 := by unfold hi; omega
  have et : (hi v).tmod i32Max = hi v := by
    rcases le_or_gt 0 (hi v) with h | h
    · exact Int.tmod_eq_of_lt h (by unfold i32Max; omega)
    · have : (-hi v).tmod i32Max = -hi v := Int.tmod_eq_of_lt (by omega) (by unfold i32Max; omega)
      rw [Int.neg_tmod] at this
      omega
  unfold Pattern.normalize
  rw [T.htw, T.hr, T.ho, et]
  have : (if hi v < 0 then hi v + 0 else hi v) = hi v := by split_ifs <;> omega
  simp only [this]
  rw [if_neg (by unfold i32Max; omega)]
  rw [show hi v * 4294967296 + lo v = v from e.symm]
  exact wrap64_id (by omega) (by omega)

theorem Padded.advance (T : Padded w a) {p : Int} (h0 : -(2 ^ 62) ≤ p + a.xx) (h1 : p + a.xx < 2 ^ 62) :
    advanceX a p = p + a.xx := by
  unfold advanceX
  have ew : wrap64 (p + a.xx) = p + a.xx := wrap64_id (by omega) (by omega)
  rw [ew, T.hr, T.ho]
  have c : hi (p + a.xx) < 2 ^ 30 := by unfold hi; omega
  simp only []
  rw [if_neg (by unfold i32Max; omega), show hi (p + a.xx) * 4294967296 + lo (p + a.xx) = p + a.xx from (hi_lo _).symm]
  exact ew
end

/-! ### Histories -/

/-- All positions of a history are inside of a `W` by `H` destination. -/
def inside (W H x0 : Int) (p : Pos) : List Call → Prop
  | [] => True
  | c :: cs => let q := p.move x0 c
    0 ≤ q.x ∧ q.x ≤ W ∧ 0 ≤ q.y ∧ q.y ≤ H ∧ inside W H x0 q cs

/-- The fixed point position of the destination pixel `(x, y)`. -/
def fixedAt (a : Axis) (x y : Int) : Int := a.tx + a.yx * y + a.xx * x

/-- `t` holds the start of the scanline. -/
def TInv (a : Axis) (rect : Option Int) (t y : Int) : Prop := t = wrap64 (fixedAt a (rect.getD 0) y)

theorem TInv.init (a : Axis) (rect : Option Int) (y : Int) : TInv a rect (Aff.init a rect y).t y := by
  cases rect with
  | none => simp only [TInv, Aff.init, spanInit, fixedAt, Option.getD_none]; congr 1; ring
  | some x => simp only [TInv, Aff.init, rectInit, fixedAt, Option.getD_some]; congr 1; ring

theorem TInv.advance {a : Axis} {rect : Option Int} {t y : Int} (h : TInv a rect t y) : TInv a rect (advanceY a t) (y + 1) := by
  unfold TInv at *
  unfold advanceY
  rw [h, wrap64_add]
  congr 1
  unfold fixedAt; ring

/-- The position denotes `P`, for padded and tiled axes. -/
def PInv (w : Int) (m : Ext) (a : Axis) (p P : Int) : Prop := if m = .pad then p = P else NInv a p P

section
variable {w : Int} {m : Ext} {neg : Bool} {a : Axis}

/-- The axis is one of the two kinds. -/
def Kind (w : Int) (m : Ext) (neg : Bool) (a : Axis) : Prop := if m = .pad then Padded w a ∧ neg = false else Tiled w m neg a

theorem kind_init {w : Int} (hw : 0 < w) (m : Ext) (xx yx tx : ℚ) (nearest fits : Bool) :
    Kind w m (mirrored m xx) (initAxis w m xx yx tx nearest fits) := by
  unfold Kind
  split_ifs with h
  · subst h; exact ⟨padded_init _ _ _ _ _ _, by simp [mirrored]⟩
  · exact tiled_init hw h _ _ _ _ _

theorem Kind.normalize (K : Kind w m neg a) (hw : 0 < w) (hw' : w < 2 ^ 16) {P : Int} (h0 : -(2 ^ 62) ≤ P) (h1 : P < 2 ^ 62) :
    PInv w m a (Pattern.normalize a P) P := by
  unfold Kind at K; unfold PInv
  split_ifs at * with h
  · exact K.1.normalize h0 h1
  · exact K.normalize hw hw' P

theorem Kind.advance (K : Kind w m neg a) (hw : 0 < w) (hw' : w < 2 ^ 16) {p P : Int} (h : PInv w m a p P)
    (h0 : -(2 ^ 62) ≤ P + a.xx) (h1 : P + a.xx < 2 ^ 62) : PInv w m a (advanceX a p) (P + a.xx) := by
  unfold Kind at K; unfold PInv at *
  split_ifs at * with hm
  · subst h; exact K.1.advance h0 h1
  · exact K.advance hw hw' h

theorem Kind.index (K : Kind w m neg a) (hw : 0 < w) (hw' : w < 2 ^ 16) {p P off : Int} (h : PInv w m a p P)
    (h0 : -(2 ^ 62) ≤ P) (h1 : P < 2 ^ 62) (ho : off = 0 ∨ off = 1) :
    Pattern.index a p off = pixelAt w m (orient neg (hi P + off)) := by
  unfold Kind at K; unfold PInv at *
  split_ifs at * with hm
  · subst h; rw [K.2, hm]; exact K.1.index hw h0 h1 ho
  · exact K.index hw hw' h ho

theorem PInv.lo {p P : Int} (h : PInv w m a p P) : lo p = lo P := by
  unfold PInv at h
  split_ifs at h
  · rw [h]
  · obtain ⟨-, -, j, hj⟩ := h
    rw [hj]; unfold Pattern.lo one
    exact Int.add_mul_emod_self_right _ _ _

/-- Advancing by a distance. -/
theorem Kind.spanAdvance (K : Kind w m neg a) (hw : 0 < w) (hw' : w < 2 ^ 16) {p P d : Int} (h : PInv w m a p P)
    (hd : -(2 ^ 62) < a.xx * d ∧ a.xx * d < 2 ^ 62)
    (h0 : -(2 ^ 62) ≤ P + a.xx * d) (h1 : P + a.xx * d < 2 ^ 62) : PInv w m a (Pattern.spanAdvance a p d) (P + a.xx * d) := by
  unfold Pattern.spanAdvance
  by_cases hm : m = .pad
  · have hp : p = P := by unfold PInv at h; rw [if_pos hm] at h; exact h
    rw [hp, wrap64_id (by omega) (by omega)]
    exact K.normalize hw hw' h0 h1
  · unfold Kind at K; unfold PInv at *
    rw [if_neg hm] at *
    obtain ⟨b1, b2, b3, b4, b5⟩ := K.bounds hw hw'
    obtain ⟨p0, p1, j, hj⟩ := h
    have e := hi_lo p
    have l := lo_range p
    unfold one at e l
    rw [wrap64_id (by omega) (by omega)]
    obtain ⟨q0, q1, i, hi'⟩ := K.normalize hw hw' (p + a.xx * d)
    exact ⟨q0, q1, i + j, by rw [hi', hj]; ring⟩

/-- The fixed point positions of a `W` by `H` destination do not overflow. -/
def NoOverflow (a : Axis) (W H : Int) : Prop :=
  (∀ x y, 0 ≤ x → x ≤ W → 0 ≤ y → y ≤ H → -(2 ^ 62) ≤ fixedAt a x y ∧ fixedAt a x y < 2 ^ 62) ∧
  ∀ d, 0 ≤ d → d ≤ W → -(2 ^ 62) < a.xx * d ∧ a.xx * d < 2 ^ 62

theorem aff_run (K : Kind w m neg a) (hw : 0 < w) (hw' : w < 2 ^ 16) {W H : Int} (hn : NoOverflow a W H)
    {rect : Option Int} {bpp : Int} (hr : 0 ≤ rect.getD 0 ∧ rect.getD 0 ≤ W)
    (cs : List Call) (s : Aff) (p : Pos) (st : Bool) (hp : 0 ≤ p.x ∧ p.x ≤ W ∧ 0 ≤ p.y ∧ p.y ≤ H)
    (hT : TInv a rect s.t p.y) (hP : st = true → PInv w m a s.p (fixedAt a p.x p.y))
    (hl : legal bpp rect.isSome st cs) (hi' : inside W H (rect.getD 0) p cs) :
    s.run a cs = (fetched (rect.getD 0) p cs).map (fun q =>
      let P := fixedAt a q.x q.y
      (pixelAt w m (orient neg (hi P)), pixelAt w m (orient neg (hi P + 1)), lo P / 2 ^ 24)) := by
  have hf : ∀ p : Pos, 0 ≤ p.x ∧ p.x ≤ W ∧ 0 ≤ p.y ∧ p.y ≤ H → -(2 ^ 62) ≤ fixedAt a p.x p.y ∧ fixedAt a p.x p.y < 2 ^ 62 :=
    fun p h => hn.1 p.x p.y h.1 h.2.1 h.2.2.1 h.2.2.2
  induction cs generalizing s p st with
  | nil => rfl
  | cons c cs ih =>
    obtain ⟨i1, i2, i3, i4, i5⟩ := hi'
    have hq := hf _ ⟨i1, i2, i3, i4⟩
    cases c with
    | advanceY =>
      simp only [Aff.run, Aff.call, fetched]
      exact ih _ _ false ⟨i1, i2, i3, i4⟩ hT.advance (by simp) hl i5
    | rectStart =>
      simp only [Aff.run, Aff.call, fetched]
      obtain ⟨hr', hl⟩ := hl
      refine ih _ _ true ⟨i1, i2, i3, i4⟩ hT (fun _ => ?_) hl i5
      simp only [Pos.move] at hq ⊢
      unfold TInv at hT
      rw [hT, wrap64_id (by omega) (by omega)]
      exact K.normalize hw hw' hq.1 hq.2
    | spanStart x =>
      simp only [Aff.run, Aff.call, fetched]
      obtain ⟨hr', -, hl⟩ := hl
      refine ih _ _ true ⟨i1, i2, i3, i4⟩ hT (fun _ => ?_) hl i5
      simp only [Pos.move] at hq ⊢
      unfold TInv at hT
      have he : rect = none := by cases rect <;> simp_all
      subst he
      unfold Pattern.spanStart
      rw [hT, wrap64_add]
      rw [show fixedAt a (Option.getD none 0) p.y + a.xx * x = fixedAt a x p.y by simp only [fixedAt, Option.getD_none]; ring]
      rw [wrap64_id (by omega) (by omega)]
      exact K.normalize hw hw' hq.1 hq.2
    | spanAdvance n =>
      simp only [Aff.run, Aff.call, fetched]
      obtain ⟨hst, h0, -, hl⟩ := hl
      refine ih _ _ true ⟨i1, i2, i3, i4⟩ hT (fun _ => ?_) hl i5
      simp only [Pos.move] at i2 hq ⊢
      have e : fixedAt a (p.x + n) p.y = fixedAt a p.x p.y + a.xx * n := by unfold fixedAt; ring
      rw [e] at hq ⊢
      exact K.spanAdvance hw hw' (hP hst) (hn.2 n h0 (by omega)) hq.1 hq.2
    | fetch =>
      obtain ⟨hst, hl⟩ := hl
      simp only [Aff.run, fetched, List.map_cons]
      refine List.cons_eq_cons.mpr ⟨?_, ?_⟩
      · have hp' := hf p hp
        simp only [Aff.read]
        rw [K.index hw hw' (hP hst) hp'.1 hp'.2 (Or.inl rfl), K.index hw hw' (hP hst) hp'.1 hp'.2 (Or.inr rfl), (hP hst).lo,
          Int.add_zero]
      · refine ih _ _ true ⟨i1, i2, i3, i4⟩ hT (fun _ => ?_) hl i5
        simp only [Pos.move, Aff.call] at hq ⊢
        have e : fixedAt a (p.x + 1) p.y = fixedAt a p.x p.y + a.xx := by unfold fixedAt; ring
        rw [e] at hq ⊢
        exact K.advance hw hw' (hP hst) hq.1 hq.2
end

/-! ### Memory safety without any assumption on the transformation -/

/-- The stored position selects pixels of the image. -/
def Safe (w : Int) (a : Axis) (p : Int) : Prop :=
  (0 ≤ index a p 0 ∧ index a p 0 < w) ∧ (0 ≤ index a p 1 ∧ index a p 1 < w)

theorem Padded.safe {w : Int} {a : Axis} (T : Padded w a) (hw : 0 < w) (p : Int) : Safe w a p := by
  have h : ∀ off, 0 ≤ Pattern.index a p off ∧ Pattern.index a p off < w := by
    intro off
    unfold Pattern.index
    rw [T.hmn, T.hmx, T.hcor]
    dsimp only
    constructor <;> split_ifs <;> omega
  exact ⟨h 0, h 1⟩

theorem Tiled.safe {w : Int} {m : Ext} {neg : Bool} {a : Axis} (T : Tiled w m neg a) (hw : 0 < w) (hw' : w < 2 ^ 16)
    {p P : Int} (h : NInv a p P) : Safe w a p := by
  unfold Safe
  rw [T.index hw hw' h (Or.inl rfl), T.index hw hw' h (Or.inr rfl)]
  exact ⟨pixelAt_range hw _ _, pixelAt_range hw _ _⟩

theorem aff_safe {w : Int} {m : Ext} {neg : Bool} {a : Axis} (K : Kind w m neg a) (hw : 0 < w) (hw' : w < 2 ^ 16)
    {bpp : Int} {rect : Bool} (cs : List Call) (s : Aff) (st : Bool) (hs : st = true → m ≠ .pad → ∃ P, NInv a s.p P)
    (hl : legal bpp rect st cs) :
    ∀ r ∈ s.run a cs, (0 ≤ r.1 ∧ r.1 < w) ∧ (0 ≤ r.2.1 ∧ r.2.1 < w) := by
  induction cs generalizing s st with
  | nil => simp [Aff.run]
  | cons c cs ih =>
    have T : m ≠ .pad → Tiled w m neg a := fun h => by unfold Kind at K; rw [if_neg h] at K; exact K
    cases c with
    | advanceY => exact ih _ false (by simp) hl
    | rectStart => exact ih _ true (fun _ h => ⟨_, (T h).normalize hw hw' _⟩) hl.2
    | spanStart x => exact ih _ true (fun _ h => ⟨_, (T h).normalize hw hw' _⟩) hl.2.2
    | spanAdvance n => exact ih _ true (fun _ h => ⟨_, (T h).normalize hw hw' _⟩) hl.2.2.2
    | fetch =>
      obtain ⟨hst, hl⟩ := hl
      intro r hr
      simp only [Aff.run, List.mem_cons] at hr
      rcases hr with rfl | hr
      · by_cases h : m = .pad
        · unfold Kind at K; rw [if_pos h] at K
          exact K.1.safe hw _
        · obtain ⟨P, hP⟩ := hs hst h
          exact (T h).safe hw hw' hP
      · refine ih _ true (fun _ h => ?_) hl r hr
        obtain ⟨P, hP⟩ := hs hst h
        exact ⟨_, (T h).advance hw hw' hP⟩

/-! ### Theorems -/

/-- No transformation, however extreme, makes the fetcher read outside of the image: along either axis, for every extend
mode and every history of calls, both pixels a fetch reads are inside. -/
theorem C32_affine_in_image {w : Int} (hw : 0 < w) (hw' : w < 2 ^ 16) (m : Ext) (xx yx tx : ℚ) (nearest fits : Bool)
    {bpp : Int} (rect : Option Int) (y0 : Int) (cs : List Call) (hl : legal bpp rect.isSome false cs) :
    let a := initAxis w m xx yx tx nearest fits
    ∀ r ∈ (Aff.init a rect y0).run a cs, (0 ≤ r.1 ∧ r.1 < w) ∧ (0 ≤ r.2.1 ∧ r.2.1 < w) :=
  aff_safe (kind_init hw m xx yx tx nearest fits) hw hw' cs _ false (by simp) hl

/-- The fixed point position approximates the transformed one. -/
theorem fixedAt_approx {w : Int} (m : Ext) (xx yx tx : ℚ) (nearest : Bool) {x y : Int} (hx : 0 ≤ x) (hy : 0 ≤ y) :
    let a := initAxis w m xx yx tx nearest true
    let u : ℚ := tx + xx * x + yx * y
    let v : ℚ := (if mirrored m xx then -u else u) - (if nearest then 0 else 1 / 2)
    ∃ j : Int, (m = .pad → j = 0) ∧
      (fixedAt a x y + j * (period w m * one) : Int) ≤ v * 4294967296 ∧
      v * 4294967296 < (fixedAt a x y + j * (period w m * one) : Int) + (1 + x + y) := by
  intro a u v
  have fl : ∀ z : ℚ, (⌊z⌋ : ℚ) ≤ z ∧ z < ⌊z⌋ + 1 := fun z => ⟨Int.floor_le z, Int.lt_floor_add_one z⟩
  have hxq : (0 : ℚ) ≤ x := by exact_mod_cast hx
  have hyq : (0 : ℚ) ≤ y := by exact_mod_cast hy
  -- The parameters before rounding.
  have main : ∃ (X Y T : ℚ) (j : Int), (m = .pad → j = 0) ∧ a.xx = ⌊X * 4294967296⌋ ∧ a.yx = ⌊Y * 4294967296⌋ ∧
      a.tx = ⌊T * 4294967296⌋ ∧ T + X * x + Y * y = v - j * period w m := by
    obtain ⟨s, hs⟩ : ∃ s : ℚ, s = if nearest then 0 else 1 / 2 := ⟨_, rfl⟩
    by_cases hm : m = .pad
    · subst hm
      refine ⟨xx, yx, tx - s, 0, fun _ => rfl, ?_, ?_, ?_, ?_⟩
      · simp [a, initAxis]
      · simp [a, initAxis]
      · rw [hs]; cases nearest <;> simp [a, initAxis]
      · simp only [v, u, mirrored, ← hs]; simp; ring
    · have hp : (if m = .reflect then w * 2 else w) = period w m := by
        cases m with
        | pad => exact absurd rfl hm
        | rep => simp [period]
        | reflect => simp [period]
      obtain ⟨n, hn⟩ : ∃ n, n = mirrored m xx := ⟨_, rfl⟩
      have hn' : decide (m ≠ .pad ∧ xx < 0) = n := by rw [hn]; rfl
      obtain ⟨g, hg⟩ : ∃ g : ℚ, g = if n then -1 else 1 := ⟨_, rfl⟩
      have e1 : (if n then -xx else xx) = g * xx := by rw [hg]; split_ifs <;> ring
      have e2 : (if n then -yx else yx) = g * yx := by rw [hg]; split_ifs <;> ring
      obtain ⟨j1, hj1⟩ := fmod_congr ((if nearest then (if n then ((period w m : Int) : ℚ) - tx else tx)
        else (if n then ((period w m : Int) : ℚ) - tx else tx) - 1 / 2)) (period w m : Int)
      obtain ⟨j2, hj2⟩ := fmod_congr (g * xx) (period w m : Int)
      obtain ⟨j3, hj3⟩ : ∃ j3 : Int, (if m ≠ .pad ∧ g * xx ≥ (period w m : Int) then fmod (g * xx) (period w m : Int) else g * xx)
          = g * xx - (period w m : Int) * j3 := by
        split_ifs
        · exact ⟨j2, hj2⟩
        · exact ⟨0, by simp⟩
      refine ⟨g * xx - (period w m : Int) * j3, g * yx,
        (if nearest then (if n then ((period w m : Int) : ℚ) - tx else tx)
          else (if n then ((period w m : Int) : ℚ) - tx else tx) - 1 / 2) - (period w m : Int) * j1,
        j1 + j3 * x - (if n then 1 else 0), fun h => absurd h hm, ?_, ?_, ?_, ?_⟩
      · simp only [a, initAxis, if_true, hp, hn', e1]
        rw [hj3]
      · simp only [a, initAxis, if_true, hn', e2]
      · simp only [a, initAxis, if_true, hp, hn', hm, if_false]
        rw [hj1]
      · simp only [v, u, ← hn]
        push_cast
        cases n <;> cases nearest <;> simp at hg <;> rw [hg] <;> simp <;> ring
  obtain ⟨X, Y, T, j, hj, eX, eY, eT, e⟩ := main
  refine ⟨j, hj, ?_, ?_⟩
  all_goals
    have f1 := fl (X * 4294967296)
    have f2 := fl (Y * 4294967296)
    have f3 := fl (T * 4294967296)
    rw [← eX] at f1
    rw [← eY] at f2
    rw [← eT] at f3
    have g1 : (a.xx : ℚ) * x ≤ X * 4294967296 * x := mul_le_mul_of_nonneg_right f1.1 hxq
    have g2 : (a.yx : ℚ) * y ≤ Y * 4294967296 * y := mul_le_mul_of_nonneg_right f2.1 hyq
    have g3 : X * 4294967296 * x ≤ ((a.xx : ℚ) + 1) * x := mul_le_mul_of_nonneg_right f1.2.le hxq
    have g4 : Y * 4294967296 * y ≤ ((a.yx : ℚ) + 1) * y := mul_le_mul_of_nonneg_right f2.2.le hyq
    have ev : v = T + X * x + Y * y + j * period w m := by rw [e]; ring
    rw [ev]
    unfold fixedAt one
    push_cast
    nlinarith

/-- A pattern with an arbitrary transformation: `u` is the coordinate (along one axis of the image) of the centre of the
destination pixel.  The pixel a fetch reads is the one the extend mode shows at `u`, where `u` may be off by
`1 + x + y` units of 2^-32 (and by the half pixel bilinear interpolation needs, in which case the next pixel and the
fraction are given as well).  A mirrored axis stores `-u`, so that its pixels are `-1 - floor`. -/
theorem C32_affine {w : Int} (hw : 0 < w) (hw' : w < 2 ^ 16) (m : Ext) (xx yx tx : ℚ) (nearest : Bool)
    {bpp W H : Int} (rect : Option Int) (hr : 0 ≤ rect.getD 0 ∧ rect.getD 0 ≤ W) {y0 : Int} (hy0 : 0 ≤ y0 ∧ y0 ≤ H)
    (hn : NoOverflow (initAxis w m xx yx tx nearest true) W H)
    (cs : List Call) (hl : legal bpp rect.isSome false cs) (hi' : inside W H (rect.getD 0) ⟨0, y0⟩ cs) :
    let a := initAxis w m xx yx tx nearest true
    ∃ P : Int → Int → Int,
      (Aff.init a rect y0).run a cs = (fetched (rect.getD 0) ⟨0, y0⟩ cs).map (fun q =>
        (pixelAt w m (orient (mirrored m xx) (P q.x q.y / 2 ^ 32)),
         pixelAt w m (orient (mirrored m xx) (P q.x q.y / 2 ^ 32 + 1)),
         P q.x q.y % 2 ^ 32 / 2 ^ 24)) ∧
      ∀ x y : Int, 0 ≤ x → 0 ≤ y →
        let u : ℚ := tx + xx * x + yx * y
        let v : ℚ := (if mirrored m xx then -u else u) - (if nearest then 0 else 1 / 2)
        P x y ≤ v * 2 ^ 32 ∧ v * 2 ^ 32 < P x y + (1 + x + y) := by
  intro a
  have K := kind_init hw m xx yx tx nearest true
  have hx0 : (0 : Int) ≤ W := le_trans hr.1 hr.2
  have key : ∀ x y : Int, ∃ P : Int, (∃ j : Int, (m = .pad → j = 0) ∧ P = fixedAt a x y + j * (period w m * one)) ∧
      (0 ≤ x → 0 ≤ y →
        let u : ℚ := tx + xx * x + yx * y
        let v : ℚ := (if mirrored m xx then -u else u) - (if nearest then 0 else 1 / 2)
        P ≤ v * 2 ^ 32 ∧ v * 2 ^ 32 < P + (1 + x + y)) := by
    intro x y
    by_cases h : 0 ≤ x ∧ 0 ≤ y
    · obtain ⟨j, hj, h1, h2⟩ := fixedAt_approx (w := w) m xx yx tx nearest h.1 h.2
      refine ⟨_, ⟨j, hj, rfl⟩, fun _ _ => ?_⟩
      norm_num at h1 h2 ⊢
      exact ⟨h1, h2⟩
    · exact ⟨fixedAt a x y, ⟨0, fun _ => rfl, by ring⟩, fun h0 h1 => absurd ⟨h0, h1⟩ h⟩
  choose P hP hv using key
  refine ⟨P, ?_, hv⟩
  rw [aff_run K hw hw' hn hr cs (Aff.init a rect y0) ⟨0, y0⟩ false ⟨le_refl _, hx0, hy0.1, hy0.2⟩ (TInv.init a rect y0) (by simp) hl hi']
  apply List.map_congr_left
  intro q _
  obtain ⟨j, hj, e⟩ := hP q.x q.y
  have e1 : P q.x q.y / 2 ^ 32 = hi (fixedAt a q.x q.y) + j * period w m := by
    rw [e]; unfold hi one
    rw [show fixedAt a q.x q.y + j * (period w m * 4294967296) = fixedAt a q.x q.y + (j * period w m) * 4294967296 by ring]
    exact Int.add_mul_ediv_right _ _ (by norm_num)
  have e2 : P q.x q.y % 2 ^ 32 = lo (fixedAt a q.x q.y) := by
    rw [e]; unfold lo one
    rw [show fixedAt a q.x q.y + j * (period w m * 4294967296) = fixedAt a q.x q.y + (j * period w m) * 4294967296 by ring]
    exact Int.add_mul_emod_self_right _ _ _
  have e3 : ∀ off, pixelAt w m (orient (mirrored m xx) (hi (fixedAt a q.x q.y) + j * period w m + off)) =
      pixelAt w m (orient (mirrored m xx) (hi (fixedAt a q.x q.y) + off)) := by
    intro off
    by_cases hm : m = .pad
    · rw [hj hm, Int.zero_mul, Int.add_zero]
    · unfold orient
      split_ifs
      · rw [show -1 - (hi (fixedAt a q.x q.y) + j * period w m + off) = -1 - (hi (fixedAt a q.x q.y) + off) + (-j) * period w m by ring]
        exact pixelAt_shift hm _ _
      · rw [show hi (fixedAt a q.x q.y) + j * period w m + off = hi (fixedAt a q.x q.y) + off + j * period w m by ring]
        exact pixelAt_shift hm _ _
  have e4 := e3 0
  rw [Int.add_zero, Int.add_zero] at e4
  rw [e1, e2, e3, e4]

/-- `FetchPatternAffineBIAny::fetch` for one colour channel, `fetchgeneric_p.h:776-797`. -/
def blend (p00 p10 p01 p11 wx wy : Nat) : Nat :=
  let ix := 256 - wx
  let iy := 256 - wy
  let p0 := (p00 * iy + p01 * wy) % 65536
  let p1 := (p10 * iy + p11 * wy) % 65536
  (p0 / 256 * ix + p1 / 256 * wx) % 65536 / 256

/-- An interpolated colour never leaves the range of the four colours. -/
theorem C32_affine_blend_range {a b c d wx wy m M : Nat} (hx : wx < 256) (hy : wy < 256) (hM : M ≤ 255)
    (ha : m ≤ a ∧ a ≤ M) (hb : m ≤ b ∧ b ≤ M) (hc : m ≤ c ∧ c ≤ M) (hd : m ≤ d ∧ d ≤ M) :
    m ≤ blend a b c d wx wy ∧ blend a b c d wx wy ≤ M := by
  have two : ∀ p q w : Nat, w < 256 → m ≤ p ∧ p ≤ M → m ≤ q ∧ q ≤ M →
      m ≤ (p * (256 - w) + q * w) % 65536 / 256 ∧ (p * (256 - w) + q * w) % 65536 / 256 ≤ M := by
    intro p q w hw hp hq
    have h1 := Nat.mul_le_mul_right (256 - w) hp.1
    have h2 := Nat.mul_le_mul_right (256 - w) hp.2
    have h3 := Nat.mul_le_mul_right w hq.1
    have h4 := Nat.mul_le_mul_right w hq.2
    have s1 : m * (256 - w) + m * w = m * 256 := by rw [← Nat.mul_add]; congr 1; omega
    have s2 : M * (256 - w) + M * w = M * 256 := by rw [← Nat.mul_add]; congr 1; omega
    rw [Nat.mod_eq_of_lt (by omega)]
    constructor <;> omega
  exact two _ _ _ hx (two _ _ _ hy ha hc) (two _ _ _ hy hb hd)

/-- A mirrored, repeated axis of 5 pixels. -/
def sample : Axis := initAxis 5 .rep (-3 / 4) (1 / 3) 2 true true

theorem sample_eq : sample = ⟨3221225472, -1431655766, 12884901888, -1, 5, i32Min, -1, 4, 5⟩ := by
  have h1 : ⌊(3 / 4 : ℚ) * 4294967296⌋ = 3221225472 := by norm_num
  have h2 : ⌊(-(1 / 3) : ℚ) * 4294967296⌋ = -1431655766 := by rw [Int.floor_eq_iff]; constructor <;> norm_num
  have hf : (fmod (5 - 2) 5 : ℚ) = 3 := by
    have : ⌊(3 / 5 : ℚ)⌋ = 0 := by norm_num
    unfold fmod; norm_num [this]
  have h3 : ⌊(fmod (5 - 2) 5 : ℚ) * 4294967296⌋ = 12884901888 := by rw [hf]; norm_num
  unfold sample initAxis
  have e1 : decide (Ext.rep ≠ Ext.pad ∧ (-3 / 4 : ℚ) < 0) = true := by norm_num [reduceCtorEq]; exact Ext.noConfusion
  simp only [e1, if_true, reduceCtorEq, if_false]
  have e2 : (-(-3 / 4) : ℚ) = 3 / 4 := by norm_num
  have e3 : ¬ (Ext.rep ≠ Ext.pad ∧ (3 / 4 : ℚ) ≥ ((5 : Int) : ℚ)) := by norm_num
  rw [e2, if_neg e3]
  push_cast
  rw [h1, h2, h3]
  simp

example : NoOverflow sample 1000 1000 := by
  rw [sample_eq]
  constructor
  · intro x y _ _ _ _; simp only [fixedAt]; omega
  · intro d _ _; simp only []; omega

example : let cs : List Call := [.spanStart 3, .fetch, .fetch, .spanAdvance 5, .fetch, .advanceY, .spanStart 0, .fetch]
    legal 4 false false cs ∧ inside 1000 1000 0 ⟨0, 1⟩ cs ∧
    (Aff.init sample none 1).run sample cs = [(0, 4, 234), (4, 3, 170), (4, 3, 42), (2, 1, 85)] := by
  rw [sample_eq]
  refine ⟨?_, ?_, ?_⟩
  · simp [legal]
  · simp [inside, Pos.move]
  · decide

end Blend2D.Pattern
