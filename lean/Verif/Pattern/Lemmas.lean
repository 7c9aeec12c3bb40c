import Verif.Pattern.Spec
import Mathlib.Tactic.LinearCombination

namespace Blend2D.Pattern

theorem toU32_id {x : Int} (h0 : 0 ≤ x) (h1 : x < 2 ^ 32) : toU32 x = x := Int.emod_eq_of_lt h0 h1

theorem normT_spec {t r : Int} (hr : 0 < r) (hr' : r < 2 ^ 31) (h0 : -(2 ^ 31) ≤ t) (h1 : t < 2 ^ 31) :
    0 ≤ normT t r ∧ normT t r < r ∧ normT t r % r = t % r := by
  have e1 := Int.tmod_add_mul_tdiv t r
  have key : (normT t r = t ∧ 0 ≤ t ∧ t < r) ∨ (normT t r = (if t.tmod r < 0 then t.tmod r + r else t.tmod r)) := by
    unfold normT
    rw [toU32_id (x := r) (by omega) (by omega)]
    unfold toU32
    by_cases h : t % 2 ^ 32 ≥ r
    · right; simp only [h, if_true]
    · left
      simp only [h, if_false]
      have ht0 : 0 ≤ t := by omega
      have ht1 : t < r := by omega
      rw [if_neg (by omega)]
      exact ⟨rfl, ht0, ht1⟩
  rcases key with ⟨k, k0, k1⟩ | k
  · rw [k]; exact ⟨k0, k1, rfl⟩
  · have b1 : t.tmod r < r := Int.tmod_lt_of_pos t hr
    have b2 : -r < t.tmod r := by
      have := Int.lt_tmod_of_pos t hr
      omega
    have e2 : t.tmod r % r = t % r := by
      have h3 : t % r = (t.tmod r + r * t.tdiv r) % r := by rw [e1]
      rw [h3, Int.add_mul_emod_self_left]
    split_ifs at k with hneg <;> rw [k]
    · refine ⟨by omega, by omega, ?_⟩
      rw [Int.add_emod_right, e2]
    · exact ⟨by omega, by omega, e2⟩

theorem pixelAt_one {m : Ext} {x : Int} : pixelAt 1 m x = 0 := by
  have := pixelAt_range (n := 1) (by omega) m x
  omega

theorem pixelAt_effective {n : Int} (hn : 0 < n) (m : Ext) (x : Int) : pixelAt n (effective n m) x = pixelAt n m x := by
  unfold effective
  split_ifs with h
  · obtain rfl : n = 1 := by omega
    rw [pixelAt_one, pixelAt_one]
  · rfl

theorem emod_congr {a b c r : Int} (h : a % r = b % r) : (c + a) % r = (c + b) % r := by
  rw [Int.add_emod, h, ← Int.add_emod]

theorem pixelAt_normT {n : Int} {m : Ext} (hm : m ≠ .pad) {a t t' : Int} (h : t' % period n m = t % period n m) :
    pixelAt n m (a + t') = pixelAt n m (a + t) := by
  have := emod_congr (c := a) h
  cases m with
  | pad => exact absurd rfl hm
  | rep => simpa only [pixelAt, period] using this
  | reflect =>
    simp only [period] at this
    rw [Int.mul_comm n 2] at this
    simp only [pixelAt, this]

/-- Stepping the remainder. -/
theorem emod_succ {a r : Int} (hr : 0 < r) : (a + 1) % r = if a % r + 1 = r then 0 else a % r + 1 := by
  have h1 := Int.emod_nonneg a (show r ≠ 0 by omega)
  have h2 := Int.emod_lt_of_pos a hr
  have e : (a + 1) % r = (a % r + 1) % r := by rw [Int.add_emod, ← Int.emod_add_emod]; simp [Int.add_emod]
  rw [e]
  split_ifs with h
  · rw [h, Int.emod_self]
  · exact Int.emod_eq_of_lt (by omega) (by omega)

/-! ### Vertical -/

/-- State of the vertical context at pattern row position `Y`. -/
def VInv (h stride : Int) (m : Ext) (v : Vert) (Y : Int) : Prop :=
  match m with
  | .pad =>
    v.yRewind = 0 ∧ v.ptrRewind = 0 ∧ v.y = Y ∧
    ((Y < 0 ∧ v.stride0 = 0 ∧ v.stride1 = stride ∧ v.yStop0 = 0 ∧ v.yStop1 = h ∧ v.ptr = 0) ∨
     (0 ≤ Y ∧ Y < h ∧ v.stride0 = stride ∧ v.stride1 = 0 ∧ v.yStop0 = h ∧ v.yStop1 = 0 ∧ v.ptr = Y * stride) ∨
     (h ≤ Y ∧ v.stride0 = 0 ∧ v.yStop0 = 0 ∧ v.ptr = (h - 1) * stride))
  | .rep =>
    v.yRewind = h ∧ v.ptrRewind = (h - 1) * stride ∧ v.y = Y % h ∧ v.stride0 = stride ∧ v.stride1 = stride ∧
    v.yStop0 = h ∧ v.yStop1 = h ∧ v.ptr = v.y * stride
  | .reflect =>
    v.yRewind = h ∧ v.ptrRewind = 0 ∧ v.yStop0 = h ∧ v.yStop1 = h ∧
    ((Y % (2 * h) < h ∧ v.y = Y % (2 * h) ∧ v.stride0 = stride ∧ v.stride1 = -stride ∧ v.ptr = v.y * stride) ∨
     (h ≤ Y % (2 * h) ∧ v.y = Y % (2 * h) - h ∧ v.stride0 = -stride ∧ v.stride1 = stride ∧
       v.ptr = (h - 1 - v.y) * stride))

theorem VInv.ptr {h stride : Int} (hh : 0 < h) {m : Ext} {v : Vert} {Y : Int} (H : VInv h stride m v Y) :
    v.ptr = pixelAt h m Y * stride := by
  cases m with
  | pad =>
    obtain ⟨-, -, -, H⟩ := H
    rcases H with ⟨a, -, -, -, -, e⟩ | ⟨a, b, -, -, -, -, e⟩ | ⟨a, -, -, e⟩
    · simp only [pixelAt]; rw [if_pos a, e]; omega
    · simp only [pixelAt]; rw [if_neg (by omega), if_pos b, e]
    · simp only [pixelAt]; rw [if_neg (by omega), if_neg (by omega), e]
  | rep =>
    obtain ⟨-, -, e1, -, -, -, -, e⟩ := H
    simp only [pixelAt]; rw [e, e1]
  | reflect =>
    obtain ⟨-, -, -, -, H⟩ := H
    rcases H with ⟨a, b, -, -, e⟩ | ⟨a, b, -, -, e⟩
    · simp only [pixelAt]; rw [if_pos a, e, b]
    · simp only [pixelAt]; rw [if_neg (by omega), e, b]; congr 1; omega

theorem VInv.advance {h stride : Int} (hh : 0 < h) {m : Ext} {v : Vert} {Y : Int} (H : VInv h stride m v Y) :
    VInv h stride m v.advance1 (Y + 1) := by
  cases m with
  | pad =>
    obtain ⟨r1, r2, ry, H⟩ := H
    unfold Vert.advance1
    simp only [VInv]
    rcases H with ⟨a, s0, s1, t0, t1, e⟩ | ⟨a, b, s0, s1, t0, t1, e⟩ | ⟨a, s0, t0, e⟩
    · split_ifs with hs
      · refine ⟨r1, r2, by simp only []; omega, Or.inr (Or.inl ⟨by omega, by omega, s1, s0, t1, t0, ?_⟩)⟩
        simp only []
        rw [e, r2, show Y + 1 = 0 by omega]; omega
      · refine ⟨r1, r2, by simp only []; omega, Or.inl ⟨by omega, s0, s1, t0, t1, ?_⟩⟩
        simp only []; rw [e, s0]; rfl
    · split_ifs with hs
      · refine ⟨r1, r2, by simp only []; omega, Or.inr (Or.inr ⟨by omega, s1, t1, ?_⟩)⟩
        simp only []
        rw [e, r2, show Y = h - 1 by omega]; omega
      · refine ⟨r1, r2, by simp only []; omega, Or.inr (Or.inl ⟨by omega, by omega, s0, s1, t0, t1, ?_⟩)⟩
        simp only []; rw [e, s0]; ring
    · split_ifs with hs
      · omega
      · refine ⟨r1, r2, by simp only []; omega, Or.inr (Or.inr ⟨by omega, s0, t0, ?_⟩)⟩
        simp only []; rw [e, s0]; omega
  | rep =>
    obtain ⟨r1, r2, ry, s0, s1, t0, t1, e⟩ := H
    unfold Vert.advance1
    simp only [VInv]
    have es := emod_succ (a := Y) hh
    split_ifs with hs
    · rw [if_pos (by omega)] at es
      refine ⟨r1, r2, by simp only []; omega, s1, s0, t1, t0, ?_⟩
      simp only []
      rw [e, r2, r1, hs, t0, show v.y = h - 1 by omega]; ring
    · rw [if_neg (by omega)] at es
      refine ⟨r1, r2, by simp only []; omega, s0, s1, t0, t1, ?_⟩
      simp only []; rw [e, s0]; ring
  | reflect =>
    obtain ⟨r1, r2, t0, t1, H⟩ := H
    unfold Vert.advance1
    simp only [VInv]
    have es := emod_succ (a := Y) (r := 2 * h) (by omega)
    have n0 := Int.emod_nonneg Y (show 2 * h ≠ 0 by omega)
    have n1 := Int.emod_lt_of_pos Y (show 0 < 2 * h by omega)
    rcases H with ⟨a, ry, s0, s1, e⟩ | ⟨a, ry, s0, s1, e⟩
    · rw [if_neg (by omega)] at es
      split_ifs with hs
      · refine ⟨r1, r2, t1, t0, Or.inr ⟨by omega, by simp only []; omega, s1, s0, ?_⟩⟩
        simp only []
        rw [e, r2, r1, hs, t0, show v.y = h - 1 by omega]; ring
      · refine ⟨r1, r2, t0, t1, Or.inl ⟨by omega, by simp only []; omega, s0, s1, ?_⟩⟩
        simp only []; rw [e, s0]; ring
    · split_ifs with hs
      · rw [if_pos (by omega)] at es
        refine ⟨r1, r2, t1, t0, Or.inl ⟨by omega, by simp only []; omega, s1, s0, ?_⟩⟩
        simp only []
        rw [e, r2, r1, hs, t0, show v.y = h - 1 by omega]; ring
      · rw [if_neg (by omega)] at es
        refine ⟨r1, r2, t0, t1, Or.inr ⟨by omega, by simp only []; omega, s0, s1, ?_⟩⟩
        simp only []; rw [e, s0]; ring

/-- The vertical context starts at the row of the first scanline. -/
theorem VInv.init {w h stride : Int} (hh : 0 < h) (hh' : h < 2 ^ 16) {mx my : Ext} {tx ty : Int}
    (ht0 : -(2 ^ 31) ≤ ty) (ht1 : ty < 2 ^ 31) {fr : Bool} {wa wb wc wd y : Int} (hy0 : 0 ≤ y) (hy1 : y < 2 ^ 31) :
    ∃ Y0 : Int, VInv h stride (effective h my) (Vert.init (initTxTy w h stride mx my tx ty fr wa wb wc wd).1 y) Y0 ∧
      ∀ n : Int, pixelAt h (effective h my) (Y0 + n) = pixelAt h my (y + ty + n) := by
  obtain ⟨e, he⟩ : ∃ e, e = effective h my := ⟨_, rfl⟩
  have hpe := fun x => pixelAt_effective hh my x
  rw [← he] at hpe ⊢
  simp only [initTxTy]
  rw [← he]
  cases e with
  | pad =>
    refine ⟨y + ty, ?_, fun n => hpe _⟩
    simp only [Vert.init, period, if_true, clamp, reduceCtorEq, if_false]
    simp only [VInv]
    by_cases h0 : y + ty < 0
    · have hc : min (max (y + ty) 0) (h - 1) = 0 := by omega
      rw [hc, if_pos (by omega)]
      exact ⟨rfl, by simp, rfl, Or.inl ⟨h0, rfl, rfl, rfl, rfl, by simp⟩⟩
    · by_cases h1 : y + ty < h
      · have hc : min (max (y + ty) 0) (h - 1) = y + ty := by omega
        rw [hc, if_neg (by simp)]
        exact ⟨rfl, by simp, rfl, Or.inr (Or.inl ⟨by omega, h1, rfl, rfl, rfl, rfl, rfl⟩)⟩
      · have hc : min (max (y + ty) 0) (h - 1) = h - 1 := by omega
        rw [hc, if_pos (by omega)]
        exact ⟨rfl, by simp, rfl, Or.inr (Or.inr ⟨by omega, rfl, rfl, rfl⟩)⟩
  | rep =>
    obtain ⟨n0, n1, n2⟩ := normT_spec (t := ty) (r := h) hh (by omega) ht0 ht1
    refine ⟨y + normT ty h, ?_, fun n => ?_⟩
    · simp only [Vert.init, period, reduceCtorEq, if_false, if_true]
      rw [if_neg (by omega), toU32_id (x := h) (by omega) (by omega),
        toU32_id (by omega) (by omega), if_neg (by have := Int.emod_lt_of_pos (y + normT ty h) hh; omega)]
      simp only [VInv]
      exact ⟨by simp, by simp, by simp, by simp, by simp, by simp, by simp, by simp⟩
    · rw [← hpe, show y + normT ty h + n = (y + n) + normT ty h by omega, show y + ty + n = (y + n) + ty by omega]
      exact pixelAt_normT (by decide) n2
  | reflect =>
    obtain ⟨n0, n1, n2⟩ := normT_spec (t := ty) (r := h * 2) (by omega) (by omega) ht0 ht1
    refine ⟨y + normT ty (h * 2), ?_, fun n => ?_⟩
    · simp only [Vert.init, period, reduceCtorEq, if_false]
      rw [if_neg (by omega), toU32_id (x := h * 2) (by omega) (by omega),
        toU32_id (by omega) (by omega)]
      simp only [Int.mul_comm h 2] at n0 n1 ⊢
      split_ifs with hs hs'
      · simp only [VInv]
        exact ⟨by simp, by simp, by simp, by simp, Or.inr ⟨by omega, by simp, by simp, by simp, by ring⟩⟩
      · simp only [VInv]
        exact ⟨by simp, by simp, by simp, by simp, Or.inl ⟨by omega, by simp, by simp, by simp, by simp⟩⟩
      · omega
    · rw [← hpe, show y + normT ty (h * 2) + n = (y + n) + normT ty (h * 2) by omega, show y + ty + n = (y + n) + ty by omega]
      exact pixelAt_normT (by decide) n2

/-! ### Horizontal -/

/-- State of the horizontal context at pattern column position `X`. -/
def HInv (bpp w : Int) (m : Ext) (k : Horz) (c : HCtx) (X : Int) : Prop :=
  match k with
  | .pad => c.x = X * bpp
  | .rep => c.x = X % w * bpp
  | .ror => match m with
    | .pad => False
    | .rep => c.x = X % w
    | .reflect => c.x = if X % (2 * w) < w then X % (2 * w) else X % (2 * w) - 2 * w

/-- The constants of the horizontal context. -/
def HConst (bpp w : Int) (m : Ext) (k : Horz) (c : HCtx) : Prop :=
  match k with
  | .pad => m = .pad ∧ c.w = (w - 1) * bpp
  | .rep => m = .rep ∧ c.w = w * bpp
  | .ror => m ≠ .pad ∧ c.w = w ∧ c.rx = period w m

theorem HInv.index {bpp w : Int} (hb : 0 < bpp) (hw : 0 < w) {m : Ext} {k : Horz} {c : HCtx} {X : Int}
    (hc : HConst bpp w m k c) (h : HInv bpp w m k c X) : c.index bpp k = pixelAt w m X * bpp := by
  cases k with
  | pad =>
    obtain ⟨rfl, hc⟩ := hc
    simp only [HInv] at h
    simp only [HCtx.index, pixelAt, clamp, h, hc]
    have hp : 0 ≤ (w - 1) * bpp := Int.mul_nonneg (by omega) (by omega)
    split_ifs with h1 h2
    · have : X * bpp < 0 := Int.mul_neg_of_neg_of_pos h1 hb
      omega
    · have h3 : 0 ≤ X * bpp := Int.mul_nonneg (by omega) (by omega)
      have h4 : X * bpp ≤ (w - 1) * bpp := Int.mul_le_mul_of_nonneg_right (by omega) (by omega)
      omega
    · have h4 : (w - 1) * bpp ≤ X * bpp := Int.mul_le_mul_of_nonneg_right (by omega) (by omega)
      omega
  | rep =>
    obtain ⟨rfl, hc⟩ := hc
    simp only [HInv] at h
    simp only [HCtx.index, pixelAt, h]
  | ror =>
    obtain ⟨hm, -, -⟩ := hc
    simp only [HCtx.index]
    congr 1
    cases m with
    | pad => exact absurd rfl hm
    | rep =>
      simp only [HInv] at h
      have := Int.emod_nonneg X (show w ≠ 0 by omega)
      rw [if_neg (by omega), h]; rfl
    | reflect =>
      simp only [HInv] at h
      have h1 := Int.emod_nonneg X (show 2 * w ≠ 0 by omega)
      have h2 := Int.emod_lt_of_pos X (show 0 < 2 * w by omega)
      simp only [pixelAt]
      rw [h]
      split_ifs <;> omega

theorem HConst.set {bpp w : Int} {m : Ext} {k : Horz} {c : HCtx} (h : HConst bpp w m k c) (x tx : Int) :
    HConst bpp w m k { c with x := x, tx := tx } := by
  cases k <;> exact h

/-- Only the position changes after initialization. -/
theorem HConst.spanStart {bpp w : Int} {m : Ext} {k : Horz} {c : HCtx} (h : HConst bpp w m k c) (x : Int) :
    HConst bpp w m k (c.spanStart bpp k x) ∧ (c.spanStart bpp k x).tx = c.tx := by
  cases k <;> exact ⟨h.set _ _, rfl⟩

theorem HConst.spanAdvance {bpp w : Int} {m : Ext} {k : Horz} {c : HCtx} (h : HConst bpp w m k c) (x : Int) :
    HConst bpp w m k (c.spanAdvance bpp k x) ∧ (c.spanAdvance bpp k x).tx = c.tx := by
  cases k with
  | pad => exact ⟨h.set _ _, rfl⟩
  | rep => exact ⟨h.set _ _, rfl⟩
  | ror =>
    simp only [HCtx.spanAdvance]
    split_ifs <;> exact ⟨h.set _ _, rfl⟩

theorem HConst.advance1 {bpp w : Int} {m : Ext} {k : Horz} {c : HCtx} (h : HConst bpp w m k c) :
    HConst bpp w m k (c.advance1 bpp k) ∧ (c.advance1 bpp k).tx = c.tx := by
  cases k <;> exact ⟨h.set _ _, rfl⟩

theorem HConst.rectStart {bpp w : Int} {m : Ext} {k : Horz} {c : HCtx} (h : HConst bpp w m k c) :
    HConst bpp w m k c.rectStart ∧ c.rectStart.tx = c.tx := ⟨h.set _ _, rfl⟩

/-- Where reducing modulo the period ends up. -/
theorem ror_start {w : Int} {m : Ext} (hm : m ≠ .pad) {X : Int} (hw : 0 < w) {bpp : Int} {c : HCtx}
    (hx : c.x = if X % period w m ≥ w then X % period w m - period w m else X % period w m) :
    HInv bpp w m .ror c X := by
  cases m with
  | pad => exact absurd rfl hm
  | rep =>
    simp only [period] at hx
    have := Int.emod_lt_of_pos X hw
    simp only [HInv]
    rw [hx]
    split_ifs <;> omega
  | reflect =>
    simp only [period, Int.mul_comm w 2] at hx
    simp only [HInv]
    rw [hx]
    split_ifs <;> omega

theorem mul_emod_right {a b c : Int} (hc : 0 < c) : a * c % (b * c) = a % b * c := by
  rw [Int.mul_comm a c, Int.mul_comm b c, Int.mul_emod_mul_of_pos _ _ hc, Int.mul_comm]

theorem HInv.spanStart {bpp w : Int} (hb : 0 < bpp) (hw : 0 < w) {m : Ext} {k : Horz} {c : HCtx} {t : Int}
    (hc : HConst bpp w m k c) (ht : c.tx = if k = .ror then t else t * bpp) (x : Int) :
    HInv bpp w m k (c.spanStart bpp k x) (x + t) := by
  cases k with
  | pad =>
    simp only [reduceCtorEq, if_false] at ht
    simp only [HInv, HCtx.spanStart, ht]; ring
  | rep =>
    obtain ⟨rfl, hc⟩ := hc
    simp only [reduceCtorEq, if_false] at ht
    simp only [HInv, HCtx.spanStart, ht, hc]
    rw [← Int.add_mul, mul_emod_right hb]
  | ror =>
    obtain ⟨hm, h1, h2⟩ := hc
    simp only [if_true] at ht
    apply ror_start hm hw
    simp only [HCtx.spanStart, ht, h1, h2]

theorem HInv.rectStart {bpp w : Int} {m : Ext} {k : Horz} {c : HCtx} {X : Int} (h : HInv bpp w m k { c with x := c.tx } X) :
    HInv bpp w m k c.rectStart X := h

theorem HInv.advance1 {bpp w : Int} (hb : 0 < bpp) (hw : 0 < w) {m : Ext} {k : Horz} {c : HCtx} {X : Int}
    (hc : HConst bpp w m k c) (h : HInv bpp w m k c X) : HInv bpp w m k (c.advance1 bpp k) (X + 1) := by
  cases k with
  | pad =>
    simp only [HInv, HCtx.advance1] at h ⊢
    rw [h]; ring
  | rep =>
    obtain ⟨rfl, hc⟩ := hc
    simp only [HInv, HCtx.advance1] at h ⊢
    have n1 := Int.emod_lt_of_pos X hw
    rw [h, hc, emod_succ hw]
    have e : X % w * bpp + bpp = (X % w + 1) * bpp := by ring
    rw [e]
    by_cases hs : X % w + 1 = w
    · rw [if_pos hs, hs, if_pos (by omega)]; omega
    · rw [if_neg hs, if_neg]
      have : (X % w + 1) * bpp < w * bpp := Int.mul_lt_mul_of_pos_right (by omega) hb
      omega
  | ror =>
    obtain ⟨hm, h1, h2⟩ := hc
    cases m with
    | pad => exact absurd rfl hm
    | rep =>
      simp only [HInv, HCtx.advance1, period] at h h2 ⊢
      have n1 := Int.emod_lt_of_pos X hw
      rw [h, h1, h2, emod_succ hw]
      split_ifs <;> omega
    | reflect =>
      simp only [HInv, HCtx.advance1, period] at h h2 ⊢
      have n0 := Int.emod_nonneg X (show 2 * w ≠ 0 by omega)
      have n1 := Int.emod_lt_of_pos X (show 0 < 2 * w by omega)
      rw [h, h1, h2, emod_succ (show 0 < 2 * w by omega)]
      split_ifs <;> omega

theorem add_emod_sub {x X n r q : Int} (e : x = X % r + q * r) : (x + n) % r = (X + n) % r := by
  rw [e, show X % r + q * r + n = (X % r + n) + q * r by ring, Int.add_mul_emod_self_right, Int.emod_add_emod]

theorem HInv.spanAdvance {bpp w : Int} (hb : 0 < bpp) (hw : 0 < w) {m : Ext} {k : Horz} {c : HCtx} {X n : Int}
    (hc : HConst bpp w m k c) (h : HInv bpp w m k c X) (hn : 0 ≤ n) (hn' : n * bpp < 2 ^ 32) :
    HInv bpp w m k (c.spanAdvance bpp k n) (X + n) := by
  cases k with
  | pad =>
    simp only [HInv, HCtx.spanAdvance] at h ⊢
    rw [h]; ring
  | rep =>
    obtain ⟨rfl, hc⟩ := hc
    simp only [HInv, HCtx.spanAdvance] at h ⊢
    have hnb : 0 ≤ n * bpp := Int.mul_nonneg hn (by omega)
    rw [toU32_id hnb hn', h, hc, ← Int.add_mul, mul_emod_right hb, Int.emod_add_emod]
    have n0 := Int.emod_nonneg X (show w ≠ 0 by omega)
    split_ifs with hs
    · rfl
    · have h1 : X % w + n < w := by
        by_contra hcon
        exact hs (Int.mul_le_mul_of_nonneg_right (by omega) (by omega))
      congr 1
      rw [← Int.emod_add_emod]
      exact (Int.emod_eq_of_lt (by omega) h1).symm
  | ror =>
    obtain ⟨hm, h1, h2⟩ := hc
    cases m with
    | pad => exact absurd rfl hm
    | rep =>
      simp only [HInv] at h
      simp only [period] at h2
      have n0 := Int.emod_nonneg X (show w ≠ 0 by omega)
      have e : (X % w + n) % w = (X + n) % w := Int.emod_add_emod X w n
      have e1 := Int.emod_lt_of_pos (X + n) hw
      simp only [HInv, HCtx.spanAdvance, h, h1, h2, e]
      split_ifs with hs hs'
      · simp only []; omega
      · rfl
      · simp only []
        rw [← e]; exact (Int.emod_eq_of_lt (by omega) (by omega)).symm
    | reflect =>
      simp only [HInv] at h
      simp only [period, Int.mul_comm w 2] at h2
      have n0 := Int.emod_nonneg X (show 2 * w ≠ 0 by omega)
      have n1 := Int.emod_lt_of_pos X (show 0 < 2 * w by omega)
      obtain ⟨q, hq, hb0, hb1⟩ : ∃ q, c.x = X % (2 * w) + q * (2 * w) ∧ -w ≤ c.x ∧ c.x < w := by
        split_ifs at h
        · exact ⟨0, by omega, by omega, by omega⟩
        · exact ⟨-1, by omega, by omega, by omega⟩
      have e := add_emod_sub (n := n) hq
      have e1 := Int.emod_lt_of_pos (X + n) (show 0 < 2 * w by omega)
      have e0 := Int.emod_nonneg (X + n) (show 2 * w ≠ 0 by omega)
      simp only [HInv, HCtx.spanAdvance, h1, h2, e]
      by_cases hs : c.x + n ≥ w
      · simp only [hs, if_true]
        split_ifs <;> omega
      · simp only [hs, if_false]
        by_cases hneg : c.x + n < 0
        · have : (c.x + n + 2 * w) % (2 * w) = c.x + n + 2 * w := Int.emod_eq_of_lt (by omega) (by omega)
          rw [Int.add_emod_right, e] at this
          rw [if_neg (by omega)]; omega
        · have : (c.x + n) % (2 * w) = c.x + n := Int.emod_eq_of_lt (by omega) (by omega)
          rw [e] at this
          rw [if_pos (by omega)]; omega

end Blend2D.Pattern
