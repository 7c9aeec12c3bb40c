import Verif.Raster.Lemmas

/-! # Steep lines: the state between scanlines -/

namespace Blend2D.Raster
open Spec

/-- The horizontal length of an edge. -/
def adx (p0 p1 : Pt) : Int := if p0.x ≤ p1.x then p1.x - p0.x else p0.x - p1.x

/-- The parts of the state that are constant along a line. -/
structure Con (p0 p1 : Pt) (s : St) : Prop where
  ex1 : s.ex1 = p1.x / 256
  fx1 : s.fx1 = p1.x % 256
  ey1 : s.ey1 = (p1.y - 1) / 256
  saved : s.savedFy1 = (p1.y - 1) % 256 + 1
  dx : s.dx = adx p0 p1
  dy : s.dy = p1.y - p0.y
  xLift : s.xLift = adx p0 p1 * 256 / (p1.y - p0.y)
  xRem : s.xRem = adx p0 p1 * 256 % (p1.y - p0.y)
  yLift : s.yLift = (p1.y - p0.y) * 256 / adx p0 p1
  yRem : s.yRem = (p1.y - p0.y) * 256 % adx p0 p1
  vs : s.vertOrSingle = false
  rtl : s.rtl = decide (p1.x < p0.x)

/-- The fields `Con` speaks of. -/
def conKey (s : St) := (s.ex1, s.fx1, s.ey1, s.savedFy1, s.dx, s.dy, s.xLift, s.xRem, s.yLift, s.yRem, s.vertOrSingle, s.rtl)

theorem Con.congr {p0 p1 : Pt} {s s' : St} (h : Con p0 p1 s) (e : conKey s' = conKey s) : Con p0 p1 s' := by
  simp only [conKey, Prod.mk.injEq] at e
  obtain ⟨e1, e2, e3, e4, e5, e6, e7, e8, e9, e10, e11, e12⟩ := e
  obtain ⟨h1, h2, h3, h4, h5, h6, h7, h8, h9, h10, h11, h12⟩ := h
  constructor <;> simp_all

/-- What is assumed of a line that is not vertical and not inside one cell. -/
structure Line (p0 p1 : Pt) : Prop where
  y : p0.y < p1.y
  x : p0.x ≠ p1.x

theorem Line.adx_pos {p0 p1 : Pt} (h : Line p0 p1) : 0 < adx p0 p1 := by
  have := h.x
  unfold adx
  split_ifs <;> omega

theorem round_mul {a d : Int} (hd : 2 ≤ d) : round (a * d) d = a := by
  symm
  apply round_unique (by omega) <;> omega

theorem round_zero {d : Int} (hd : 2 ≤ d) : round 0 d = 0 := by
  have := round_mul (a := 0) hd
  simpa using this

theorem round_add_mul (n a : Int) {d : Int} (hd : 0 < d) : round (n + a * d) d = round n d + a := by
  unfold round
  rw [show n + a * d + (d + 1) / 2 = n + (d + 1) / 2 + a * d by ring]
  exact Int.add_mul_ediv_right _ _ (by omega)

/-- How far the edge has gone horizontally on the horizontal line `y`, as a non-negative number. -/
def gone (p0 p1 : Pt) (y : Int) : Int := if p0.x ≤ p1.x then xAt p0 p1 y - p0.x else p0.x - xAt p0 p1 y

theorem gone_round {p0 p1 : Pt} {y : Int} (h2 : 2 ≤ p1.y - p0.y) (h0 : p0.y ≤ y) (h1 : y ≤ p1.y) :
    gone p0 p1 y = round (adx p0 p1 * (y - p0.y)) (p1.y - p0.y) := by
  unfold gone xAt adx
  by_cases c1 : y ≤ p0.y
  · have : y = p0.y := by omega
    subst this
    simp [round_zero h2]
  · by_cases c2 : p1.y ≤ y
    · have e : y = p1.y := by omega
      subst e
      simp only [if_neg c1, if_pos c2]
      by_cases c3 : p0.x ≤ p1.x
      · simp only [if_pos c3]
        rw [round_mul h2]
      · simp only [if_neg c3]
        rw [round_mul h2]
    · simp only [if_neg c1, if_neg c2]
      by_cases c3 : p0.x ≤ p1.x
      · simp only [if_pos c3]
        omega
      · simp only [if_neg c3]
        omega

theorem xAt_start (p0 p1 : Pt) : xAt p0 p1 p0.y = p0.x := by simp [xAt]

theorem xAt_end {p0 p1 : Pt} (h : p0.y < p1.y) : xAt p0 p1 p1.y = p1.x := by
  simp [xAt, Int.not_le.mpr h]

theorem gone_mid {p0 p1 : Pt} {y : Int} (h0 : p0.y < y) (h1 : y < p1.y) :
    gone p0 p1 y = round (adx p0 p1 * (y - p0.y)) (p1.y - p0.y) :=
  gone_round (by omega) (by omega) (by omega)

theorem adx_nonneg (p0 p1 : Pt) : 0 ≤ adx p0 p1 := by
  unfold adx; split_ifs <;> omega

theorem gone_mono {p0 p1 : Pt} {y z : Int} (hy : p0.y < p1.y) (h0 : p0.y ≤ y) (h : y ≤ z) (h1 : z ≤ p1.y) :
    gone p0 p1 y ≤ gone p0 p1 z := by
  by_cases h2 : 2 ≤ p1.y - p0.y
  · rw [gone_round h2 h0 (by omega), gone_round h2 (by omega) h1]
    exact round_mono (by omega) (Int.mul_le_mul_of_nonneg_left (by omega) (adx_nonneg _ _))
  · have : y = p0.y ∨ y = p1.y := by omega
    have : z = p0.y ∨ z = p1.y := by omega
    have e0 := xAt_start p0 p1
    have e1 := xAt_end hy
    have a : gone p0 p1 p0.y = 0 := by unfold gone; rw [e0]; simp
    have b : 0 ≤ gone p0 p1 p1.y := by unfold gone; rw [e1]; split_ifs <;> omega
    rcases ‹y = p0.y ∨ y = p1.y› with c | c <;> rcases ‹z = p0.y ∨ z = p1.y› with d | d
    · rw [c, d]
    · rw [c, d, a]; exact b
    · omega
    · rw [c, d]

theorem gone_start (p0 p1 : Pt) : gone p0 p1 p0.y = 0 := by
  unfold gone; rw [xAt_start]; simp

theorem gone_end {p0 p1 : Pt} (hy : p0.y < p1.y) : gone p0 p1 p1.y = adx p0 p1 := by
  unfold gone adx; rw [xAt_end hy]

theorem gone_le {p0 p1 : Pt} {y : Int} (hy : p0.y < p1.y) (h0 : p0.y ≤ y) (h1 : y ≤ p1.y) :
    0 ≤ gone p0 p1 y ∧ gone p0 p1 y ≤ adx p0 p1 := by
  rw [← gone_start p0 p1, ← gone_end hy]
  exact ⟨gone_mono hy (by omega) h0 h1, gone_mono hy h0 h1 (by omega)⟩

/-- A steep line moves at most as far as it goes down. -/
theorem gone_step {p0 p1 : Pt} {y z : Int} (hy : p0.y < p1.y) (hs : adx p0 p1 ≤ p1.y - p0.y) (h0 : p0.y ≤ y)
    (h : y ≤ z) (h1 : z ≤ p1.y) : gone p0 p1 z ≤ gone p0 p1 y + (z - y) := by
  by_cases h2 : 2 ≤ p1.y - p0.y
  · rw [gone_round h2 h0 (by omega), gone_round h2 (by omega) h1,
      ← round_add_mul _ (z - y) (by omega : 0 < p1.y - p0.y)]
    apply round_mono (by omega)
    have e : adx p0 p1 * (z - p0.y) = adx p0 p1 * (y - p0.y) + (z - y) * adx p0 p1 := by ring
    have := Int.mul_le_mul_of_nonneg_left hs (by omega : 0 ≤ z - y)
    omega
  · have e0 := gone_start p0 p1
    have e1 := gone_end hy
    have : y = p0.y ∨ y = p1.y := by omega
    have : z = p0.y ∨ z = p1.y := by omega
    rcases ‹y = p0.y ∨ y = p1.y› with c | c <;> rcases ‹z = p0.y ∨ z = p1.y› with d | d
    · rw [c, d]; omega
    · rw [c, d, e0, e1]; omega
    · omega
    · rw [c, d]; omega

/-- The rows of an edge. -/
structure Row (p0 p1 : Pt) (k : Int) : Prop where
  lo : p0.y / 256 ≤ k
  hi : k ≤ (p1.y - 1) / 256

theorem Row.lt {p0 p1 : Pt} {k : Int} (hy : p0.y < p1.y) (r : Row p0 p1 k) : top p0 k < bottom p1 k := by
  have := r.lo; have := r.hi
  unfold top bottom
  omega

theorem Row.top_ge {p0 p1 : Pt} {k : Int} (_ : Row p0 p1 k) : p0.y ≤ top p0 k := by unfold top; omega
theorem Row.bottom_le {p0 p1 : Pt} {k : Int} (_ : Row p0 p1 k) : bottom p1 k ≤ p1.y := by unfold bottom; omega

theorem Row.bottom_eq {p0 p1 : Pt} {k : Int} (h : k < (p1.y - 1) / 256) :
    bottom p1 k = 256 * k + 256 ∧ 256 * k + 256 < p1.y := by
  unfold bottom; omega

theorem Row.top_succ {p0 p1 : Pt} {k : Int} (r : Row p0 p1 k) :
    top p0 (k + 1) = 256 * k + 256 ∧ p0.y < 256 * k + 256 := by
  have := r.lo
  unfold top; omega

/-- The crossing with the vertical boundary that the state keeps: `yDlt` and `yErr`. -/
def YD (p0 p1 : Pt) (s : St) : Prop :=
  if p0.x ≤ p1.x then
    256 * s.ex0 + 256 ≤ p1.x → (s.yDlt - yAt p0 p1 (256 * s.ex0 + 256)) % 256 = 0 ∧
      s.yErr = errOf ((p1.y - p0.y) * (256 * s.ex0 + 256 - p0.x)) (adx p0 p1)
  else
    p1.x < 256 * s.ex0 → (s.yDlt - yAt p0 p1 (256 * s.ex0)) % 256 = 0 ∧
      s.yErr = errOf ((p1.y - p0.y) * (p0.x - 256 * s.ex0)) (adx p0 p1)

/-- The state of a steep line at the top of scanline `k`. -/
structure VB (p0 p1 : Pt) (k : Int) (s : St) : Prop where
  con : Con p0 p1 s
  pos : 256 * s.ex0 + s.fx0 = xAt p0 p1 (top p0 k)
  f0 : 0 ≤ s.fx0
  f1 : s.fx0 < 256
  fy0 : s.fy0 = top p0 k - 256 * k
  yd : YD p0 p1 s

/-- The state of a steep line when scanline `k` is ready to be drawn. -/
structure VI (p0 p1 : Pt) (k : Int) (s : St) : Prop where
  b : VB p0 p1 k s
  xd : s.xDlt = gone p0 p1 (bottom p1 k) - gone p0 p1 (top p0 k)
  fy1 : s.fy1 = bottom p1 k - 256 * k
  xe : k < (p1.y - 1) / 256 → s.xErr = errOf (adx p0 p1 * (256 * k + 256 - p0.y)) (p1.y - p0.y)

/-- The state of a steep line after scanline `k - 1`, before the step to the bottom of scanline `k` is computed. -/
structure VP (p0 p1 : Pt) (k : Int) (s : St) : Prop where
  b : VB p0 p1 k s
  fy1 : s.fy1 = 256
  xe : s.xErr = errOf (adx p0 p1 * (256 * k - p0.y)) (p1.y - p0.y)

theorem nextX_spec {p0 p1 : Pt} {s : St} {n : Int} (hy : p0.y < p1.y) (c : Con p0 p1 s)
    (h : s.xErr = errOf n (p1.y - p0.y)) :
    (nextX s).xDlt = round (n + 256 * adx p0 p1) (p1.y - p0.y) - round n (p1.y - p0.y) ∧
    (nextX s).xErr = errOf (n + 256 * adx p0 p1) (p1.y - p0.y) := by
  have hd : 0 < p1.y - p0.y := by omega
  have e := accStep_round hd 0 n (adx p0 p1 * 256 / (p1.y - p0.y)) (adx p0 p1 * 256 % (p1.y - p0.y))
    (n + 256 * adx p0 p1) (Int.emod_nonneg _ (by omega)) (Int.emod_lt_of_pos _ hd) (by
      have := Int.mul_ediv_add_emod (adx p0 p1 * 256) (p1.y - p0.y)
      rw [Int.mul_comm (p1.y - p0.y)] at this
      omega)
  simp only [nextX, c.xLift, c.xRem, c.dy, h]
  rw [Int.zero_add, Int.zero_add] at e
  rw [e]
  exact ⟨rfl, rfl⟩

theorem nextY_spec {p0 p1 : Pt} {s : St} {n : Int} (hl : Line p0 p1) (c : Con p0 p1 s)
    (h : s.yErr = errOf n (adx p0 p1)) :
    (nextY s).yDlt = s.yDlt + (round (n + 256 * (p1.y - p0.y)) (adx p0 p1) - round n (adx p0 p1)) ∧
    (nextY s).yErr = errOf (n + 256 * (p1.y - p0.y)) (adx p0 p1) := by
  have hd := hl.adx_pos
  have e := accStep_round hd s.yDlt n ((p1.y - p0.y) * 256 / adx p0 p1) ((p1.y - p0.y) * 256 % adx p0 p1)
    (n + 256 * (p1.y - p0.y)) (Int.emod_nonneg _ (by omega)) (Int.emod_lt_of_pos _ hd) (by
      have := Int.mul_ediv_add_emod ((p1.y - p0.y) * 256) (adx p0 p1)
      rw [Int.mul_comm (adx p0 p1)] at this
      omega)
  simp only [nextY, c.yLift, c.yRem, c.dx, h]
  rw [e]
  exact ⟨rfl, rfl⟩

theorem yAt_ltr {p0 p1 : Pt} (h : p0.x ≤ p1.x) (g : Int) :
    yAt p0 p1 g = p0.y + round ((p1.y - p0.y) * (g - p0.x)) (adx p0 p1) := by
  simp [yAt, adx, h]

theorem yAt_rtl {p0 p1 : Pt} (h : ¬ p0.x ≤ p1.x) (g : Int) :
    yAt p0 p1 g = p0.y + round ((p1.y - p0.y) * (p0.x - g)) (adx p0 p1) := by
  simp [yAt, adx, h]

/-- One column further: `YD` is kept when the crossing is stepped. -/
theorem YD.next_ltr {p0 p1 : Pt} {s t : St} (hl : Line p0 p1) (hx : p0.x ≤ p1.x) (c : Con p0 p1 t) (h : YD p0 p1 s)
    (he : t.ex0 = s.ex0 + 1) (hd : (t.yDlt - s.yDlt) % 256 = 0) (hr : t.yErr = s.yErr) : YD p0 p1 (nextY t) := by
  unfold YD at h ⊢
  rw [if_pos hx] at h ⊢
  intro hb
  have hb' : 256 * t.ex0 + 256 ≤ p1.x := hb
  obtain ⟨h1, h2⟩ := h (by omega)
  have hn := nextY_spec hl c (hr.trans h2)
  have en : (p1.y - p0.y) * (256 * s.ex0 + 256 - p0.x) + 256 * (p1.y - p0.y)
      = (p1.y - p0.y) * (256 * (nextY t).ex0 + 256 - p0.x) := by
    have : (nextY t).ex0 = s.ex0 + 1 := he
    rw [this]; ring
  rw [en] at hn
  refine ⟨?_, hn.2⟩
  rw [hn.1, yAt_ltr hx]
  rw [yAt_ltr hx] at h1
  omega

theorem YD.next_rtl {p0 p1 : Pt} {s t : St} (hl : Line p0 p1) (hx : ¬ p0.x ≤ p1.x) (c : Con p0 p1 t) (h : YD p0 p1 s)
    (he : t.ex0 = s.ex0 - 1) (hd : (t.yDlt - s.yDlt) % 256 = 0) (hr : t.yErr = s.yErr) : YD p0 p1 (nextY t) := by
  unfold YD at h ⊢
  rw [if_neg hx] at h ⊢
  intro hb
  have hb' : p1.x < 256 * t.ex0 := hb
  obtain ⟨h1, h2⟩ := h (by omega)
  have hn := nextY_spec hl c (hr.trans h2)
  have en : (p1.y - p0.y) * (p0.x - 256 * s.ex0) + 256 * (p1.y - p0.y)
      = (p1.y - p0.y) * (p0.x - 256 * (nextY t).ex0) := by
    have : (nextY t).ex0 = s.ex0 - 1 := he
    rw [this]; ring
  rw [en] at hn
  refine ⟨?_, hn.2⟩
  rw [hn.1, yAt_rtl hx]
  rw [yAt_rtl hx] at h1
  omega

/-- The crossing with a vertical boundary that lies strictly inside what a steep line covers in scanline `k` is in
scanline `k`. -/
theorem crossing_in {p0 p1 : Pt} {k c : Int} (hl : Line p0 p1) (hs : adx p0 p1 ≤ p1.y - p0.y) (hg : ¬ Glitch p0 p1)
    (r : Row p0 p1 k)
    (h : (xAt p0 p1 (top p0 k) < 256 * c ∧ 256 * c < xAt p0 p1 (bottom p1 k)) ∨
      (256 * c < xAt p0 p1 (top p0 k) ∧ xAt p0 p1 (bottom p1 k) < 256 * c)) :
    256 * k ≤ yAt p0 p1 (256 * c) ∧ yAt p0 p1 (256 * c) < 256 * k + 256 := by
  have hy := hl.y
  have hdx := hl.adx_pos
  have g0 := gone_le hy r.top_ge (by have := r.lt hy; have := r.bottom_le; omega)
  have g1 := gone_le hy (y := bottom p1 k) (by have := r.lt hy; have := r.top_ge; omega) r.bottom_le
  have gm := gone_mono hy r.top_ge (by have := r.lt hy; omega) r.bottom_le
  -- the distance of the boundary from the start
  obtain ⟨m, hm, hyat, hm0, hm1⟩ : ∃ m, (m = if p0.x ≤ p1.x then 256 * c - p0.x else p0.x - 256 * c) ∧
      yAt p0 p1 (256 * c) = p0.y + round ((p1.y - p0.y) * m) (adx p0 p1) ∧
      gone p0 p1 (top p0 k) < m ∧ m < gone p0 p1 (bottom p1 k) := by
    refine ⟨_, rfl, ?_, ?_, ?_⟩
    · by_cases hx : p0.x ≤ p1.x
      · rw [if_pos hx, yAt_ltr hx]
      · rw [if_neg hx, yAt_rtl hx]
    · unfold gone adx at *
      split_ifs at * <;> omega
    · unfold gone adx at *
      split_ifs at * <;> omega
  rw [hyat]
  have hb := round_bounds ((p1.y - p0.y) * m) hdx
  generalize round ((p1.y - p0.y) * m) (adx p0 p1) = q at *
  constructor
  · by_cases c1 : p0.y < 256 * k
    · have et : top p0 k = 256 * k := by unfold top; omega
      have hk : 256 * k < p1.y := by have := r.lt hy; have := r.bottom_le; omega
      rw [et, gone_mid c1 hk] at hm0
      have hb2 := round_bounds (adx p0 p1 * (256 * k - p0.y)) (by omega : 0 < p1.y - p0.y)
      generalize round (adx p0 p1 * (256 * k - p0.y)) (p1.y - p0.y) = q2 at *
      have a1 : (q2 + 1) * (p1.y - p0.y) ≤ m * (p1.y - p0.y) := Int.mul_le_mul_of_nonneg_right (by omega) (by omega)
      have : 256 * k - p0.y < q + 1 := by
        apply mul_lt_cancel hdx
        have e1 : (256 * k - p0.y) * adx p0 p1 = adx p0 p1 * (256 * k - p0.y) := by ring
        have e2 : (q + 1) * adx p0 p1 = q * adx p0 p1 + adx p0 p1 := by ring
        have e3 : (q2 + 1) * (p1.y - p0.y) = q2 * (p1.y - p0.y) + (p1.y - p0.y) := by ring
        have e4 : m * (p1.y - p0.y) = (p1.y - p0.y) * m := by ring
        omega
      omega
    · have : 0 ≤ (p1.y - p0.y) * m := Int.mul_nonneg (by omega) (by omega)
      have : 0 < q + 1 := by
        apply mul_lt_cancel hdx
        have e2 : (q + 1) * adx p0 p1 = q * adx p0 p1 + adx p0 p1 := by ring
        omega
      omega
  · by_cases c1 : k < (p1.y - 1) / 256
    · have hbt := Row.bottom_eq (p0 := p0) c1
      have htp := r.top_succ
      by_contra hc
      apply hg
      refine ⟨?_, ?_, c, k + 1, ?_, ?_, ?_, ?_⟩
      · unfold adx at hs; split_ifs at hs <;> omega
      · unfold adx at hs; split_ifs at hs <;> omega
      · omega
      · omega
      · rw [hyat]; omega
      · have e : 256 * (k + 1) = bottom p1 k := by omega
        rw [e]
        unfold gone adx at *
        split_ifs at * <;> omega
    · have hb' : bottom p1 k ≤ p1.y := r.bottom_le
      have hb'' : p1.y ≤ 256 * k + 256 := by omega
      have a1 : (p1.y - p0.y) * (m + 1) ≤ (p1.y - p0.y) * adx p0 p1 :=
        Int.mul_le_mul_of_nonneg_left (by omega) (by omega)
      have : q < p1.y - p0.y := by
        apply mul_lt_cancel hdx
        have e1 : (p1.y - p0.y) * (m + 1) = (p1.y - p0.y) * m + (p1.y - p0.y) := by ring
        omega
      omega

end Blend2D.Raster
