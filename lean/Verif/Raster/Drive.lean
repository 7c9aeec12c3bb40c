import Verif.Raster.Vert

/-! # How a line is started and how scanlines are skipped -/

namespace Blend2D.Raster
open Spec

/-- A line is ready to draw scanline `k`. -/
def Inv (p0 p1 : Pt) (k : Int) (s : St) : Prop :=
  (s.vertOrSingle = true ∧ VV p0 p1 k s) ∨
  (Line p0 p1 ∧ adx p0 p1 ≤ p1.y - p0.y ∧ VI p0 p1 k s) ∨
  (Line p0 p1 ∧ p1.y - p0.y < adx p0 p1 ∧ HI p0 p1 k s)

theorem errOf_add_mul (n a : Int) {d : Int} (hd : 0 < d) : errOf (n + a * d) d = errOf n d := by
  unfold errOf
  rw [round_add_mul n a hd]
  have : (round n d + a) * d = round n d * d + a * d := by ring
  omega

/-- `prepare_ref`: the line is ready for its first scanline. -/
theorem prepare_inv {p0 p1 : Pt} {s : St} (hy : p0.y < p1.y) (h : prepare p0 p1 = some s) :
    Inv p0 p1 (p0.y / 256) s ∧ s.ey0 = p0.y / 256 ∧ s.ey1 = (p1.y - 1) / 256 := by
  unfold prepare at h
  rw [if_neg (by omega)] at h
  simp only [] at h
  have eadx : (if p1.x - p0.x < 0 then -(p1.x - p0.x) else p1.x - p0.x) = adx p0 p1 := by
    unfold adx
    split_ifs <;> omega
  have ertl : decide (p1.x - p0.x < 0) = decide (p1.x < p0.x) := by rw [decide_eq_decide]; omega
  rw [eadx, ertl] at h
  by_cases c : p0.x / 256 = p1.x / 256 ∧ (p0.y / 256 = (p1.y - 1) / 256 ∨ adx p0 p1 = 0)
  · rw [if_pos c] at h
    have h := Option.some.inj h
    subst h
    refine ⟨Or.inl ⟨rfl, rfl, c.1, ?_, rfl, rfl, rfl, rfl, rfl, ?_, ?_⟩, rfl, rfl⟩
    · rcases c.2 with c2 | c2
      · exact Or.inl c2
      · right
        unfold adx at c2
        split_ifs at c2 <;> omega
    · show p0.y % 256 = _
      unfold top; omega
    · show (if p0.y / 256 ≠ (p1.y - 1) / 256 then (256 : Int) else (p1.y - 1) % 256 + 1) = _
      unfold bottom
      split_ifs <;> omega
  · rw [if_neg c] at h
    have h := Option.some.inj h
    have hl : Line p0 p1 := by
      refine ⟨hy, fun hx => c ⟨by rw [hx], Or.inr ?_⟩⟩
      unfold adx
      rw [hx]
      simp
    have hd := hl.adx_pos
    have hdy : 0 < p1.y - p0.y := by omega
    refine ⟨?_, by rw [← h], by rw [← h]⟩
    have hcon : Con p0 p1 s := by
      rw [← h]
      exact ⟨rfl, rfl, rfl, rfl, rfl, rfl, rfl, rfl, rfl, rfl, rfl, rfl⟩
    have etop : top p0 (p0.y / 256) = p0.y := by unfold top; omega
    have hxs : s.xDlt = gone p0 p1 (bottom p1 (p0.y / 256)) ∧ (p0.y / 256 < (p1.y - 1) / 256 →
        s.xErr = errOf (adx p0 p1 * (256 * (p0.y / 256) + 256 - p0.y)) (p1.y - p0.y)) := by
      have epx : (256 - p0.y % 256) * adx p0 p1 = adx p0 p1 * (256 * (p0.y / 256) + 256 - p0.y) := by
        rw [Int.mul_comm]; congr 1; omega
      by_cases c2 : p0.y / 256 = (p1.y - 1) / 256
      · refine ⟨?_, fun hc => absurd hc (by omega)⟩
        have eb : bottom p1 (p0.y / 256) = p1.y := by unfold bottom; omega
        rw [eb, gone_end hy, ← h]
        show (if p0.y / 256 ≠ (p1.y - 1) / 256 then _ else ((adx p0 p1, (p1.y - p0.y) / 2 - 1) : Int × Int)).1 = _
        rw [if_neg (by omega)]
      · have eb : bottom p1 (p0.y / 256) = 256 * (p0.y / 256) + 256 := by unfold bottom; omega
        rw [eb, gone_mid (by omega) (by omega), ← epx, ← h]
        constructor
        · show (if p0.y / 256 ≠ (p1.y - 1) / 256 then _ else ((adx p0 p1, (p1.y - p0.y) / 2 - 1) : Int × Int)).1 = _
          rw [if_pos c2, accStep_start hdy]
        · intro _
          show (if p0.y / 256 ≠ (p1.y - 1) / 256 then _ else ((adx p0 p1, (p1.y - p0.y) / 2 - 1) : Int × Int)).2 = _
          rw [if_pos c2, accStep_start hdy]
    have hys : if p0.x ≤ p1.x then 256 * s.ex0 + 256 ≤ p1.x →
        s.yDlt = T p0 p1 (p0.y / 256) (s.ex0 + 1) ∧ s.yErr = eL p0 p1 (s.ex0 + 1)
        else p1.x < 256 * s.ex0 → s.yDlt = T p0 p1 (p0.y / 256) s.ex0 ∧ s.yErr = eR p0 p1 s.ex0 := by
      have ee : s.ex0 = p0.x / 256 := by rw [← h]
      rw [ee]
      by_cases hx : p0.x ≤ p1.x
      · rw [if_pos hx]
        intro hv
        have epy : (if decide (p1.x < p0.x) = true then p0.x % 256 else 256 - p0.x % 256) * (p1.y - p0.y) =
            (p1.y - p0.y) * (256 * (p0.x / 256 + 1) - p0.x) := by
          rw [if_neg (by simpa using hx), Int.mul_comm]; congr 1; omega
        rw [← h]
        simp only []
        rw [if_pos (by omega), epy, accStep_start hd]
        refine ⟨?_, rfl⟩
        unfold T
        rw [yAt_ltr hx]
        simp only []
        omega
      · rw [if_neg hx]
        intro hv
        have epy : (if decide (p1.x < p0.x) = true then p0.x % 256 else 256 - p0.x % 256) * (p1.y - p0.y) =
            (p1.y - p0.y) * (p0.x - 256 * (p0.x / 256)) := by
          rw [if_pos (by simpa using hx), Int.mul_comm]; congr 1; omega
        rw [← h]
        simp only []
        rw [if_pos (by omega), epy, accStep_start hd]
        refine ⟨?_, rfl⟩
        unfold T
        rw [yAt_rtl hx]
        simp only []
        omega
    have hfy : s.fy0 = p0.y % 256 ∧ s.fy1 = bottom p1 (p0.y / 256) - 256 * (p0.y / 256) := by
      rw [← h]
      refine ⟨rfl, ?_⟩
      show (if p0.y / 256 ≠ (p1.y - 1) / 256 then (256 : Int) else (p1.y - 1) % 256 + 1) = _
      unfold bottom
      split_ifs <;> omega
    have hxx : s.ex0 = p0.x / 256 ∧ s.fx0 = p0.x % 256 := by rw [← h]; exact ⟨rfl, rfl⟩
    by_cases hs : adx p0 p1 ≤ p1.y - p0.y
    · refine Or.inr (Or.inl ⟨hl, hs, ⟨hcon, ?_, by omega, by omega, ?_, ?_⟩, ?_, hfy.2, hxs.2⟩)
      · rw [etop, xAt_start]; omega
      · rw [etop]; omega
      · unfold YD
        by_cases hx : p0.x ≤ p1.x
        · rw [if_pos hx] at hys ⊢
          intro hv
          obtain ⟨q1, q2⟩ := hys hv
          rw [q1, q2]
          unfold T eL
          rw [show 256 * (s.ex0 + 1) = 256 * s.ex0 + 256 by omega]
          exact ⟨by omega, rfl⟩
        · rw [if_neg hx] at hys ⊢
          intro hv
          obtain ⟨q1, q2⟩ := hys hv
          rw [q1, q2]
          unfold T eR
          exact ⟨by omega, rfl⟩
      · rw [etop, gone_start, hxs.1]; omega
    · refine Or.inr (Or.inr ⟨hl, by omega, Or.inl ⟨by rw [← h], rfl, hcon, hxx.1, hxx.2, by omega, hfy.2, hxs.1, hxs.2, hys⟩⟩)

/-- `nx` columns at once. -/
theorem multiY_spec {p0 p1 : Pt} {s : St} {n nx : Int} (hl : Line p0 p1) (c : Con p0 p1 s) (hn : 0 ≤ nx)
    (h : s.yErr = errOf n (adx p0 p1)) :
    (multiY s nx).yDlt = s.yDlt + (round (n + 256 * nx * (p1.y - p0.y)) (adx p0 p1) - round n (adx p0 p1)) ∧
    (multiY s nx).yErr = errOf (n + 256 * nx * (p1.y - p0.y)) (adx p0 p1) := by
  have hd := hl.adx_pos
  unfold multiY
  simp only []
  rw [h, c.yRem, c.dx, c.yLift, accMulti_round hd s.yDlt n _ nx _ rfl
    (Int.mul_nonneg (Int.emod_nonneg _ (by omega)) hn)]
  have e := Int.mul_ediv_add_emod ((p1.y - p0.y) * 256) (adx p0 p1)
  have en : n + 256 * nx * (p1.y - p0.y) = n + (p1.y - p0.y) * 256 % adx p0 p1 * nx
      + ((p1.y - p0.y) * 256 / adx p0 p1 * nx) * adx p0 p1 := by
    have : 256 * nx * (p1.y - p0.y) = ((p1.y - p0.y) * 256) * nx := by ring
    rw [this]
    nth_rw 1 [← e]
    ring
  rw [en, round_add_mul _ _ hd, errOf_add_mul _ _ hd]
  simp only [and_true]
  omega

/-- The steps of `_xDlt` and `_xErr` of `advanceToY`. -/
theorem multiX_spec {p0 p1 : Pt} {s : St} {k t g0 : Int} (hl : Line p0 p1) (c : Con p0 p1 s)
    (hlo : p0.y / 256 ≤ k) (hk : k < t) (ht : t ≤ (p1.y - 1) / 256)
    (hxd : s.xDlt = gone p0 p1 (256 * k + 256) - g0)
    (hxe : s.xErr = errOf (adx p0 p1 * (256 * k + 256 - p0.y)) (p1.y - p0.y)) :
    accMulti (s.xDlt + s.xLift * (t - k - 1)) s.xErr s.xRem s.dy (t - k - 1) =
      (gone p0 p1 (256 * t) - g0, errOf (adx p0 p1 * (256 * t - p0.y)) (p1.y - p0.y)) := by
  have hdy : 0 < p1.y - p0.y := by have := hl.y; omega
  rw [hxe, c.xRem, c.dy, c.xLift, accMulti_round hdy _ _ _ (t - k - 1) _ rfl
    (Int.mul_nonneg (Int.emod_nonneg _ (by omega)) (by omega)), hxd]
  have e := Int.mul_ediv_add_emod (adx p0 p1 * 256) (p1.y - p0.y)
  have en : adx p0 p1 * (256 * t - p0.y) = adx p0 p1 * (256 * k + 256 - p0.y)
      + adx p0 p1 * 256 % (p1.y - p0.y) * (t - k - 1) + (adx p0 p1 * 256 / (p1.y - p0.y) * (t - k - 1)) * (p1.y - p0.y) := by
    have : adx p0 p1 * (256 * t - p0.y) = adx p0 p1 * (256 * k + 256 - p0.y) + (adx p0 p1 * 256) * (t - k - 1) := by ring
    rw [this]
    nth_rw 1 [← e]
    ring
  rw [gone_mid (by omega) (by omega), gone_mid (by omega) (by omega), en, round_add_mul _ _ hdy, errOf_add_mul _ _ hdy]
  refine Prod.ext ?_ rfl
  simp only []
  omega

/-- Where a line is after some scanlines have been skipped. -/
structure Adv (p0 p1 : Pt) (k t : Int) (s u : St) : Prop where
  con : Con p0 p1 u
  pos : 256 * u.ex0 + u.fx0 = xAt p0 p1 (256 * t)
  xErr : u.xErr = errOf (adx p0 p1 * (256 * t - p0.y)) (p1.y - p0.y)
  fy1 : u.fy1 = s.fy1
  init : u.initial = s.initial

/-- The crossing that the state keeps, moved to another column. -/
def YMove (p0 p1 : Pt) (s u : St) : Prop :=
  if p0.x ≤ p1.x then s.yErr = eL p0 p1 (s.ex0 + 1) →
    u.yDlt = s.yDlt + (yAt p0 p1 (256 * u.ex0 + 256) - yAt p0 p1 (256 * s.ex0 + 256)) ∧ u.yErr = eL p0 p1 (u.ex0 + 1)
  else s.yErr = eR p0 p1 s.ex0 →
    u.yDlt = s.yDlt + (yAt p0 p1 (256 * u.ex0) - yAt p0 p1 (256 * s.ex0)) ∧ u.yErr = eR p0 p1 u.ex0

theorem advRight_spec {p0 p1 : Pt} {k t x : Int} {s : St} (hl : Line p0 p1) (hx : p0.x ≤ p1.x) (hc : Con p0 p1 s)
    (hlo : p0.y / 256 ≤ k) (hk : k < t) (ht : t ≤ (p1.y - 1) / 256) (hpos : 256 * s.ex0 + s.fx0 = x)
    (hxd : xAt p0 p1 (256 * k + 256) = x + s.xDlt)
    (hxe : s.xErr = errOf (adx p0 p1 * (256 * k + 256 - p0.y)) (p1.y - p0.y)) (h0 : 0 ≤ s.fx0)
    (hge : x ≤ xAt p0 p1 (256 * k + 256)) :
    Adv p0 p1 k t s (advRight (advX s (t - k))) ∧ 0 ≤ (advRight (advX s (t - k))).fx0 ∧
    (advRight (advX s (t - k))).fx0 < 256 ∧ s.ex0 ≤ (advRight (advX s (t - k))).ex0 ∧
    YMove p0 p1 s (advRight (advX s (t - k))) := by
  have hm := multiX_spec (g0 := x - p0.x) hl hc hlo hk ht (by rw [xAt_gone_ltr hx] at hxd; omega) hxe
  have hgm := gone_mono (y := 256 * k + 256) (z := 256 * t) hl.y (by omega) (by omega) (by omega)
  rw [xAt_gone_ltr hx] at hge
  obtain ⟨s', hs'⟩ : ∃ s' : St, s' = advX s (t - k) := ⟨_, rfl⟩
  rw [← hs']
  unfold advX at hs'
  simp only [] at hs'
  rw [hm] at hs'
  have c' : Con p0 p1 s' := hc.congr (by rw [hs']; rfl)
  have q0 : s'.fx0 = s.fx0 := by rw [hs']
  have q1 : s'.ex0 = s.ex0 := by rw [hs']
  have q2 : s'.yDlt = s.yDlt := by rw [hs']
  have q3 : s'.yErr = s.yErr := by rw [hs']
  have q4 : s'.fy1 = s.fy1 := by rw [hs']
  have q5 : s'.xErr = errOf (adx p0 p1 * (256 * t - p0.y)) (p1.y - p0.y) := by rw [hs']
  have q6 : s'.xDlt = gone p0 p1 (256 * t) - (x - p0.x) := by rw [hs']
  have q7 : s'.initial = s.initial := by rw [hs']
  unfold advRight
  simp only []
  by_cases cf : s'.fx0 + s'.xDlt ≥ 256
  · rw [if_pos cf]
    obtain ⟨nx, hnx⟩ : ∃ nx, nx = (s'.fx0 + s'.xDlt) / 256 := ⟨_, rfl⟩
    rw [← hnx]
    obtain ⟨v, hv⟩ : ∃ v : St, v = { s' with ex0 := s'.ex0 + nx, fx0 := (s'.fx0 + s'.xDlt) % 256 } := ⟨_, rfl⟩
    rw [← hv]
    have vc : Con p0 p1 v := c'.congr (by rw [hv]; rfl)
    have v1 : v.ex0 = s.ex0 + nx := by rw [hv]; show s'.ex0 + nx = _; omega
    have v2 : v.fx0 = (s'.fx0 + s'.xDlt) % 256 := by rw [hv]
    have v3 : v.yDlt = s.yDlt := by rw [hv]; exact q2
    have v4 : v.yErr = s.yErr := by rw [hv]; exact q3
    refine ⟨⟨vc.congr rfl, ?_, ?_, ?_, ?_⟩, ?_, ?_, ?_, ?_⟩
    · show 256 * v.ex0 + v.fx0 = _
      rw [xAt_gone_ltr hx, v1, v2]; omega
    · show v.xErr = _
      rw [hv]; exact q5
    · show v.fy1 = _
      rw [hv]; exact q4
    · show v.initial = _
      rw [hv]; exact q7
    · show 0 ≤ v.fx0
      omega
    · show v.fx0 < 256
      omega
    · show s.ex0 ≤ v.ex0
      omega
    · unfold YMove
      rw [if_pos hx]
      intro hv
      have hmy := multiY_spec (s := v) (nx := nx) hl vc (by omega) (v4.trans hv)
      have en : (p1.y - p0.y) * (256 * (s.ex0 + 1) - p0.x) + 256 * nx * (p1.y - p0.y) =
          (p1.y - p0.y) * (256 * (s.ex0 + nx + 1) - p0.x) := by ring
      rw [en] at hmy
      have e1 : (multiY v nx).ex0 = s.ex0 + nx := v1
      refine ⟨?_, ?_⟩
      · rw [hmy.1, e1, yAt_ltr hx, yAt_ltr hx, v3,
          show 256 * (s.ex0 + nx) + 256 = 256 * (s.ex0 + nx + 1) by omega, show 256 * s.ex0 + 256 = 256 * (s.ex0 + 1) by omega]
        omega
      · rw [hmy.2, e1]; rfl
  · rw [if_neg cf]
    refine ⟨⟨c'.congr rfl, ?_, q5, q4, q7⟩, ?_, ?_, ?_, ?_⟩
    · show 256 * s'.ex0 + (s'.fx0 + s'.xDlt) = _
      rw [xAt_gone_ltr hx]; omega
    · show 0 ≤ s'.fx0 + s'.xDlt
      omega
    · show s'.fx0 + s'.xDlt < 256
      omega
    · show s.ex0 ≤ s'.ex0
      omega
    · unfold YMove
      rw [if_pos hx]
      simp only [q1, q2, q3]
      intro hv
      exact ⟨by omega, hv⟩

/-- `advLeft` before the step to the column on the left of a flat line. -/
def advLeft0 (s : St) : St :=
  if s.fx0 - s.xDlt < 0 then
    multiY { s with ex0 := s.ex0 - -((s.fx0 - s.xDlt) / 256), fx0 := (s.fx0 - s.xDlt) % 256 } (-((s.fx0 - s.xDlt) / 256))
  else { s with fx0 := s.fx0 - s.xDlt }

theorem advLeft0_spec {p0 p1 : Pt} {k t x : Int} {s : St} (hl : Line p0 p1) (hx : ¬ p0.x ≤ p1.x) (hc : Con p0 p1 s)
    (hlo : p0.y / 256 ≤ k) (hk : k < t) (ht : t ≤ (p1.y - 1) / 256) (hpos : 256 * s.ex0 + s.fx0 = x)
    (hxd : xAt p0 p1 (256 * k + 256) = x - s.xDlt)
    (hxe : s.xErr = errOf (adx p0 p1 * (256 * k + 256 - p0.y)) (p1.y - p0.y))
    (hge : xAt p0 p1 (256 * k + 256) ≤ x) :
    Adv p0 p1 k t s (advLeft0 (advX s (t - k))) ∧ 0 ≤ (advLeft0 (advX s (t - k))).fx0 ∧
    ((advLeft0 (advX s (t - k))).fx0 < 256 ∨ (advLeft0 (advX s (t - k))).fx0 ≤ s.fx0) ∧
    (advLeft0 (advX s (t - k))).ex0 ≤ s.ex0 ∧ YMove p0 p1 s (advLeft0 (advX s (t - k))) := by
  have hm := multiX_spec (g0 := p0.x - x) hl hc hlo hk ht (by rw [xAt_gone_rtl hx] at hxd; omega) hxe
  have hgm := gone_mono (y := 256 * k + 256) (z := 256 * t) hl.y (by omega) (by omega) (by omega)
  rw [xAt_gone_rtl hx] at hge
  obtain ⟨s', hs'⟩ : ∃ s' : St, s' = advX s (t - k) := ⟨_, rfl⟩
  rw [← hs']
  unfold advX at hs'
  simp only [] at hs'
  rw [hm] at hs'
  have c' : Con p0 p1 s' := hc.congr (by rw [hs']; rfl)
  have q0 : s'.fx0 = s.fx0 := by rw [hs']
  have q1 : s'.ex0 = s.ex0 := by rw [hs']
  have q2 : s'.yDlt = s.yDlt := by rw [hs']
  have q3 : s'.yErr = s.yErr := by rw [hs']
  have q4 : s'.fy1 = s.fy1 := by rw [hs']
  have q5 : s'.xErr = errOf (adx p0 p1 * (256 * t - p0.y)) (p1.y - p0.y) := by rw [hs']
  have q6 : s'.xDlt = gone p0 p1 (256 * t) - (p0.x - x) := by rw [hs']
  have q7 : s'.initial = s.initial := by rw [hs']
  unfold advLeft0
  by_cases cf : s'.fx0 - s'.xDlt < 0
  · rw [if_pos cf]
    obtain ⟨nx, hnx⟩ : ∃ nx, nx = -((s'.fx0 - s'.xDlt) / 256) := ⟨_, rfl⟩
    rw [← hnx]
    obtain ⟨v, hv⟩ : ∃ v : St, v = { s' with ex0 := s'.ex0 - nx, fx0 := (s'.fx0 - s'.xDlt) % 256 } := ⟨_, rfl⟩
    rw [← hv]
    have vc : Con p0 p1 v := c'.congr (by rw [hv]; rfl)
    have v1 : v.ex0 = s.ex0 - nx := by rw [hv]; show s'.ex0 - nx = _; omega
    have v2 : v.fx0 = (s'.fx0 - s'.xDlt) % 256 := by rw [hv]
    have v3 : v.yDlt = s.yDlt := by rw [hv]; exact q2
    have v4 : v.yErr = s.yErr := by rw [hv]; exact q3
    refine ⟨⟨vc.congr rfl, ?_, ?_, ?_, ?_⟩, ?_, ?_, ?_, ?_⟩
    · show 256 * v.ex0 + v.fx0 = _
      rw [xAt_gone_rtl hx, v1, v2]; omega
    · show v.xErr = _
      rw [hv]; exact q5
    · show v.fy1 = _
      rw [hv]; exact q4
    · show v.initial = _
      rw [hv]; exact q7
    · show 0 ≤ v.fx0
      omega
    · left
      show v.fx0 < 256
      omega
    · show v.ex0 ≤ s.ex0
      omega
    · unfold YMove
      rw [if_neg hx]
      intro hv
      have hmy := multiY_spec (s := v) (nx := nx) hl vc (by omega) (v4.trans hv)
      have en : (p1.y - p0.y) * (p0.x - 256 * s.ex0) + 256 * nx * (p1.y - p0.y) =
          (p1.y - p0.y) * (p0.x - 256 * (s.ex0 - nx)) := by ring
      rw [en] at hmy
      have e1 : (multiY v nx).ex0 = s.ex0 - nx := v1
      refine ⟨?_, ?_⟩
      · rw [hmy.1, e1, yAt_rtl hx, yAt_rtl hx, v3]
        omega
      · rw [hmy.2, e1]; rfl
  · rw [if_neg cf]
    refine ⟨⟨c'.congr rfl, ?_, q5, q4, q7⟩, ?_, ?_, ?_, ?_⟩
    · show 256 * s'.ex0 + (s'.fx0 - s'.xDlt) = _
      rw [xAt_gone_rtl hx]; omega
    · show 0 ≤ s'.fx0 - s'.xDlt
      omega
    · right
      show s'.fx0 - s'.xDlt ≤ s.fx0
      omega
    · show s'.ex0 ≤ s.ex0
      omega
    · unfold YMove
      rw [if_neg hx]
      simp only [q1, q2, q3]
      intro hv
      exact ⟨by omega, hv⟩

/-- The end of `advanceToY` for a steep line. -/
theorem advance_steep_end {p0 p1 : Pt} {k t ny xe : Int} {s u : St} (hl : Line p0 p1) (hs : adx p0 p1 ≤ p1.y - p0.y)
    (hlo : p0.y / 256 < t) (ht : t ≤ (p1.y - 1) / 256) (a : Adv p0 p1 k t s u) (h0 : 0 ≤ u.fx0) (h1 : u.fx0 < 256)
    (hy : YD p0 p1 u) (hfy : s.fy1 = 256) (hxe : xe = gone p0 p1 p1.y - gone p0 p1 (256 * t)) :
    VI p0 p1 t { advanceYDlt (if t = u.ey1 ∧ u.dy ≥ u.dx then { u with fy1 := u.savedFy1, xDlt := xe } else nextX u) ny with
      fy0 := 0, ey0 := t, initial := false } := by
  have etop : top p0 t = 256 * t := by unfold top; omega
  have uc := a.con
  have hge : ∀ u : St, Con p0 p1 u → u.dy ≥ u.dx := by
    intro u hu
    rw [hu.dy, hu.dx]; omega
  have hydm : ∀ v : St, Con p0 p1 v → v.ex0 = u.ex0 → v.yDlt = u.yDlt → v.yErr = u.yErr →
      YD p0 p1 { advanceYDlt v ny with fy0 := 0, ey0 := t, initial := false } := by
    intro v vc v1 v2 v3
    unfold advanceYDlt
    rw [if_pos (hge v vc)]
    unfold YD at hy ⊢
    simp only [v1, v2, v3]
    by_cases hx : p0.x ≤ p1.x
    · rw [if_pos hx] at hy ⊢
      intro hv
      obtain ⟨q1, q2⟩ := hy hv
      exact ⟨by omega, q2⟩
    · rw [if_neg hx] at hy ⊢
      intro hv
      obtain ⟨q1, q2⟩ := hy hv
      exact ⟨by omega, q2⟩
  by_cases cl : t = u.ey1
  · rw [if_pos ⟨cl, hge u uc⟩]
    have hc' : Con p0 p1 { u with fy1 := u.savedFy1, xDlt := xe } := uc.congr rfl
    have hy := hydm { u with fy1 := u.savedFy1, xDlt := xe } hc' rfl rfl rfl
    unfold advanceYDlt at hy ⊢
    rw [if_pos (hge _ hc')] at hy ⊢
    have ebt : bottom p1 t = p1.y := by rw [cl, uc.ey1]; unfold bottom; omega
    refine ⟨⟨uc.congr rfl, ?_, h0, h1, ?_, hy⟩, ?_, ?_, ?_⟩
    · rw [etop]; exact a.pos
    · rw [etop]; show (0 : Int) = _; omega
    · rw [etop, ebt]; exact hxe
    · show u.savedFy1 = _
      rw [uc.saved, ebt, cl, uc.ey1]; omega
    · intro hc; rw [cl, uc.ey1] at hc; omega
  · rw [if_neg (fun hh => cl hh.1)]
    have hc' : Con p0 p1 (nextX u) := uc.congr rfl
    have hy := hydm (nextX u) hc' rfl rfl rfl
    unfold advanceYDlt at hy ⊢
    rw [if_pos (hge _ hc')] at hy ⊢
    rw [uc.ey1] at cl
    have ebt := (Row.bottom_eq (p0 := p0) (p1 := p1) (k := t) (by omega)).1
    have hn := nextX_spec hl.y uc a.xErr
    have en : adx p0 p1 * (256 * t - p0.y) + 256 * adx p0 p1 = adx p0 p1 * (256 * t + 256 - p0.y) := by ring
    rw [en] at hn
    refine ⟨⟨uc.congr rfl, ?_, h0, h1, ?_, hy⟩, ?_, ?_, ?_⟩
    · rw [etop]; exact a.pos
    · rw [etop]; show (0 : Int) = _; omega
    · rw [etop, ebt, gone_mid (y := 256 * t + 256) (by omega) (by omega), gone_mid (y := 256 * t) (by omega) (by omega)]
      exact hn.1
    · show u.fy1 = _
      rw [ebt, a.fy1, hfy]; omega
    · intro _; exact hn.2

theorem YMove.yd {p0 p1 : Pt} {s u : St} (h : YMove p0 p1 s u) (hy : YD p0 p1 s)
    (he : if p0.x ≤ p1.x then s.ex0 ≤ u.ex0 else u.ex0 ≤ s.ex0) : YD p0 p1 u := by
  unfold YD at hy ⊢
  unfold YMove eL eR at h
  by_cases hx : p0.x ≤ p1.x
  · rw [if_pos hx] at h hy he ⊢
    intro hv
    obtain ⟨y1, y2⟩ := hy (by omega)
    rw [show 256 * s.ex0 + 256 = 256 * (s.ex0 + 1) by omega] at y1 y2 h
    rw [show 256 * u.ex0 + 256 = 256 * (u.ex0 + 1) by omega] at h ⊢
    obtain ⟨z1, z2⟩ := h y2
    exact ⟨by omega, z2⟩
  · rw [if_neg hx] at h hy he ⊢
    intro hv
    obtain ⟨y1, y2⟩ := hy (by omega)
    obtain ⟨z1, z2⟩ := h y2
    exact ⟨by omega, z2⟩

theorem advance_steep {p0 p1 : Pt} {k t : Int} {s : St} (hl : Line p0 p1) (hs : adx p0 p1 ≤ p1.y - p0.y)
    (r : Row p0 p1 k) (h : VI p0 p1 k s) (he : s.ey0 = k) (hk : k < t) (ht : t ≤ (p1.y - 1) / 256) :
    VI p0 p1 t (advanceToY s t) := by
  have hc := h.b.con
  have eb := (Row.bottom_eq (p0 := p0) (p1 := p1) (k := k) (by omega)).1
  have hlo := r.lo
  have hxd := h.xd
  rw [eb] at hxd
  have hfy1 : s.fy1 = 256 := by rw [h.fy1, eb]; omega
  have hg := gone_mono (y := top p0 k) (z := 256 * k + 256) hl.y r.top_ge (by unfold top; omega) (by omega)
  have hpos := h.b.pos
  have hf0 := h.b.f0
  have hf1 := h.b.f1
  have hyd := h.b.yd
  unfold advanceToY
  rw [if_neg (by omega)]
  simp only []
  rw [if_pos (by rw [hc.vs]; rfl), he]
  have hrt : (advX s (t - k)).rtl = s.rtl := rfl
  rw [hrt, hc.rtl]
  by_cases hx : p0.x ≤ p1.x
  · rw [if_neg (by simpa using hx)]
    have eg := xAt_gone_ltr hx
    obtain ⟨a1, a2, a3, a4, a5⟩ := advRight_spec hl hx hc hlo hk ht hpos (by rw [eg, eg]; omega) (h.xe (by omega)) hf0
      (by rw [eg, eg]; omega)
    refine advance_steep_end hl hs (by omega) ht a1 a2 a3 (a5.yd hyd (by rw [if_pos hx]; exact a4)) hfy1 ?_
    have u1 := a1.pos
    rw [gone_end hl.y, a1.con.ex1, a1.con.fx1]
    rw [eg] at u1
    have : adx p0 p1 = p1.x - p0.x := by unfold adx; rw [if_pos hx]
    omega
  · rw [if_pos (by simpa using hx)]
    have eg := xAt_gone_rtl hx
    obtain ⟨a1, a2, a3, a4, a5⟩ := advLeft0_spec hl hx hc hlo hk ht hpos (by rw [eg, eg]; omega) (h.xe (by omega))
      (by rw [eg, eg]; omega)
    have el : advLeft (advX s (t - k)) = advLeft0 (advX s (t - k)) := by
      show (if ¬ (advLeft0 (advX s (t - k))).dy ≥ (advLeft0 (advX s (t - k))).dx then _ else advLeft0 (advX s (t - k))) = _
      rw [if_neg (by rw [a1.con.dy, a1.con.dx]; omega)]
    rw [el]
    refine advance_steep_end hl hs (by omega) ht a1 a2 (by omega) (a5.yd hyd (by rw [if_neg hx]; exact a4)) hfy1 ?_
    have u1 := a1.pos
    rw [gone_end hl.y, a1.con.ex1, a1.con.fx1]
    rw [eg] at u1
    have : adx p0 p1 = p0.x - p1.x := by unfold adx; rw [if_neg hx]
    omega

/-- What a flat line knows before its next scanline, initial or not. -/
theorem HI.facts {p0 p1 : Pt} {k : Int} {s : St} (hl : Line p0 p1) (h : HI p0 p1 k s) (hk : k < (p1.y - 1) / 256) :
    Con p0 p1 s ∧ p0.y / 256 ≤ k ∧ s.fy1 = 256 ∧
    s.xErr = errOf (adx p0 p1 * (256 * k + 256 - p0.y)) (p1.y - p0.y) ∧
    (if p0.x ≤ p1.x then xAt p0 p1 (256 * k + 256) = 256 * s.ex0 + s.fx0 + s.xDlt
      else xAt p0 p1 (256 * k + 256) = 256 * s.ex0 + s.fx0 - s.xDlt) ∧ 0 ≤ s.xDlt ∧ 0 ≤ s.fx0 ∧ s.fx0 ≤ 256 ∧
    (if p0.x ≤ p1.x then 256 * s.ex0 + 256 ≤ p1.x →
      s.yDlt = T p0 p1 (if s.initial then k else k - 1) (s.ex0 + 1) ∧ s.yErr = eL p0 p1 (s.ex0 + 1)
    else p1.x < 256 * s.ex0 → s.yDlt = T p0 p1 (if s.initial then k else k - 1) s.ex0 ∧ s.yErr = eR p0 p1 s.ex0) := by
  have eb := (Row.bottom_eq (p0 := p0) (p1 := p1) (k := k) hk).1
  rcases h with ⟨h1, h2, h3⟩ | ⟨h1, h2, x, h3, h4⟩
  · have e1 := h3.fy1
    have e2 := h3.xd
    have e3 := h3.ex0
    have e4 := h3.fx0
    rw [← h2, eb] at e1 e2
    have g := gone_le hl.y (y := 256 * k + 256) (by omega) (by omega)
    refine ⟨h3.con, by omega, by omega, ?_, ?_, by omega, by omega, by omega, ?_⟩
    · have := h3.xe
      rw [← h2] at this
      exact this hk
    · by_cases hx : p0.x ≤ p1.x
      · rw [if_pos hx, xAt_gone_ltr hx]; omega
      · rw [if_neg hx, xAt_gone_rtl hx]; omega
    · rw [if_pos h1, h2]
      exact h3.yd
  · have e2 := h3.xd hk
    have e3 := h3.pos
    have e4 := h3.lo
    have g := gone_mono (y := 256 * k) (z := 256 * k + 256) hl.y (by omega) (by omega) (by omega)
    have hyd := h3.yd
    unfold HY at hyd
    rw [if_neg (by rw [h1]; simp : ¬ s.initial = true)]
    refine ⟨h3.con, by omega, h3.fy1, h3.xe hk, ?_, by omega, ?_, ?_, ?_⟩
    · by_cases hx : p0.x ≤ p1.x
      · rw [if_pos hx] at h4 ⊢
        rw [xAt_gone_ltr hx] at e3 ⊢; omega
      · rw [if_neg hx] at h4 ⊢
        rw [xAt_gone_rtl hx] at e3 ⊢; omega
    · split_ifs at h4 <;> omega
    · split_ifs at h4 <;> omega
    · by_cases hx : p0.x ≤ p1.x
      · rw [if_pos hx] at h4 hyd ⊢
        rw [h4.1]
        exact hyd
      · rw [if_neg hx] at h4 hyd ⊢
        rw [h4.1]
        exact hyd

/-- The end of `advanceToY` for a flat line. -/
theorem advance_flat_end {p0 p1 : Pt} {k t : Int} {s u v : St} (hl : Line p0 p1) (hf : p1.y - p0.y < adx p0 p1)
    (hlo : p0.y / 256 < t) (ht : t ≤ (p1.y - 1) / 256) (a : Adv p0 p1 k t s u) (hfy : s.fy1 = 256)
    (hv : v = nextX u)
    (hp : if p0.x ≤ p1.x then 0 ≤ u.fx0 ∧ u.fx0 < 256 else 0 < u.fx0 ∧ u.fx0 ≤ 256)
    (hy : if p0.x ≤ p1.x then 256 * u.ex0 + 256 ≤ p1.x →
        u.yDlt = T p0 p1 (if s.initial then k else k - 1) (u.ex0 + 1) ∧ u.yErr = eL p0 p1 (u.ex0 + 1)
      else p1.x < 256 * u.ex0 → u.yDlt = T p0 p1 (if s.initial then k else k - 1) u.ex0 ∧ u.yErr = eR p0 p1 u.ex0) :
    HI p0 p1 t { advanceYDlt v (t - k) with fy0 := 0, ey0 := t, initial := false } := by
  subst hv
  have uc := a.con
  have hn := nextX_spec hl.y uc a.xErr
  have en : adx p0 p1 * (256 * t - p0.y) + 256 * adx p0 p1 = adx p0 p1 * (256 * t + 256 - p0.y) := by ring
  rw [en] at hn
  unfold advanceYDlt
  rw [if_neg (by show ¬ u.dy ≥ u.dx; rw [uc.dy, uc.dx]; omega)]
  have hi : (nextX u).initial = s.initial := a.init
  have hyd : (nextX u).yDlt = u.yDlt := rfl
  rw [hi, hyd]
  have eT : ∀ c, T p0 p1 (if s.initial then k else k - 1) c - (if s.initial then t - k - 1 else t - k) * 256 =
      T p0 p1 (t - 1) c := by
    intro c
    unfold T
    split_ifs <;> ring
  refine Or.inr ⟨rfl, by omega, 256 * u.ex0 + u.fx0, ⟨uc.congr rfl, rfl, ?_, by omega, a.pos, ?_, ?_, ?_⟩, ?_⟩
  · show u.fy1 = 256
    rw [a.fy1, hfy]
  · intro hk
    rw [gone_mid (y := 256 * t + 256) (by omega) (by omega), gone_mid (y := 256 * t) (by omega) (by omega)]
    exact hn.1
  · intro _
    exact hn.2
  · unfold HY
    by_cases hx : p0.x ≤ p1.x
    · rw [if_pos hx] at hp hy ⊢
      rw [show (256 * u.ex0 + u.fx0) / 256 = u.ex0 by omega]
      intro hv
      obtain ⟨y1, y2⟩ := hy hv
      refine ⟨?_, y2⟩
      rw [← eT, ← y1]
    · rw [if_neg hx] at hp hy ⊢
      rw [show (256 * u.ex0 + u.fx0 - 1) / 256 = u.ex0 by omega]
      intro hv
      obtain ⟨y1, y2⟩ := hy hv
      refine ⟨?_, y2⟩
      rw [← eT, ← y1]
  · by_cases hx : p0.x ≤ p1.x
    · rw [if_pos hx] at hp ⊢
      show u.ex0 = _ ∧ u.fx0 = _
      omega
    · rw [if_neg hx] at hp ⊢
      show u.ex0 = _ ∧ u.fx0 = _
      omega

theorem advance_flat {p0 p1 : Pt} {k t : Int} {s : St} (hl : Line p0 p1) (hf : p1.y - p0.y < adx p0 p1)
    (h : HI p0 p1 k s) (he : s.ey0 = k) (hk : k < t) (ht : t ≤ (p1.y - 1) / 256) :
    HI p0 p1 t (advanceToY s t) := by
  obtain ⟨hc, hlo, hfy1, hxe, hxd, hx0, hf0, hf1, hyd⟩ := h.facts hl (by omega)
  unfold advanceToY
  rw [if_neg (by omega)]
  simp only []
  rw [if_pos (by rw [hc.vs]; rfl), he]
  have hrt : (advX s (t - k)).rtl = s.rtl := rfl
  rw [hrt, hc.rtl]
  by_cases hx : p0.x ≤ p1.x
  · rw [if_pos hx] at hxd hyd
    rw [if_neg (by simpa using hx)]
    obtain ⟨a1, a2, a3, a4, a5⟩ := advRight_spec hl hx hc hlo hk ht rfl hxd hxe hf0 (by omega)
    refine advance_flat_end hl hf (by omega) ht a1 hfy1 ?_ (by rw [if_pos hx]; exact ⟨a2, a3⟩) ?_
    · unfold advRightEnd
      rw [if_neg (by rw [a1.con.dy, a1.con.dx]; omega)]
    · rw [if_pos hx]
      intro hv
      obtain ⟨y1, y2⟩ := hyd (by omega)
      unfold YMove at a5
      rw [if_pos hx] at a5
      obtain ⟨z1, z2⟩ := a5 y2
      refine ⟨?_, z2⟩
      rw [z1, y1]
      unfold T
      rw [show 256 * (s.ex0 + 1) = 256 * s.ex0 + 256 by omega,
        show 256 * ((advRight (advX s (t - k))).ex0 + 1) = 256 * (advRight (advX s (t - k))).ex0 + 256 by omega]
      omega
  · rw [if_neg hx] at hxd hyd
    rw [if_pos (by simpa using hx)]
    obtain ⟨a1, a2, a3, a4, a5⟩ := advLeft0_spec hl hx hc hlo hk ht rfl hxd hxe (by omega)
    unfold YMove at a5
    rw [if_neg hx] at a5
    obtain ⟨u, hu⟩ : ∃ u : St, u = advLeft0 (advX s (t - k)) := ⟨_, rfl⟩
    have el : advLeft (advX s (t - k)) = if u.fx0 = 0 then nextY { u with fx0 := 256, ex0 := u.ex0 - 1 } else u := by
      show (if ¬ (advLeft0 (advX s (t - k))).dy ≥ (advLeft0 (advX s (t - k))).dx then
        (if (advLeft0 (advX s (t - k))).fx0 = 0 then nextY { advLeft0 (advX s (t - k)) with fx0 := 256, ex0 := (advLeft0 (advX s (t - k))).ex0 - 1 }
          else advLeft0 (advX s (t - k))) else advLeft0 (advX s (t - k))) = _
      rw [if_pos (by rw [a1.con.dy, a1.con.dx]; omega), hu]
    rw [el]
    rw [← hu] at a1 a2 a3 a4 a5
    have hy0 : p1.x < 256 * u.ex0 → u.yDlt = T p0 p1 (if s.initial then k else k - 1) u.ex0 ∧ u.yErr = eR p0 p1 u.ex0 := by
      intro hv
      obtain ⟨y1, y2⟩ := hyd (by omega)
      obtain ⟨z1, z2⟩ := a5 y2
      refine ⟨?_, z2⟩
      rw [z1, y1]
      unfold T
      omega
    by_cases cz : u.fx0 = 0
    · rw [if_pos cz]
      have hpos := a1.pos
      obtain ⟨w, hw⟩ : ∃ w : St, w = { u with fx0 := 256, ex0 := u.ex0 - 1 } := ⟨_, rfl⟩
      rw [← hw]
      have wc : Con p0 p1 w := a1.con.congr (by rw [hw]; rfl)
      have w1 : w.ex0 = u.ex0 - 1 := by rw [hw]
      have w2 : w.fx0 = 256 := by rw [hw]
      have w3 : w.yDlt = u.yDlt := by rw [hw]
      have w4 : w.yErr = u.yErr := by rw [hw]
      refine advance_flat_end (u := nextY w) hl hf (by omega) ht ⟨wc.congr rfl, ?_, ?_, ?_, ?_⟩ hfy1 ?_ ?_ ?_
      · show 256 * w.ex0 + w.fx0 = _
        omega
      · show w.xErr = _
        rw [hw]; exact a1.xErr
      · show w.fy1 = _
        rw [hw]; exact a1.fy1
      · show w.initial = _
        rw [hw]; exact a1.init
      · unfold advLeftEnd
        rw [if_neg (by show ¬ (t = w.ey1 ∧ w.dy ≥ w.dx); rw [wc.dy, wc.dx]; omega)]
      · rw [if_neg hx]
        show 0 < w.fx0 ∧ w.fx0 ≤ 256
        omega
      · rw [if_neg hx]
        intro hv
        have hv' : p1.x < 256 * w.ex0 := hv
        obtain ⟨y1, y2⟩ := hy0 (by omega)
        have := nextY_rtl hl hx wc (w3.trans y1) (w4.trans y2)
        rw [show (nextY w).ex0 = u.ex0 - 1 from w1]
        exact this
    · rw [if_neg cz]
      refine advance_flat_end hl hf (by omega) ht a1 hfy1 ?_ ?_ (by rw [if_neg hx]; exact hy0)
      · unfold advLeftEnd
        rw [if_neg (by rw [a1.con.dy, a1.con.dx]; omega)]
      · rw [if_neg hx]
        omega

theorem advance_vert {p0 p1 : Pt} {k t : Int} {s : St} (r : Row p0 p1 k) (h : VV p0 p1 k s) (he : s.ey0 = k) (hk : k < t)
    (ht : t ≤ (p1.y - 1) / 256) : VV p0 p1 t (advanceToY s t) := by
  have hlo := r.lo
  unfold advanceToY
  rw [if_neg (by omega)]
  simp only []
  rw [if_neg (by rw [h.vs]; simp)]
  by_cases c : t = s.ey1
  · rw [if_pos c]
    refine ⟨h.vs, h.col, h.one, h.ex0, h.fx0, h.fx1, h.ey1, h.saved, ?_, ?_⟩
    · show (0 : Int) = _
      unfold top; omega
    · show s.savedFy1 = _
      rw [h.saved]
      rw [h.ey1] at c
      unfold bottom; omega
  · rw [if_neg c]
    refine ⟨h.vs, h.col, h.one, h.ex0, h.fx0, h.fx1, h.ey1, h.saved, ?_, ?_⟩
    · show (0 : Int) = _
      unfold top; omega
    · show s.fy1 = _
      rw [h.fy1]
      rw [h.ey1] at c
      unfold bottom; omega

end Blend2D.Raster
