import Verif.Raster.FlatRun

/-! # Flat lines that go left -/

namespace Blend2D.Raster
open Spec

theorem nextY_rtl {p0 p1 : Pt} {s : St} {k c : Int} (hl : Line p0 p1) (hx : ¬ p0.x ≤ p1.x) (hc : Con p0 p1 s)
    (h1 : s.yDlt = T p0 p1 k c) (h2 : s.yErr = eR p0 p1 c) :
    (nextY s).yDlt = T p0 p1 k (c - 1) ∧ (nextY s).yErr = eR p0 p1 (c - 1) := by
  have hn := nextY_spec hl hc h2
  have en : (p1.y - p0.y) * (p0.x - 256 * c) + 256 * (p1.y - p0.y) = (p1.y - p0.y) * (p0.x - 256 * (c - 1)) := by ring
  rw [en] at hn
  refine ⟨?_, hn.2⟩
  rw [hn.1, h1]
  unfold T
  rw [yAt_rtl hx, yAt_rtl hx]
  omega

theorem step_rtl {p0 p1 : Pt} {s : St} {k c : Int} (hl : Line p0 p1) (hx : ¬ p0.x ≤ p1.x) (hc : Con p0 p1 s)
    (h2 : s.yErr = eR p0 p1 c) :
    (accStep s.yLift s.yErr s.yRem s.dx) = (T p0 p1 k (c - 1) - T p0 p1 k c, eR p0 p1 (c - 1)) := by
  have hd := hl.adx_pos
  have e := accStep_round hd 0 ((p1.y - p0.y) * (p0.x - 256 * c)) ((p1.y - p0.y) * 256 / adx p0 p1)
    ((p1.y - p0.y) * 256 % adx p0 p1) ((p1.y - p0.y) * (p0.x - 256 * (c - 1))) (Int.emod_nonneg _ (by omega))
    (Int.emod_lt_of_pos _ hd) (by
      have := Int.mul_ediv_add_emod ((p1.y - p0.y) * 256) (adx p0 p1)
      rw [Int.mul_comm (adx p0 p1)] at this
      have en : (p1.y - p0.y) * (p0.x - 256 * c) + 256 * (p1.y - p0.y) = (p1.y - p0.y) * (p0.x - 256 * (c - 1)) := by ring
      omega)
  rw [h2, hc.yLift, hc.yRem, hc.dx]
  unfold eR
  rw [Int.zero_add, Int.zero_add] at e
  rw [e]
  unfold T
  rw [yAt_rtl hx, yAt_rtl hx]
  refine Prod.ext ?_ rfl
  simp only []
  omega

/-- What the loop over the cells adds up to, from column `e` over `n` columns to the left. -/
def cellsAccR (p0 p1 : Pt) (neg : Bool) (k e n cover area x : Int) : Int :=
  if x ≤ e - n then 0
  else if x < e then
    sgn neg * (T p0 p1 k (e - n + 1) - T p0 p1 k x) * 512 + sgn neg * (T p0 p1 k x - T p0 p1 k (x + 1)) * 256
  else if x = e then sgn neg * (T p0 p1 k (e - n + 1) - T p0 p1 k e) * 512 + cover * 512 - area
  else sgn neg * (T p0 p1 k (e - n + 1) - T p0 p1 k e) * 512 + cover * 512

theorem hrCells_spec {p0 p1 : Pt} (neg : Bool) (y k : Int) (hl : Line p0 p1) (hx : ¬ p0.x ≤ p1.x) :
    ∀ (n : Nat) (s : St) (cover area : Int), Con p0 p1 s →
    (1 ≤ n → s.yDlt = T p0 p1 k s.ex0 ∧ s.yErr = eR p0 p1 s.ex0) →
    ∃ yd ye, (hrCells neg y n s cover area).1 = { s with ex0 := s.ex0 - n, yDlt := yd, yErr := ye } ∧
      (1 ≤ n → yd = T p0 p1 k (s.ex0 - n) ∧ ye = eR p0 p1 (s.ex0 - n)) ∧
      (n = 0 → yd = s.yDlt ∧ ye = s.yErr) ∧
      (hrCells neg y n s cover area).2.1 = (if n = 0 then cover else
        sgn neg * (T p0 p1 k (s.ex0 - n) - T p0 p1 k (s.ex0 - n + 1))) ∧
      (∀ y' x, acc y' x (hrCells neg y n s cover area).2.2 =
        if y = y' ∧ 1 ≤ n then cellsAccR p0 p1 neg k s.ex0 n cover area x else 0) ∧
      (∀ y' x v, Ev.cell y' x v ∈ (hrCells neg y n s cover area).2.2 → y' = y ∧ s.ex0 - n ≤ x ∧ x ≤ s.ex0 + 1) ∧
      (∀ y' a b, Ev.mark y' a b ∉ (hrCells neg y n s cover area).2.2) ∧ NoRec (hrCells neg y n s cover area).2.2
  | 0, s, cover, area, _, _ => by
    refine ⟨s.yDlt, s.yErr, ?_, by omega, fun _ => ⟨rfl, rfl⟩, rfl, ?_, ?_, ?_, ?_⟩
    · simp [hrCells]
    · intro y' x
      rw [if_neg (by omega)]
      rfl
    · intro y' x v h
      simp [hrCells] at h
    · intro y' a b h
      simp [hrCells] at h
    · intro m
      simp [hrCells]
  | n + 1, s, cover, area, hc, h => by
    obtain ⟨h1, h2⟩ := h (by omega)
    have hst := step_rtl (k := k) hl hx hc h2
    obtain ⟨s', hs'⟩ : ∃ s' : St, s' = { s with
      yErr := (accStep s.yLift s.yErr s.yRem s.dx).2, yDlt := s.yDlt + (accStep s.yLift s.yErr s.yRem s.dx).1,
      ex0 := s.ex0 - 1 } := ⟨_, rfl⟩
    have k1 : s'.ex0 = s.ex0 - 1 := by rw [hs']
    have k2 : s'.yDlt = T p0 p1 k s'.ex0 := by
      rw [k1, hs']
      show s.yDlt + (accStep s.yLift s.yErr s.yRem s.dx).1 = _
      rw [hst, h1]
      show T p0 p1 k s.ex0 + (T p0 p1 k (s.ex0 - 1) - T p0 p1 k s.ex0) = _
      omega
    have k3 : s'.yErr = eR p0 p1 s'.ex0 := by
      rw [k1, hs']
      show (accStep s.yLift s.yErr s.yRem s.dx).2 = _
      rw [hst]
    have kc : Con p0 p1 s' := hc.congr (by rw [hs']; rfl)
    obtain ⟨yd, ye, g1, g2, g3, g4, g5, g6, g7, g8⟩ := hrCells_spec neg y k hl hx n s'
      (sg neg (accStep s.yLift s.yErr s.yRem s.dx).1) (sg neg (accStep s.yLift s.yErr s.yRem s.dx).1 * 256) kc
      (fun _ => ⟨k2, k3⟩)
    have eu : hrCells neg y (n + 1) s cover area =
        ((hrCells neg y n s' (sg neg (accStep s.yLift s.yErr s.yRem s.dx).1)
            (sg neg (accStep s.yLift s.yErr s.yRem s.dx).1 * 256)).1,
         (hrCells neg y n s' (sg neg (accStep s.yLift s.yErr s.yRem s.dx).1)
            (sg neg (accStep s.yLift s.yErr s.yRem s.dx).1 * 256)).2.1,
         merge y s.ex0 cover area ++ (hrCells neg y n s' (sg neg (accStep s.yLift s.yErr s.yRem s.dx).1)
            (sg neg (accStep s.yLift s.yErr s.yRem s.dx).1 * 256)).2.2) := by
      rw [hs']; rfl
    rw [eu]
    simp only []
    refine ⟨yd, ye, ?_, ?_, by omega, ?_, ?_, ?_, ?_, ?_⟩
    · rw [g1, hs']
      simp only [St.mk.injEq, and_true]
      push_cast
      omega
    · intro _
      by_cases c : n = 0
      · obtain ⟨q1, q2⟩ := g3 c
        subst c
        rw [q1, q2, k2, k3, k1]
        exact ⟨by norm_num, by norm_num⟩
      · obtain ⟨q1, q2⟩ := g2 (by omega)
        rw [q1, q2, k1]
        rw [show s.ex0 - 1 - (n : Int) = s.ex0 - ((n + 1 : Nat) : Int) by omega]
        exact ⟨rfl, rfl⟩
    · rw [g4, if_neg (Nat.succ_ne_zero n)]
      by_cases c : n = 0
      · subst c
        rw [if_pos rfl, sg_eq, hst]
        norm_num
      · rw [if_neg c, k1]
        rw [show s.ex0 - 1 - (n : Int) = s.ex0 - ((n + 1 : Nat) : Int) by omega]
    · intro y' x
      rw [acc_append, acc_merge, g5]
      by_cases cy : y = y'
      · rw [if_pos cy, if_pos (show y = y' ∧ 1 ≤ n + 1 from ⟨cy, by omega⟩), k1, hst, sg_eq]
        simp only []
        unfold cellsAccR mergeAt
        by_cases c : n = 0
        · subst c
          rw [if_neg (show ¬(y = y' ∧ 1 ≤ 0) by omega)]
          rcases Int.lt_trichotomy x s.ex0 with q | q | q
          · simp only [q, if_true, show x ≤ s.ex0 - ((0 + 1 : Nat) : Int) by omega]; rfl
          · subst q
            simp only [lt_irrefl, if_false, if_true, show ¬ s.ex0 ≤ s.ex0 - ((0 + 1 : Nat) : Int) by omega,
              show s.ex0 - ((0 + 1 : Nat) : Int) + 1 = s.ex0 by omega]; ring
          · simp only [if_false, show ¬ x ≤ s.ex0 - ((0 + 1 : Nat) : Int) by omega, show ¬ x < s.ex0 by omega,
              show ¬ x = s.ex0 by omega, show s.ex0 - ((0 + 1 : Nat) : Int) + 1 = s.ex0 by omega]; ring
        · rw [if_pos (show y = y' ∧ 1 ≤ n from ⟨cy, by omega⟩)]
          have r3 : s.ex0 - ((n + 1 : Nat) : Int) = s.ex0 - 1 - n := by omega
          have r4 : s.ex0 - 1 + 1 = s.ex0 := by omega
          rw [r3]
          rcases Int.lt_trichotomy x s.ex0 with q | q | q
          · simp only [q, if_true]
            by_cases q1 : x ≤ s.ex0 - 1 - n
            · simp only [q1, if_true]; rfl
            · simp only [q1, if_false]
              by_cases q2 : x = s.ex0 - 1
              · subst q2
                simp only [lt_irrefl, if_false, if_true, r4]; ring
              · simp only [show x < s.ex0 - 1 by omega, if_true]; ring
          · subst q
            simp only [lt_irrefl, if_false, if_true, show ¬ s.ex0 ≤ s.ex0 - 1 - n by omega,
              show ¬ s.ex0 < s.ex0 - 1 by omega, show ¬ s.ex0 = s.ex0 - 1 by omega]; ring
          · simp only [if_false, show ¬ x ≤ s.ex0 - 1 - n by omega, show ¬ x < s.ex0 - 1 by omega,
              show ¬ x < s.ex0 by omega, show ¬ x = s.ex0 by omega, show ¬ x = s.ex0 - 1 by omega]; ring
      · rw [if_neg cy, if_neg (show ¬(y = y' ∧ 1 ≤ n) from fun h => cy h.1), if_neg (show ¬(y = y' ∧ 1 ≤ n + 1) from fun h => cy h.1)]
        rfl
    · intro y' x v hm
      rcases List.mem_append.mp hm with hm | hm
      · have := mem_merge_cell hm
        omega
      · have := g6 y' x v hm
        omega
    · intro y' a b hm
      rcases List.mem_append.mp hm with hm | hm
      · exact mem_merge_mark hm
      · exact g7 y' a b hm
    · refine NoRec.append ?_ g8
      intro m
      simp [merge]

/-- `cover_rtl`, also for an edge that starts on the left boundary of its column. -/
theorem cover_rtl' {p0 p1 : Pt} {k e f a b : Int} (hh : top p0 k < bottom p1 k) (ha : xAt p0 p1 (top p0 k) = a)
    (hb : xAt p0 p1 (bottom p1 k) = b) (hef : f < e) (h0 : 256 * e < a ∨ (a = 256 * e ∧ yAt p0 p1 (256 * e) = top p0 k))
    (h1 : a ≤ 256 * e + 256) (h2 : 256 * f ≤ b) (h3 : b < 256 * f + 256) (x : Int) :
    cover p0 p1 k x =
      if x < f then 0
      else if x = f then (bottom p1 k - yAt p0 p1 (256 * f + 256)) * (512 - ((b - 256 * f) + 256))
      else if x < e then
        (bottom p1 k - yAt p0 p1 (256 * x)) * 512 + (yAt p0 p1 (256 * x) - yAt p0 p1 (256 * x + 256)) * 256
      else if x = e then (bottom p1 k - yAt p0 p1 (256 * e)) * 512
        + (yAt p0 p1 (256 * e) - top p0 k) * (512 - (a - 256 * e))
      else (bottom p1 k - top p0 k) * 512 := by
  rcases h0 with h0 | ⟨h0, ht⟩
  · exact cover_rtl hh ha hb hef h0 h1 h2 h3 x
  · by_cases c : f = e - 1
    · rw [cover_single hh ha hb (e := f) (by omega) (by omega) (by omega) (by omega)]
      unfold mergeAt
      have e1 : 256 * f + 256 = 256 * e := by omega
      have e2 : a - 256 * f = 256 := by omega
      rw [e1, ht, e2]
      rcases Int.lt_trichotomy x f with q | q | q
      · simp only [q, if_true]
      · simp only [q, lt_irrefl, if_true, if_false]; ring
      · simp only [show ¬ x < f by omega, show ¬ x = f by omega, show ¬ x < e by omega, if_false]
        split_ifs <;> ring
    · rw [cover_rtl hh ha hb (e := e - 1) (f := f) (by omega) (by omega) (by omega) h2 h3]
      have e1 : 256 * (e - 1) + 256 = 256 * e := by omega
      have e2 : a - 256 * (e - 1) = 256 := by omega
      rcases Int.lt_trichotomy x f with q | q | q
      · simp only [q, if_true]
      · simp only [q, lt_irrefl, if_true, if_false]
      · simp only [show ¬ x < f by omega, show ¬ x = f by omega, if_false]
        rcases Int.lt_trichotomy x (e - 1) with q | q | q
        · simp only [q, if_true, show x < e by omega]
        · subst q
          simp only [lt_irrefl, if_true, if_false, show e - 1 < e by omega, e1, e2, ht]; ring
        · simp only [show ¬ x < e - 1 by omega, show ¬ x = e - 1 by omega, show ¬ x < e by omega, if_false, ht]
          split_ifs <;> ring

theorem hrInside_spec {p0 p1 : Pt} {k x cov : Int} {s : St} (neg : Bool) (hl : Line p0 p1) (hx : ¬ p0.x ≤ p1.x)
    (r : Row p0 p1 k) (hc : Con p0 p1 s) (hpos : 256 * s.ex0 + s.fx0 = x) (hxa : x = xAt p0 p1 (top p0 k))
    (h0 : 0 < s.fx0 ∨ (s.fx0 = 0 ∧ yAt p0 p1 (256 * s.ex0) = top p0 k)) (h1 : s.fx0 ≤ 256)
    (hxd : xAt p0 p1 (bottom p1 k) = x - s.xDlt)
    (hfy1 : s.fy1 = bottom p1 k - 256 * k) (hcov : cov = sg neg (s.yDlt - (top p0 k - 256 * k)))
    (hcross : x - s.xDlt < 256 * s.ex0 ∨ (s.fx0 = 256 ∧ x - s.xDlt = 256 * s.ex0))
    (hend : p1.x ≤ x - s.xDlt)
    (hyd : p1.x < 256 * s.ex0 → s.yDlt = T p0 p1 k s.ex0 ∧ s.yErr = eR p0 p1 s.ex0) :
    HAfter p0 p1 k s (hrInside neg s k x cov).1 (hrInside neg s k x cov).2.1 ∧
    Draws p0 p1 neg k (k + 1) (hrInside neg s k x cov).2.2 ∧
    (hrInside neg s k x cov).1.ex0 ≤ s.ex0 ∧
    Tidy (hrInside neg s k x cov).1.ex0 s.ex0 (hrInside neg s k x cov).2.2 ∧
    (hrInside neg s k x cov).1.ex0 = (hrInside neg s k x cov).2.1 / 256 ∧ NoRec (hrInside neg s k x cov).2.2 := by
  have hlt := r.lt hl.y
  unfold hrInside
  simp only []
  generalize hn : (s.ex0 - (x - s.xDlt) / 256).toNat = n
  have hnn : (n : Int) = s.ex0 - (x - s.xDlt) / 256 := by omega
  have hyd' : 1 ≤ n → s.yDlt = T p0 p1 k s.ex0 ∧ s.yErr = eR p0 p1 s.ex0 := fun _ => hyd (by omega)
  obtain ⟨yd, ye, g1, g2, g3, g4, g5, g6, g7, g8⟩ := hrCells_spec neg k k hl hx n s cov (cov * s.fx0) hc hyd'
  generalize hrCells neg k n s cov (cov * s.fx0) = q at *
  have gyd : p1.x < 256 * (s.ex0 - n) ∨ 1 ≤ n → yd = T p0 p1 k (s.ex0 - n) ∧ ye = eR p0 p1 (s.ex0 - n) := by
    intro hv
    by_cases c : n = 0
    · obtain ⟨q1, q2⟩ := g3 c
      subst c
      rw [q1, q2]
      simpa using hyd (by omega)
    · exact g2 (by omega)
  have e1 : q.1.ex0 = s.ex0 - n := by rw [g1]
  have e2 : q.1.fy1 = s.fy1 := by rw [g1]
  have e3 : q.1.yDlt = yd := by rw [g1]
  have e4 : q.1.yErr = ye := by rw [g1]
  have kc : Con p0 p1 q.1 := hc.congr (by rw [g1]; rfl)
  have eex : (x - s.xDlt) / 256 = s.ex0 - n := by omega
  have exd : (nextX q.1).xDlt = (nextX s).xDlt ∧ (nextX q.1).xErr = (nextX s).xErr := by
    rw [g1]; exact ⟨rfl, rfl⟩
  -- the cover of the last cell
  have ecov : q.2.1 + sg neg (q.1.fy1 - q.1.yDlt) =
      if n = 0 then sgn neg * (bottom p1 k - top p0 k) else sgn neg * (bottom p1 k - 256 * k - T p0 p1 k (s.ex0 - n + 1)) := by
    rw [g4, e2, e3, hfy1, sg_eq]
    by_cases c : n = 0
    · rw [if_pos c, if_pos c, hcov, sg_eq, (g3 c).1]
      ring
    · rw [if_neg c, if_neg c, (gyd (by omega)).1]
      ring
  refine ⟨?_, ?_, ?_, ?_, ?_, ?_⟩
  · have hfin : ∀ t : St, t.xLift = q.1.xLift → t.xErr = q.1.xErr → t.xRem = q.1.xRem → t.dy = q.1.dy →
        (nextX t).xDlt = (nextX q.1).xDlt ∧ (nextX t).xErr = (nextX q.1).xErr := by
      intro t a b c d
      simp only [nextX, a, b, c, d]
      exact ⟨trivial, trivial⟩
    by_cases c : (x - s.xDlt) % 256 = 0
    · simp only [if_pos c]
      obtain ⟨f1, f2⟩ := hfin (nextY q.1) rfl rfl rfl rfl
      refine ⟨kc.congr rfl, by simp only [hxd], ?_, by rw [f1, exd.1], by rw [f2, exd.2], ?_, ?_, ?_, ?_⟩
      · rw [if_neg hx]
        intro hv
        have : (x - s.xDlt - 1) / 256 = s.ex0 - n - 1 := by omega
        rw [this] at hv ⊢
        have gy := gyd (by omega)
        exact nextY_rtl (k := k) (c := s.ex0 - n) hl hx kc (by rw [e3, gy.1]) (by rw [e4, gy.2])
      · show q.1.fy0 = s.fy0
        rw [g1]
      · show q.1.fy1 = s.fy1
        rw [g1]
      · show q.1.ey0 = s.ey0
        rw [g1]
      · show q.1.initial = s.initial
        rw [g1]
    · simp only [if_neg c]
      obtain ⟨f1, f2⟩ := hfin q.1 rfl rfl rfl rfl
      refine ⟨kc.congr rfl, by simp only [hxd], ?_, by rw [f1, exd.1], by rw [f2, exd.2], ?_, ?_, ?_, ?_⟩
      · rw [if_neg hx]
        intro hv
        have : (x - s.xDlt - 1) / 256 = s.ex0 - n := by omega
        rw [this] at hv ⊢
        show q.1.yDlt = _ ∧ q.1.yErr = _
        rw [e3, e4]
        exact gyd (by omega)
      · show q.1.fy0 = s.fy0
        rw [g1]
      · show q.1.fy1 = s.fy1
        rw [g1]
      · show q.1.ey0 = s.ey0
        rw [g1]
      · show q.1.initial = s.initial
        rw [g1]
  · apply Draws.row
    intro y' X
    rw [List.cons_append, acc_bits, acc_append, acc_merge, g5, ecov, e1]
    by_cases cy : k = y'
    · rw [if_pos cy, if_pos cy]
      by_cases c : n = 0
      · rw [if_neg (by omega), if_pos c]
        have hz : s.fx0 = 256 ∧ x - s.xDlt = 256 * s.ex0 := by omega
        rw [cover_single hlt hxa.symm hxd (e := s.ex0) (by omega) (by omega) (by omega) (by omega)]
        have ef : (x - s.xDlt) % 256 = 0 := by omega
        have ez : x - 256 * s.ex0 = 256 := by omega
        have ez2 : x - s.xDlt - 256 * s.ex0 = 0 := by omega
        rw [ef, ez, ez2]
        unfold mergeAt
        subst c
        norm_num
        split_ifs <;> ring
      · have hy1 := (hyd' (by omega)).1
        rw [if_pos ⟨cy, by omega⟩, if_neg c,
          cover_rtl' hlt hxa.symm hxd (e := s.ex0) (f := s.ex0 - n) (by omega)
            (by rcases h0 with h0 | ⟨h0, h0'⟩
                · left; omega
                · right; exact ⟨by omega, h0'⟩) (by omega) (by omega) (by omega)]
        have ef : (x - s.xDlt) % 256 = x - s.xDlt - 256 * (s.ex0 - n) := by omega
        rw [ef, hcov, sg_eq, hy1]
        unfold cellsAccR mergeAt T
        rw [show 256 * (s.ex0 - n + 1) = 256 * (s.ex0 - n) + 256 by ring]
        have hn0 : (0 : Int) < n := by omega
        rcases Int.lt_trichotomy X (s.ex0 - n) with q | q | q
        · simp only [q, if_true, show X ≤ s.ex0 - n by omega]; ring
        · subst q
          simp only [lt_irrefl, le_refl, if_false, if_true]; ring
        · have q1 : ¬X ≤ s.ex0 - n := by omega
          have q2 : ¬X < s.ex0 - n := by omega
          have q3 : ¬X = s.ex0 - n := by omega
          simp only [q1, q2, q3, if_false]
          rcases Int.lt_trichotomy X s.ex0 with q | q | q
          · simp only [q, if_true, show 256 * (X + 1) = 256 * X + 256 by ring]; ring
          · subst q
            simp only [lt_irrefl, if_false, if_true, show x - 256 * s.ex0 = s.fx0 by omega]; ring
          · have q1 : ¬X < s.ex0 := by omega
            have q2 : ¬X = s.ex0 := by omega
            simp only [q1, q2, if_false]; ring
    · rw [if_neg cy, if_neg cy, if_neg (by omega)]
      rfl
  · by_cases c : (x - s.xDlt) % 256 = 0
    · simp only [if_pos c]
      show q.1.ex0 ≤ s.ex0
      omega
    · simp only [if_neg c]
      show q.1.ex0 ≤ s.ex0
      omega
  · have hT : Tidy (s.ex0 - n) s.ex0 (bits k ((x - s.xDlt) / 256) s.ex0 :: q.2.2 ++
        merge k q.1.ex0 (q.2.1 + sg neg (q.1.fy1 - q.1.yDlt)) ((q.2.1 + sg neg (q.1.fy1 - q.1.yDlt)) * ((x - s.xDlt) % 256 + 256))) := by
      refine Tidy.range (y := k) (by omega) (by rw [eex]; simp) ?_ ?_
      · intro y' a b hm
        rw [List.cons_append] at hm
        rcases List.mem_cons.mp hm with hm | hm
        · simp only [bits, Ev.mark.injEq] at hm
          omega
        · rcases List.mem_append.mp hm with hm | hm
          · exact absurd hm (g7 _ _ _)
          · exact (mem_merge_mark hm).elim
      · intro y' a b hm
        rw [List.cons_append] at hm
        rcases List.mem_cons.mp hm with hm | hm
        · simp [bits] at hm
        · rcases List.mem_append.mp hm with hm | hm
          · have := g6 _ _ _ hm
            omega
          · have := mem_merge_cell hm
            omega
    rw [← e1] at hT
    by_cases c : (x - s.xDlt) % 256 = 0
    · simp only [if_pos c]
      exact hT
    · simp only [if_neg c]
      exact hT
  · by_cases c : (x - s.xDlt) % 256 = 0
    · simp only [if_pos c]
      show q.1.ex0 = _
      omega
    · simp only [if_neg c]
      show q.1.ex0 = _
      omega
  · rw [List.cons_append]
    refine NoRec.append (l := [_]) ?_ (g8.append ?_)
    · intro m; simp [bits]
    · intro m; simp [merge]

end Blend2D.Raster
