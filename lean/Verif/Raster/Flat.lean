import Verif.Raster.SteepRun

/-! # Flat lines that go right -/

namespace Blend2D.Raster
open Spec

/-- Where the edge crosses the vertical boundary `256 * c`, relative to the top of scanline `k`. -/
def T (p0 p1 : Pt) (k c : Int) : Int := yAt p0 p1 (256 * c) - 256 * k

/-- The error term of that crossing, for an edge that goes right. -/
def eL (p0 p1 : Pt) (c : Int) : Int := errOf ((p1.y - p0.y) * (256 * c - p0.x)) (adx p0 p1)

theorem nextY_ltr {p0 p1 : Pt} {s : St} {k c : Int} (hl : Line p0 p1) (hx : p0.x ≤ p1.x) (hc : Con p0 p1 s)
    (h1 : s.yDlt = T p0 p1 k c) (h2 : s.yErr = eL p0 p1 c) :
    (nextY s).yDlt = T p0 p1 k (c + 1) ∧ (nextY s).yErr = eL p0 p1 (c + 1) := by
  have hn := nextY_spec hl hc h2
  have en : (p1.y - p0.y) * (256 * c - p0.x) + 256 * (p1.y - p0.y) = (p1.y - p0.y) * (256 * (c + 1) - p0.x) := by ring
  rw [en] at hn
  refine ⟨?_, hn.2⟩
  rw [hn.1, h1]
  unfold T
  rw [yAt_ltr hx, yAt_ltr hx]
  omega

theorem step_ltr {p0 p1 : Pt} {s : St} {k c : Int} (hl : Line p0 p1) (hx : p0.x ≤ p1.x) (hc : Con p0 p1 s)
    (h1 : s.yDlt = T p0 p1 k c) (h2 : s.yErr = eL p0 p1 c) :
    (accStep s.yLift s.yErr s.yRem s.dx) = (T p0 p1 k (c + 1) - T p0 p1 k c, eL p0 p1 (c + 1)) := by
  have hd := hl.adx_pos
  have e := accStep_round hd 0 ((p1.y - p0.y) * (256 * c - p0.x)) ((p1.y - p0.y) * 256 / adx p0 p1)
    ((p1.y - p0.y) * 256 % adx p0 p1) ((p1.y - p0.y) * (256 * (c + 1) - p0.x)) (Int.emod_nonneg _ (by omega))
    (Int.emod_lt_of_pos _ hd) (by
      have := Int.mul_ediv_add_emod ((p1.y - p0.y) * 256) (adx p0 p1)
      rw [Int.mul_comm (adx p0 p1)] at this
      have en : (p1.y - p0.y) * (256 * c - p0.x) + 256 * (p1.y - p0.y) = (p1.y - p0.y) * (256 * (c + 1) - p0.x) := by ring
      omega)
  rw [h2, hc.yLift, hc.yRem, hc.dx]
  unfold eL
  rw [Int.zero_add, Int.zero_add] at e
  rw [e]
  unfold T
  rw [yAt_ltr hx, yAt_ltr hx]
  refine Prod.ext ?_ rfl
  simp only []
  omega

/-- What the loop over the cells adds up to, from column `e` over `n` columns. -/
def cellsAcc (p0 p1 : Pt) (neg : Bool) (k e n cover area x : Int) : Int :=
  if x < e then 0
  else if x = e then cover * 512 - area
  else if x < e + n then
    (cover + sgn neg * (T p0 p1 k x - T p0 p1 k (e + 1))) * 512 + sgn neg * (T p0 p1 k (x + 1) - T p0 p1 k x) * 256
  else (cover + sgn neg * (T p0 p1 k (e + n) - T p0 p1 k (e + 1))) * 512

theorem mem_merge_cell {y e c a y' x v : Int} (h : Ev.cell y' x v ∈ merge y e c a) : y' = y ∧ e ≤ x ∧ x ≤ e + 1 := by
  simp only [merge, List.mem_cons, Ev.cell.injEq, List.not_mem_nil, or_false] at h
  omega

theorem mem_merge_mark {y e c a y' x v : Int} (h : Ev.mark y' x v ∈ merge y e c a) : False := by
  simp [merge] at h

theorem hlCells_spec {p0 p1 : Pt} (neg : Bool) (y k : Int) (hl : Line p0 p1) (hx : p0.x ≤ p1.x) :
    ∀ (n : Nat) (s : St) (cover area : Int), Con p0 p1 s →
    (1 ≤ n → s.yDlt = T p0 p1 k (s.ex0 + 1) ∧ s.yErr = eL p0 p1 (s.ex0 + 1)) →
    ∃ yd ye, (hlCells neg y n s cover area).1 = { s with ex0 := s.ex0 + n, yDlt := yd, yErr := ye } ∧
      (1 ≤ n → yd = T p0 p1 k (s.ex0 + n + 1) ∧ ye = eL p0 p1 (s.ex0 + n + 1)) ∧
      (n = 0 → yd = s.yDlt ∧ ye = s.yErr) ∧
      (hlCells neg y n s cover area).2.1 = (if n = 0 then cover else
        sgn neg * (T p0 p1 k (s.ex0 + n + 1) - T p0 p1 k (s.ex0 + n))) ∧
      (∀ y' x, acc y' x (hlCells neg y n s cover area).2.2 =
        if y = y' ∧ 1 ≤ n then cellsAcc p0 p1 neg k s.ex0 n cover area x else 0) ∧
      (∀ y' x v, Ev.cell y' x v ∈ (hlCells neg y n s cover area).2.2 → y' = y ∧ s.ex0 ≤ x ∧ x ≤ s.ex0 + n) ∧
      (∀ y' a b, Ev.mark y' a b ∉ (hlCells neg y n s cover area).2.2) ∧ NoRec (hlCells neg y n s cover area).2.2
  | 0, s, cover, area, _, _ => by
    refine ⟨s.yDlt, s.yErr, ?_, by omega, fun _ => ⟨rfl, rfl⟩, rfl, ?_, ?_, ?_, ?_⟩
    · simp [hlCells]
    · intro y' x
      rw [if_neg (by omega)]
      rfl
    · intro y' x v h
      simp [hlCells] at h
    · intro y' a b h
      simp [hlCells] at h
    · intro m
      simp [hlCells]
  | n + 1, s, cover, area, hc, h => by
    obtain ⟨h1, h2⟩ := h (by omega)
    have hst := step_ltr hl hx hc h1 h2
    obtain ⟨s', hs'⟩ : ∃ s' : St, s' = { s with
      yErr := (accStep s.yLift s.yErr s.yRem s.dx).2, yDlt := s.yDlt + (accStep s.yLift s.yErr s.yRem s.dx).1,
      ex0 := s.ex0 + 1 } := ⟨_, rfl⟩
    have k1 : s'.ex0 = s.ex0 + 1 := by rw [hs']
    have k2 : s'.yDlt = T p0 p1 k (s'.ex0 + 1) := by
      rw [k1, hs']
      show s.yDlt + (accStep s.yLift s.yErr s.yRem s.dx).1 = _
      rw [hst, h1]
      show T p0 p1 k (s.ex0 + 1) + (T p0 p1 k (s.ex0 + 1 + 1) - T p0 p1 k (s.ex0 + 1)) = _
      omega
    have k3 : s'.yErr = eL p0 p1 (s'.ex0 + 1) := by
      rw [k1, hs']
      show (accStep s.yLift s.yErr s.yRem s.dx).2 = _
      rw [hst]
    have kc : Con p0 p1 s' := hc.congr (by rw [hs']; rfl)
    obtain ⟨yd, ye, g1, g2, g3, g4, g5, g6, g7, g8⟩ := hlCells_spec neg y k hl hx n s'
      (sg neg (accStep s.yLift s.yErr s.yRem s.dx).1) (sg neg (accStep s.yLift s.yErr s.yRem s.dx).1 * 256) kc
      (fun _ => ⟨k2, k3⟩)
    have eu : hlCells neg y (n + 1) s cover area =
        ((hlCells neg y n s' (sg neg (accStep s.yLift s.yErr s.yRem s.dx).1)
            (sg neg (accStep s.yLift s.yErr s.yRem s.dx).1 * 256)).1,
         (hlCells neg y n s' (sg neg (accStep s.yLift s.yErr s.yRem s.dx).1)
            (sg neg (accStep s.yLift s.yErr s.yRem s.dx).1 * 256)).2.1,
         merge y s.ex0 cover area ++ (hlCells neg y n s' (sg neg (accStep s.yLift s.yErr s.yRem s.dx).1)
            (sg neg (accStep s.yLift s.yErr s.yRem s.dx).1 * 256)).2.2) := by
      rw [hs']; rfl
    rw [eu]
    simp only []
    refine ⟨yd, ye, ?_, ?_, by omega, ?_, ?_, ?_, ?_, ?_⟩
    · rw [g1, hs']
      simp only [St.mk.injEq, true_and, and_true]
      push_cast
      omega
    · intro _
      by_cases c : n = 0
      · obtain ⟨q1, q2⟩ := g3 c
        subst c
        rw [q1, q2, k2, k3, k1]
        exact ⟨by norm_num, by norm_num⟩
      · obtain ⟨q1, q2⟩ := g2 (by omega)
        rw [q1, q2, k1]
        rw [show s.ex0 + 1 + (n : Int) + 1 = s.ex0 + ((n + 1 : Nat) : Int) + 1 by omega]
        exact ⟨rfl, rfl⟩
    · rw [g4, if_neg (Nat.succ_ne_zero n)]
      by_cases c : n = 0
      · subst c
        rw [if_pos rfl, sg_eq, hst]
        norm_num
      · rw [if_neg c, k1]
        rw [show s.ex0 + 1 + (n : Int) + 1 = s.ex0 + ((n + 1 : Nat) : Int) + 1 by omega,
          show s.ex0 + 1 + (n : Int) = s.ex0 + ((n + 1 : Nat) : Int) by omega]
    · intro y' x
      rw [acc_append, acc_merge, g5]
      by_cases cy : y = y'
      · rw [if_pos cy, if_pos (show y = y' ∧ 1 ≤ n + 1 from ⟨cy, by omega⟩), k1, hst, sg_eq]
        simp only []
        unfold cellsAcc mergeAt
        by_cases c : n = 0
        · subst c
          rw [if_neg (show ¬(y = y' ∧ 1 ≤ 0) by omega)]
          norm_num
          by_cases q1 : x < s.ex0
          · rw [if_pos q1, if_pos q1]
          · by_cases q2 : x = s.ex0
            · rw [if_neg q1, if_pos q2, if_neg q1, if_pos q2]
            · rw [if_neg q1, if_neg q2, if_neg q1, if_neg q2, if_neg (show ¬x < s.ex0 + 1 by omega)]
        · rw [if_pos (show y = y' ∧ 1 ≤ n from ⟨cy, by omega⟩)]
          have r1 : (x < s.ex0 + 1) = (x ≤ s.ex0) := by simp only [eq_iff_iff]; omega
          have r2 : (x < s.ex0 + ((n + 1 : Nat) : Int)) = (x < s.ex0 + 1 + n) := by simp only [eq_iff_iff]; omega
          have r3 : s.ex0 + ((n + 1 : Nat) : Int) = s.ex0 + 1 + n := by omega
          rw [r3]
          rcases Int.lt_trichotomy x s.ex0 with q | q | q
          · simp only [q, if_true, show x < s.ex0 + 1 by omega]; rfl
          · simp only [q, lt_irrefl, if_false, if_true, show s.ex0 < s.ex0 + 1 by omega]; ring
          · have q1 : ¬x < s.ex0 := by omega
            have q2 : ¬x = s.ex0 := by omega
            have q3 : ¬x < s.ex0 + 1 := by omega
            simp only [q1, q2, q3, if_false]
            by_cases q4 : x = s.ex0 + 1
            · subst q4
              simp only [if_true, show s.ex0 + 1 < s.ex0 + 1 + (n : Int) by omega]
              ring
            · simp only [q4, if_false]
              by_cases q5 : x < s.ex0 + 1 + n
              · simp only [q5, if_true]; ring
              · simp only [q5, if_false]; ring
      · rw [if_neg cy, if_neg (show ¬(y = y' ∧ 1 ≤ n) from fun h => cy h.1), if_neg (show ¬(y = y' ∧ 1 ≤ n + 1) from fun h => cy h.1)]
        rfl
    · intro y' x v hm
      rcases List.mem_append.mp hm with hm | hm
      · have := mem_merge_cell hm
        omega
      · have := g6 y' x v hm
        omega
    · intro y' a b hm
      rcases List.mem_append.mp hm with hm | hm
      · exact mem_merge_mark hm
      · exact g7 y' a b hm
    · refine NoRec.append ?_ g8
      intro m
      simp [merge]

/-- A row in which all groups between two columns are marked. -/
theorem Tidy.range {y e f : Int} {log : List Ev} (hef : e ≤ f) (hm : bits y e f ∈ log)
    (hmarks : ∀ y' a b, Ev.mark y' a b ∈ log → a = e / 4 ∧ b = f / 4)
    (hc : ∀ y' x v, Ev.cell y' x v ∈ log → y' = y ∧ e ≤ x ∧ x ≤ f + 1) : Tidy e f log := by
  refine ⟨?_, ?_, ?_⟩
  · intro y' a b h
    have := hmarks y' a b h
    omega
  · intro y' x v h
    have := hc y' x v h
    omega
  · intro y' x v h
    obtain ⟨e1, e2, e3⟩ := hc y' x v h
    subst e1
    have hk : ∀ g, e / 4 ≤ g → g ≤ f / 4 → marked y' g log := fun g a b => ⟨e / 4, f / 4, hm, a, b⟩
    by_cases c : x ≤ f
    · exact Or.inl (hk _ (by omega) (by omega))
    · by_cases c4 : x % 4 = 0
      · exact Or.inr ⟨c4, hk _ (by omega) (by omega)⟩
      · exact Or.inl (hk _ (by omega) (by omega))

/-- The state after a scanline of a flat line, drawn from state `s`; `x` is the position. -/
structure HAfter (p0 p1 : Pt) (k : Int) (s t : St) (x : Int) : Prop where
  con : Con p0 p1 t
  pos : x = xAt p0 p1 (bottom p1 k)
  yd : if p0.x ≤ p1.x then 256 * (x / 256) + 256 ≤ p1.x → t.yDlt = T p0 p1 k (x / 256 + 1) ∧ t.yErr = eL p0 p1 (x / 256 + 1)
    else p1.x < 256 * ((x - 1) / 256) → t.yDlt = T p0 p1 k ((x - 1) / 256) ∧
      t.yErr = errOf ((p1.y - p0.y) * (p0.x - 256 * ((x - 1) / 256))) (adx p0 p1)
  xDlt : t.xDlt = (nextX s).xDlt
  xErr : t.xErr = (nextX s).xErr
  fy0 : t.fy0 = s.fy0
  fy1 : t.fy1 = s.fy1
  ey0 : t.ey0 = s.ey0
  init : t.initial = s.initial

theorem hlInside_spec {p0 p1 : Pt} {k x cov : Int} {s : St} (neg : Bool) (hl : Line p0 p1) (hx : p0.x ≤ p1.x)
    (r : Row p0 p1 k) (hc : Con p0 p1 s) (hpos : 256 * s.ex0 + s.fx0 = x) (hxa : x = xAt p0 p1 (top p0 k))
    (h0 : 0 ≤ s.fx0) (h1 : s.fx0 < 256) (hxd : xAt p0 p1 (bottom p1 k) = x + s.xDlt)
    (hfy1 : s.fy1 = bottom p1 k - 256 * k) (hcov : cov = sg neg (s.yDlt - (top p0 k - 256 * k)))
    (hcross : 256 * s.ex0 + 256 < x + s.xDlt ∨ (s.fx0 = 0 ∧ x + s.xDlt = 256 * s.ex0 + 256))
    (hend : x + s.xDlt ≤ p1.x)
    (hyd : 256 * s.ex0 + 256 ≤ p1.x → s.yDlt = T p0 p1 k (s.ex0 + 1) ∧ s.yErr = eL p0 p1 (s.ex0 + 1)) :
    HAfter p0 p1 k s (hlInside neg s k x cov).1 (hlInside neg s k x cov).2.1 ∧
    Draws p0 p1 neg k (k + 1) (hlInside neg s k x cov).2.2 ∧
    s.ex0 ≤ (hlInside neg s k x cov).1.ex0 ∧
    Tidy s.ex0 (hlInside neg s k x cov).1.ex0 (hlInside neg s k x cov).2.2 ∧
    (hlInside neg s k x cov).1.ex0 ≤ (x + s.xDlt) / 256 ∧ NoRec (hlInside neg s k x cov).2.2 := by
  have hlt := r.lt hl.y
  unfold hlInside
  simp only []
  generalize hn : ((x + s.xDlt - 1) / 256 - s.ex0).toNat = n
  have hnn : (n : Int) = (x + s.xDlt - 1) / 256 - s.ex0 := by omega
  have hyd' := hyd (by omega)
  obtain ⟨yd, ye, g1, g2, g3, g4, g5, g6, g7, g8⟩ := hlCells_spec neg k k hl hx n s cov (cov * (s.fx0 + 256)) hc (fun _ => hyd')
  generalize hlCells neg k n s cov (cov * (s.fx0 + 256)) = q at *
  have gyd : yd = T p0 p1 k (s.ex0 + n + 1) ∧ ye = eL p0 p1 (s.ex0 + n + 1) := by
    by_cases c : n = 0
    · obtain ⟨q1, q2⟩ := g3 c
      subst c
      rw [q1, q2]
      simpa using hyd'
    · exact g2 (by omega)
  have e1 : q.1.ex0 = s.ex0 + n := by rw [g1]
  have e2 : q.1.fy1 = s.fy1 := by rw [g1]
  have e3 : q.1.yDlt = yd := by rw [g1]
  have e4 : q.1.yErr = ye := by rw [g1]
  have kc : Con p0 p1 q.1 := hc.congr (by rw [g1]; rfl)
  have eex : (x + s.xDlt - 1) / 256 = s.ex0 + n := by omega
  have exd : (nextX q.1).xDlt = (nextX s).xDlt ∧ (nextX q.1).xErr = (nextX s).xErr := by
    rw [g1]; exact ⟨rfl, rfl⟩
  -- the cover of the last cell
  have ecov : q.2.1 + sg neg (q.1.fy1 - q.1.yDlt) =
      if n = 0 then sgn neg * (bottom p1 k - top p0 k) else sgn neg * (bottom p1 k - 256 * k - T p0 p1 k (s.ex0 + n)) := by
    rw [g4, e2, e3, gyd.1, hfy1, sg_eq]
    by_cases c : n = 0
    · rw [if_pos c, if_pos c, hcov, sg_eq, hyd'.1]
      subst c
      norm_num
      ring
    · rw [if_neg c, if_neg c]
      ring
  refine ⟨?_, ?_, ?_, ?_, ?_, ?_⟩
  · have hfin : ∀ t : St, t.xLift = q.1.xLift → t.xErr = q.1.xErr → t.xRem = q.1.xRem → t.dy = q.1.dy →
        (nextX t).xDlt = (nextX q.1).xDlt ∧ (nextX t).xErr = (nextX q.1).xErr := by
      intro t a b c d
      simp only [nextX, a, b, c, d]
      exact ⟨trivial, trivial⟩
    by_cases c : (x + s.xDlt - 1) % 256 + 1 = 256
    · simp only [if_pos c]
      have hny := nextY_ltr (k := k) (c := s.ex0 + n + 1) hl hx kc (by rw [e3, gyd.1]) (by rw [e4, gyd.2])
      obtain ⟨f1, f2⟩ := hfin (nextY q.1) rfl rfl rfl rfl
      refine ⟨kc.congr rfl, by simp only [hxd], ?_, by rw [f1, exd.1], by rw [f2, exd.2], ?_, ?_, ?_, ?_⟩
      · rw [if_pos hx]
        intro _
        have : (x + s.xDlt) / 256 = s.ex0 + n + 1 := by omega
        rw [this]
        exact hny
      · show q.1.fy0 = s.fy0
        rw [g1]
      · show q.1.fy1 = s.fy1
        rw [g1]
      · show q.1.ey0 = s.ey0
        rw [g1]
      · show q.1.initial = s.initial
        rw [g1]
    · simp only [if_neg c]
      obtain ⟨f1, f2⟩ := hfin q.1 rfl rfl rfl rfl
      refine ⟨kc.congr rfl, by simp only [hxd], ?_, by rw [f1, exd.1], by rw [f2, exd.2], ?_, ?_, ?_, ?_⟩
      · rw [if_pos hx]
        intro _
        have : (x + s.xDlt) / 256 = s.ex0 + n := by omega
        rw [this]
        show q.1.yDlt = _ ∧ q.1.yErr = _
        rw [e3, e4]
        exact gyd
      · show q.1.fy0 = s.fy0
        rw [g1]
      · show q.1.fy1 = s.fy1
        rw [g1]
      · show q.1.ey0 = s.ey0
        rw [g1]
      · show q.1.initial = s.initial
        rw [g1]
  · apply Draws.row
    intro y' X
    rw [List.cons_append, acc_bits, acc_append, acc_merge, g5, ecov, e1]
    by_cases cy : k = y'
    · rw [if_pos cy, if_pos cy]
      by_cases c : n = 0
      · rw [if_neg (by omega), if_pos c]
        have hz : s.fx0 = 0 ∧ x + s.xDlt = 256 * s.ex0 + 256 := by omega
        rw [cover_single hlt hxa.symm hxd (e := s.ex0) (by omega) (by omega) (by omega) (by omega)]
        have ef : (x + s.xDlt - 1) % 256 + 1 = x + s.xDlt - 256 * s.ex0 := by omega
        have ez : x - 256 * s.ex0 = 0 := by omega
        rw [ef, ez]
        unfold mergeAt
        subst c
        norm_num
        split_ifs <;> ring
      · have hcr : 256 * (s.ex0 + n) < x + s.xDlt := by omega
        rw [if_pos ⟨cy, by omega⟩, if_neg c,
          cover_ltr hlt hxa.symm hxd (e := s.ex0) (f := s.ex0 + n) (by omega) (by omega) (by omega) (by omega) (by omega)]
        have ef : (x + s.xDlt - 1) % 256 + 1 = x + s.xDlt - 256 * (s.ex0 + n) := by omega
        rw [ef, hcov, sg_eq, hyd'.1]
        unfold cellsAcc mergeAt T
        rw [show 256 * (s.ex0 + 1) = 256 * s.ex0 + 256 by ring]
        have hn0 : (0 : Int) < n := by omega
        rcases Int.lt_trichotomy X s.ex0 with q | q | q
        · simp only [q, if_true, show X < s.ex0 + n by omega]; ring
        · subst q
          simp only [lt_irrefl, if_false, if_true, show s.ex0 < s.ex0 + n by omega, show x - 256 * s.ex0 = s.fx0 by omega]; ring
        · have q1 : ¬X < s.ex0 := by omega
          have q2 : ¬X = s.ex0 := by omega
          simp only [q1, q2, if_false]
          rcases Int.lt_trichotomy X (s.ex0 + n) with q | q | q
          · simp only [q, if_true, show 256 * (X + 1) = 256 * X + 256 by ring]; ring
          · simp only [q, lt_irrefl, if_false, if_true]; ring
          · have q1 : ¬X < s.ex0 + n := by omega
            have q2 : ¬X = s.ex0 + n := by omega
            simp only [q1, q2, if_false]; ring
    · rw [if_neg cy, if_neg cy, if_neg (by omega)]
      rfl
  · by_cases c : (x + s.xDlt - 1) % 256 + 1 = 256
    · simp only [if_pos c]
      show s.ex0 ≤ q.1.ex0
      omega
    · simp only [if_neg c]
      show s.ex0 ≤ q.1.ex0
      omega
  · have hT : Tidy s.ex0 (s.ex0 + n) (bits k s.ex0 ((x + s.xDlt - 1) / 256) :: q.2.2 ++
        merge k q.1.ex0 (q.2.1 + sg neg (q.1.fy1 - q.1.yDlt)) ((q.2.1 + sg neg (q.1.fy1 - q.1.yDlt)) * ((x + s.xDlt - 1) % 256 + 1))) := by
      refine Tidy.range (y := k) (by omega) (by rw [eex]; simp) ?_ ?_
      · intro y' a b hm
        rw [List.cons_append] at hm
        rcases List.mem_cons.mp hm with hm | hm
        · simp only [bits, Ev.mark.injEq] at hm
          omega
        · rcases List.mem_append.mp hm with hm | hm
          · exact absurd hm (g7 _ _ _)
          · exact (mem_merge_mark hm).elim
      · intro y' a b hm
        rw [List.cons_append] at hm
        rcases List.mem_cons.mp hm with hm | hm
        · simp [bits] at hm
        · rcases List.mem_append.mp hm with hm | hm
          · have := g6 _ _ _ hm
            omega
          · have := mem_merge_cell hm
            omega
    rw [← e1] at hT
    by_cases c : (x + s.xDlt - 1) % 256 + 1 = 256
    · simp only [if_pos c]
      exact hT
    · simp only [if_neg c]
      exact hT
  · by_cases c : (x + s.xDlt - 1) % 256 + 1 = 256
    · simp only [if_pos c]
      show q.1.ex0 ≤ _
      omega
    · simp only [if_neg c]
      show q.1.ex0 ≤ _
      omega
  · rw [List.cons_append]
    refine NoRec.append (l := [_]) ?_ (g8.append ?_)
    · intro m; simp [bits]
    · intro m; simp [merge]

end Blend2D.Raster
