import Verif.Raster.FlatLeft

/-! # The scanlines of a flat line that goes left -/

namespace Blend2D.Raster
open Spec

theorem hrSkip_spec {p0 p1 : Pt} {k x : Int} {s : St} (neg : Bool) (hl : Line p0 p1) (hx : ¬ p0.x ≤ p1.x)
    (r : Row p0 p1 k) (hlo : p0.y < 256 * k) (hc : Con p0 p1 s) (hxa : x = xAt p0 p1 (256 * k))
    (hy : HY p0 p1 (k - 1) x s) (hfy1 : s.fy1 = bottom p1 k - 256 * k) (hxd : xAt p0 p1 (bottom p1 k) = x - s.xDlt)
    (hcross : x - s.xDlt < 256 * ((x - 1) / 256) ∨ ((x - 1) % 256 = 255 ∧ x - s.xDlt = 256 * ((x - 1) / 256))) :
    HAfter p0 p1 k s (hrSkip neg (hrEnter s x) k x).1 (hrSkip neg (hrEnter s x) k x).2.1 ∧
    Draws p0 p1 neg k (k + 1) (hrSkip neg (hrEnter s x) k x).2.2 ∧
    (hrSkip neg (hrEnter s x) k x).1.ex0 ≤ (x - 1) / 256 ∧
    Tidy (hrSkip neg (hrEnter s x) k x).1.ex0 ((x - 1) / 256) (hrSkip neg (hrEnter s x) k x).2.2 ∧
    (hrSkip neg (hrEnter s x) k x).1.ex0 = (hrSkip neg (hrEnter s x) k x).2.1 / 256 ∧
    NoRec (hrSkip neg (hrEnter s x) k x).2.2 := by
  have etop : top p0 k = 256 * k := by unfold top; omega
  have hend : p1.x ≤ xAt p0 p1 (bottom p1 k) := by
    have hlt := r.lt hl.y
    have g := gone_le hl.y (y := bottom p1 k) (by have := r.top_ge; omega) r.bottom_le
    rw [xAt_gone_rtl hx]
    have : adx p0 p1 = p0.x - p1.x := by unfold adx; rw [if_neg hx]
    omega
  unfold hrSkip
  obtain ⟨a1, a2, a3, a4, a5, a6⟩ := hrInside_spec (k := k) (x := x) (cov := sg neg (s.yDlt - 256))
    (s := { hrEnter s x with yDlt := s.yDlt - 256 }) neg hl hx r (hc.congr rfl)
    (by show 256 * ((x - 1) / 256) + ((x - 1) % 256 + 1) = x; omega) (by rw [etop]; exact hxa)
    (by left; show 0 < (x - 1) % 256 + 1; omega)
    (by show (x - 1) % 256 + 1 ≤ 256; omega) hxd hfy1 (by rw [etop]; congr 1; show _ = s.yDlt - 256 - _; omega)
    (by show x - s.xDlt < 256 * ((x - 1) / 256) ∨ ((x - 1) % 256 + 1 = 256 ∧ x - s.xDlt = 256 * ((x - 1) / 256)); omega)
    (by show p1.x ≤ x - s.xDlt; omega) (by
      intro hv
      unfold HY at hy
      rw [if_neg hx] at hy
      obtain ⟨y1, y2⟩ := hy hv
      refine ⟨?_, y2⟩
      show s.yDlt - 256 = _
      rw [y1, T_pred]
      rfl)
  exact ⟨⟨a1.con, a1.pos, a1.yd, a1.xDlt, a1.xErr, a1.fy0, a1.fy1, a1.ey0, a1.init⟩, a2, a3, a4, a5, a6⟩

theorem hrMid_spec {p0 p1 : Pt} {k x : Int} {s : St} (neg : Bool) (hl : Line p0 p1) (hx : ¬ p0.x ≤ p1.x)
    (hf : p1.y - p0.y < adx p0 p1) (h : HP p0 p1 k s x) (hk : k < (p1.y - 1) / 256) :
    HAfter p0 p1 k s (hrSkip neg (hrEnter s x) k x).1 (hrSkip neg (hrEnter s x) k x).2.1 ∧
    Draws p0 p1 neg k (k + 1) (hrSkip neg (hrEnter s x) k x).2.2 ∧
    (hrSkip neg (hrEnter s x) k x).1.ex0 ≤ (x - 1) / 256 ∧
    Tidy (hrSkip neg (hrEnter s x) k x).1.ex0 ((x - 1) / 256) (hrSkip neg (hrEnter s x) k x).2.2 ∧
    (hrSkip neg (hrEnter s x) k x).1.ex0 = (hrSkip neg (hrEnter s x) k x).2.1 / 256 ∧
    NoRec (hrSkip neg (hrEnter s x) k x).2.2 := by
  have hlo := h.lo
  obtain ⟨s1, s2, s3⟩ := hp_step hl hf h hk
  have hp := h.pos
  have e1 := xAt_gone_rtl hx (256 * k)
  have e2 := xAt_gone_rtl hx (bottom p1 k)
  exact hrSkip_spec neg hl hx ⟨by omega, by omega⟩ hlo h.con hp h.yd s3 (by omega) (by omega)

theorem hrMids_spec {p0 p1 : Pt} (neg : Bool) (hl : Line p0 p1) (hx : ¬ p0.x ≤ p1.x) (hf : p1.y - p0.y < adx p0 p1) :
    ∀ (n : Nat) (k x : Int) (s : St), k + n ≤ (p1.y - 1) / 256 → HP p0 p1 k s x → (x - 1) / 256 ≤ s.ex0 →
    HP p0 p1 (k + n) (hrMids neg k n s x).1 (hrMids neg k n s x).2.1 ∧
    Draws p0 p1 neg k (k + n) (hrMids neg k n s x).2.2 ∧
    (hrMids neg k n s x).1.ex0 ≤ s.ex0 ∧
    ((hrMids neg k n s x).2.1 - 1) / 256 ≤ (hrMids neg k n s x).1.ex0 ∧
    Tidy (hrMids neg k n s x).1.ex0 s.ex0 (hrMids neg k n s x).2.2 ∧
    (hrMids neg k n s x).1.ey0 = s.ey0 ∧ (hrMids neg k n s x).1.initial = s.initial ∧ NoRec (hrMids neg k n s x).2.2
  | 0, k, x, s, _, h, he => by
    simp only [hrMids, Int.natCast_zero, Int.add_zero]
    exact ⟨h, Draws.empty _ _ _ _, by omega, he, Tidy.nil _ _, trivial, trivial, by intro m; simp⟩
  | n + 1, k, x, s, h1, h, he => by
    obtain ⟨a1, a2, a3, a4, a5, a6⟩ := hrMid_spec neg hl hx hf h (by omega)
    obtain ⟨b1, b2, b3, b4, b5, b6, b7, b8⟩ := hrMids_spec neg hl hx hf n (k + 1) _ _ (by omega) (a1.toHP' hl (by omega) h)
      (by rw [a5]; omega)
    simp only [hrMids]
    have ek : k + ((n + 1 : Nat) : Int) = k + 1 + n := by omega
    rw [ek]
    refine ⟨b1, a2.append b2 (by omega) (by omega), by omega, b4, ?_, ?_, ?_, a6.append b8⟩
    · exact (a4.mono (by omega) (by omega)).append (b5.mono (by omega) (by omega))
    · rw [b6]; exact a1.ey0
    · rw [b7]; exact a1.init

theorem hrFirst_spec {p0 p1 : Pt} {s : St} (neg : Bool) (hl : Line p0 p1) (hx : ¬ p0.x ≤ p1.x)
    (hf : p1.y - p0.y < adx p0 p1) (h : HInit p0 p1 s) :
    HAfter p0 p1 (p0.y / 256) { s with initial := false } (hrFirst neg s (p0.y / 256) p0.x).1
      (hrFirst neg s (p0.y / 256) p0.x).2.1 ∧
    Draws p0 p1 neg (p0.y / 256) (p0.y / 256 + 1) (hrFirst neg s (p0.y / 256) p0.x).2.2 ∧
    (hrFirst neg s (p0.y / 256) p0.x).1.ex0 ≤ s.ex0 ∧
    Tidy (hrFirst neg s (p0.y / 256) p0.x).1.ex0 s.ex0 (hrFirst neg s (p0.y / 256) p0.x).2.2 ∧
    (hrFirst neg s (p0.y / 256) p0.x).1.ex0 = (hrFirst neg s (p0.y / 256) p0.x).2.1 / 256 ∧
    NoRec (hrFirst neg s (p0.y / 256) p0.x).2.2 := by
  have hy := hl.y
  have r : Row p0 p1 (p0.y / 256) := ⟨by omega, by omega⟩
  have hlt := r.lt hl.y
  have etop : top p0 (p0.y / 256) = p0.y := by unfold top; omega
  have e0 := h.ex0
  have e1 := h.fx0
  have e2 := h.fy0
  have e3 := h.fy1
  have e4 := h.xd
  have ee : adx p0 p1 = p0.x - p1.x := by unfold adx; rw [if_neg hx]
  have hxb : xAt p0 p1 (bottom p1 (p0.y / 256)) = p0.x - s.xDlt := by rw [xAt_gone_rtl hx, e4]
  have g := gone_le hl.y (y := bottom p1 (p0.y / 256)) (by omega) r.bottom_le
  have hst := xAt_start p0 p1
  have hyd := h.yd
  rw [if_neg hx] at hyd
  have hyst : s.fx0 = 0 → yAt p0 p1 (256 * s.ex0) = p0.y := by
    intro hz
    rw [yAt_rtl hx, show p0.x - 256 * s.ex0 = 0 by omega, Int.mul_zero, round_zero (by omega)]
    omega
  unfold hrFirst
  simp only []
  by_cases c : s.fx0 - s.xDlt < 0
  · rw [if_pos c]
    obtain ⟨a1, a2, a3, a4, a5, a6⟩ := hrInside_spec (k := p0.y / 256) (x := p0.x) (cov := sg neg (s.yDlt - s.fy0))
      (s := { s with initial := false }) neg hl hx r (h.con.congr rfl)
      (by show 256 * s.ex0 + s.fx0 = p0.x; omega) (by rw [etop, hst])
      (by
        show 0 < s.fx0 ∨ (s.fx0 = 0 ∧ yAt p0 p1 (256 * s.ex0) = top p0 (p0.y / 256))
        rw [etop]
        by_cases hz : s.fx0 = 0
        · exact Or.inr ⟨hz, hyst hz⟩
        · left; omega)
      (by show s.fx0 ≤ 256; omega) hxb e3 (by rw [etop, e2])
      (Or.inl (by show p0.x - s.xDlt < 256 * s.ex0; omega)) (by show p1.x ≤ p0.x - s.xDlt; omega) hyd
    exact ⟨a1, a2, a3, a4, a5, a6⟩
  · rw [if_neg c]
    have hD : ∀ l : List Ev, l = bit (p0.y / 256) s.ex0 :: merge (p0.y / 256) s.ex0 (sg neg (s.fy1 - s.fy0))
        (sg neg (s.fy1 - s.fy0) * (s.fx0 * 2 - s.xDlt)) →
        Draws p0 p1 neg (p0.y / 256) (p0.y / 256 + 1) l := by
      intro l el
      subst el
      apply Draws.row
      intro y' X
      rw [acc_bit, acc_merge, cover_single hlt (a := p0.x) (by rw [etop, hst]) hxb (e := s.ex0) (by omega) (by omega)
        (by omega) (by omega), sg_eq, e2, e3, etop]
      by_cases cy : p0.y / 256 = y'
      · rw [if_pos cy, if_pos cy]
        have ef : p0.x - 256 * s.ex0 + (p0.x - s.xDlt - 256 * s.ex0) = s.fx0 * 2 - s.xDlt := by omega
        rw [ef]
        unfold mergeAt
        split_ifs <;> ring
      · rw [if_neg cy, if_neg cy]
    have hN : NoRec (bit (p0.y / 256) s.ex0 :: merge (p0.y / 256) s.ex0 (sg neg (s.fy1 - s.fy0))
        (sg neg (s.fy1 - s.fy0) * (s.fx0 * 2 - s.xDlt))) := by
      intro m
      simp [bit, merge]
    by_cases c2 : (p0.x - s.xDlt) % 256 = 0
    · rw [if_pos c2]
      refine ⟨⟨h.con.congr rfl, hxb.symm, ?_, rfl, rfl, rfl, rfl, rfl, rfl⟩, hD _ rfl, by show s.ex0 ≤ s.ex0; omega,
        Tidy.one (by show s.ex0 ≤ s.ex0; omega) (by show s.ex0 ≤ s.ex0; omega),
        by show s.ex0 = (p0.x - s.xDlt) / 256; omega, hN⟩
      rw [if_neg hx]
      intro hv
      have : (p0.x - s.xDlt - 1) / 256 = s.ex0 - 1 := by omega
      simp only [] at hv ⊢
      rw [this] at hv ⊢
      have hv := hyd (by omega)
      exact nextY_rtl (s := { s with initial := false }) hl hx (h.con.congr rfl) hv.1 hv.2
    · rw [if_neg c2]
      refine ⟨⟨h.con.congr rfl, hxb.symm, ?_, rfl, rfl, rfl, rfl, rfl, rfl⟩, hD _ rfl, by show s.ex0 ≤ s.ex0; omega,
        Tidy.one (by show s.ex0 ≤ s.ex0; omega) (by show s.ex0 ≤ s.ex0; omega),
        by show s.ex0 = (p0.x - s.xDlt) / 256; omega, hN⟩
      rw [if_neg hx]
      intro hv
      have : (p0.x - s.xDlt - 1) / 256 = s.ex0 := by omega
      simp only [] at hv ⊢
      rw [this] at hv ⊢
      exact hyd hv

theorem HAfter.ge_end {p0 p1 : Pt} {k x : Int} {s t : St} (hl : Line p0 p1) (hx : ¬ p0.x ≤ p1.x) (r : Row p0 p1 k)
    (a : HAfter p0 p1 k s t x) : p1.x ≤ x := by
  have hlt := r.lt hl.y
  have g := gone_le hl.y (y := bottom p1 k) (by have := r.top_ge; omega) r.bottom_le
  rw [a.pos, xAt_gone_rtl hx]
  have : adx p0 p1 = p0.x - p1.x := by unfold adx; rw [if_neg hx]
  omega

theorem hrDone_spec {p0 p1 : Pt} {k last x hi : Int} {s t : St} {log : List Ev} (neg banding : Bool) (hl : Line p0 p1)
    (hx : ¬ p0.x ≤ p1.x) (r : Row p0 p1 last) (hk : k ≤ last) (hc : Con p0 p1 s)
    (hxe : last < (p1.y - 1) / 256 → s.xErr = errOf (adx p0 p1 * (256 * last + 256 - p0.y)) (p1.y - p0.y))
    (a : HAfter p0 p1 last s t x) (hi' : s.initial = false) (hb : banding = true → s.ey0 = last + 1)
    (hnb : banding = false → last = (p1.y - 1) / 256)
    (hd : Draws p0 p1 neg k (last + 1) log) (hN : NoRec log) (hT : Tidy t.ex0 hi log) (hhi : hi ≤ p0.x / 256)
    (hle : t.ex0 ≤ hi) (hex : t.ex0 = x / 256) :
    Out p0 p1 neg k last (NextH p0 p1 last) (hrDone banding t x (Ev.maxX hi :: log)) := by
  have hmin : min p0.x p1.x = p1.x := by omega
  have hmax : max p0.x p1.x = p0.x := by omega
  have hend := a.ge_end hl hx r
  have hD : Draws p0 p1 neg k (last + 1) (Ev.maxX hi :: log ++ [.minX t.ex0]) :=
    draws_wrap hd (fun _ _ _ => rfl) (fun _ _ => rfl)
  have hB : Bounded p0 p1 (Ev.maxX hi :: log ++ [.minX t.ex0]) :=
    bounded_mk hN hT (Or.inr ⟨rfl, rfl⟩) (by omega) hle (by omega)
  unfold hrDone
  cases hbd : banding
  · rw [if_neg (by simp)]
    refine ⟨hD, hB, ?_, fun hc => absurd (hnb hbd) (by omega)⟩
    symm
    exact decide_eq_true (hnb hbd)
  · rw [if_pos rfl]
    refine ⟨hD, hB, ?_, ?_⟩
    · show decide (t.ey0 > t.ey1) = _
      rw [a.ey0, a.con.ey1, hb hbd]
      have := r.hi
      rw [decide_eq_decide]
      omega
    · intro hlt
      refine ⟨Or.inr ⟨?_, ?_, x, ?_, ?_⟩, ?_⟩
      · show t.initial = false
        rw [a.init, hi']
      · have := r.lo
        omega
      · have := a.toHP hl r hlt hc (hxe hlt)
        exact ⟨this.con.congr rfl, rfl, rfl, this.lo, this.pos, this.xd, this.xe, this.yd⟩
      · rw [if_neg hx]
        exact ⟨rfl, rfl⟩
      · show t.ey0 = _
        rw [a.ey0, hb hbd]

theorem hrEnd_spec {p0 p1 : Pt} {k last x hi : Int} {s : St} {log : List Ev} (neg banding : Bool) (hl : Line p0 p1)
    (hx : ¬ p0.x ≤ p1.x) (hf : p1.y - p0.y < adx p0 p1) (r : Row p0 p1 last) (hk : k ≤ last) (h : HP p0 p1 last s x)
    (hi' : s.initial = false) (hb : banding = true → s.ey0 = last + 1)
    (hnb : banding = false → last = (p1.y - 1) / 256)
    (hd : Draws p0 p1 neg k last log) (hN : NoRec log) (hT : Tidy s.ex0 hi log) (hhi : hi ≤ p0.x / 256)
    (hle : s.ex0 ≤ hi) (hex : (x - 1) / 256 ≤ s.ex0) :
    Out p0 p1 neg k last (NextH p0 p1 last) (hrEnd neg banding s last x (Ev.maxX hi :: log)) := by
  have hr := r.hi
  have hrl := r.lo
  have hplo := h.lo
  have hmin : min p0.x p1.x = p1.x := by omega
  have hmax : max p0.x p1.x = p0.x := by omega
  have es : ({ s with fy0 := 0, fy1 := 256 } : St) = s := by
    have e0 := h.fy0
    have e1 := h.fy1
    cases s
    simp only at e0 e1
    subst e0 e1
    rfl
  unfold hrEnd
  simp only []
  rw [es]
  by_cases cl : last < (p1.y - 1) / 256
  · have hbt : banding = true := by
      cases hbd : banding
      · have := hnb hbd; omega
      · rfl
    rw [if_pos ⟨hbt, by rw [hb hbt, h.con.ey1]; omega⟩]
    obtain ⟨a1, a2, a3, a4, a5, a6⟩ := hrMid_spec neg hl hx hf h cl
    rw [List.cons_append]
    exact hrDone_spec neg banding hl hx r hk h.con h.xe a1 hi' hb hnb (hd.append a2 (by omega) (by omega)) (hN.append a6)
      ((hT.mono (by omega) (by omega)).append (a4.mono (by omega) (by omega))) hhi (by omega) a5
  · have hlast : last = (p1.y - 1) / 256 := by omega
    rw [if_neg (by
      rintro ⟨hbt, hq⟩
      rw [hb hbt, h.con.ey1] at hq
      omega)]
    have eb : bottom p1 last = p1.y := by unfold bottom; omega
    have hxe := xAt_end hl.y
    have ex1 : s.ex1 * 256 + s.fx1 = p1.x := by rw [h.con.ex1, h.con.fx1]; omega
    have esv : s.savedFy1 = bottom p1 last - 256 * last := by rw [h.con.saved, eb]; omega
    have hxa := h.pos
    have hxle : p1.x < x := by
      have g := gone_flat (y := 256 * last) (z := p1.y) hl.y hf (by omega) (by omega) (by omega)
      rw [gone_end hl.y] at g
      rw [hxa, xAt_gone_rtl hx]
      have : adx p0 p1 = p0.x - p1.x := by unfold adx; rw [if_neg hx]
      omega
    obtain ⟨u, hu⟩ : ∃ u : St, u = { s with xDlt := x - (s.ex1 * 256 + s.fx1), fy0 := 0, fy1 := s.savedFy1 } := ⟨_, rfl⟩
    have uc : Con p0 p1 u := h.con.congr (by rw [hu]; rfl)
    have uxd : u.xDlt = x - p1.x := by rw [hu]; show x - (s.ex1 * 256 + s.fx1) = _; omega
    have ufy : u.fy1 = bottom p1 last - 256 * last := by rw [hu]; exact esv
    have uyd : HY p0 p1 (last - 1) x u := by rw [hu]; exact h.yd
    have uey : u.ey0 = s.ey0 := by rw [hu]
    have uin : u.initial = s.initial := by rw [hu]
    rw [← hu]
    have uf : (hrEnter u x).fx0 = (x - 1) % 256 + 1 := rfl
    have ue : (hrEnter u x).ex0 = (x - 1) / 256 := rfl
    have ud : (hrEnter u x).xDlt = x - p1.x := uxd
    have uy : (hrEnter u x).fy1 = bottom p1 last - 256 * last := ufy
    by_cases c : (hrEnter u x).fx0 - (hrEnter u x).xDlt ≥ 0
    · rw [if_pos c]
      rw [uf, ud] at c ⊢
      rw [ue, uy]
      have hlt := r.lt hl.y
      have etop : top p0 last = 256 * last := by unfold top; omega
      generalize hE : merge last ((x - 1) / 256) (sg neg (bottom p1 last - 256 * last))
          (sg neg (bottom p1 last - 256 * last) * (((x - 1) % 256 + 1) * 2 - (x - p1.x))) = E
      have hDr : Draws p0 p1 neg last (last + 1) (E ++ [bit last ((x - 1) / 256)]) := by
        apply Draws.row
        intro y' X
        rw [acc_append, ← hE, acc_merge, acc_bit,
          cover_single hlt (a := x) (b := p1.x) (by rw [etop]; exact hxa.symm) (by rw [eb]; exact hxe) (e := (x - 1) / 256)
          (by omega) (by omega) (by omega) (by omega), sg_eq, etop]
        by_cases cy : last = y'
        · rw [if_pos cy, if_pos cy]
          have ef : x - 256 * ((x - 1) / 256) + (p1.x - 256 * ((x - 1) / 256)) = ((x - 1) % 256 + 1) * 2 - (x - p1.x) := by omega
          rw [ef]
          show _ + 0 = _
          unfold mergeAt
          split_ifs <;> ring
        · rw [if_neg cy, if_neg cy]
          rfl
      have hTi : Tidy ((x - 1) / 256) ((x - 1) / 256) (E ++ [bit last ((x - 1) / 256)]) := by
        refine Tidy.range (y := last) (by omega) (by simp [bits, bit]) ?_ ?_
        · intro y' a b hm
          rcases List.mem_append.mp hm with hm | hm
          · rw [← hE] at hm
            exact (mem_merge_mark hm).elim
          · simp only [bit, List.mem_cons, Ev.mark.injEq, List.not_mem_nil, or_false] at hm
            omega
        · intro y' a b hm
          rcases List.mem_append.mp hm with hm | hm
          · rw [← hE] at hm
            exact mem_merge_cell hm
          · simp [bit] at hm
      have hNi : NoRec (E ++ [bit last ((x - 1) / 256)]) := by
        intro m
        rw [← hE]
        simp [bit, merge]
      have elog : Ev.maxX hi :: log ++ E ++ [bit last ((x - 1) / 256), .minX ((x - 1) / 256)] =
          Ev.maxX hi :: (log ++ (E ++ [bit last ((x - 1) / 256)])) ++ [.minX ((x - 1) / 256)] := by
        simp
      rw [elog]
      refine ⟨?_, ?_, ?_, fun hc => absurd hc (by omega)⟩
      · exact draws_wrap (hd.append hDr (by omega) (by omega)) (fun _ _ _ => rfl) (fun _ _ => rfl)
      · exact bounded_mk (hN.append hNi) ((hT.mono (by omega) (by omega)).append (hTi.mono (by omega) (by omega)))
          (Or.inr ⟨rfl, rfl⟩) (by omega) (by omega) (by omega)
      · symm
        exact decide_eq_true hlast
    · rw [if_neg c]
      rw [uf, ud] at c
      obtain ⟨a1, a2, a3, a4, a5, a6⟩ := hrSkip_spec neg hl hx r hplo uc hxa uyd ufy (by rw [eb, hxe, uxd]; omega)
        (Or.inl (by rw [uxd]; omega))
      rw [List.cons_append]
      exact hrDone_spec neg banding hl hx r hk uc (fun hc => absurd hc (by omega)) a1 (by rw [uin, hi'])
        (fun hbt => by rw [uey]; exact hb hbt) hnb (hd.append a2 (by omega) (by omega)) (hN.append a6)
        ((hT.mono (by omega) (by omega)).append (a4.mono (by omega) (by omega))) hhi (by omega) a5

theorem horzRtl_spec {p0 p1 : Pt} {k last : Int} {s : St} {i : Nat} (neg banding : Bool) (hl : Line p0 p1)
    (hf : p1.y - p0.y < adx p0 p1) (hx : ¬ p0.x ≤ p1.x) (r : Row p0 p1 k) (h : HI p0 p1 k s)
    (hk : k ≤ last) (hlast : last ≤ (p1.y - 1) / 256) (hi : (i : Int) = last - k)
    (hb : banding = true → s.ey0 = last + 1) (hnb : banding = false → last = (p1.y - 1) / 256) :
    Out p0 p1 neg k last (NextH p0 p1 last) (horzRtl neg banding s k i) := by
  have hrl := r.lo
  unfold horzRtl
  simp only []
  rcases h with ⟨h1, h2, h3⟩ | ⟨h1, h2, x, h3, h4⟩
  · rw [if_pos h1]
    have ex : s.ex0 * 256 + s.fx0 = p0.x := by rw [h3.ex0, h3.fx0]; omega
    rw [ex]
    subst h2
    obtain ⟨a1, a2, a3, a4, a5, a6⟩ := hrFirst_spec neg hl hx hf h3
    have he0 := h3.ex0
    by_cases c : i = 0
    · rw [if_pos c]
      have : last = p0.y / 256 := by omega
      subst this
      exact hrDone_spec (s := { s with initial := false }) neg banding hl hx r (by omega) (h3.con.congr rfl) h3.xe a1 rfl
        hb hnb a2 a6 a4 (by omega) a3 a5
    · rw [if_neg c]
      have hp := a1.toHP hl r (by omega) (h3.con.congr rfl) (h3.xe (by omega))
      obtain ⟨b1, b2, b3, b4, b5, b6, b7, b8⟩ := hrMids_spec neg hl hx hf (i - 1) (p0.y / 256 + 1) _ _ (by omega) hp
        (by show _ ≤ (hrFirst neg s (p0.y / 256) p0.x).1.ex0; rw [a5]; omega)
      have eki : p0.y / 256 + 1 + ((i - 1 : Nat) : Int) = last := by omega
      rw [eki] at b1 b2
      rw [show p0.y / 256 + (i : Int) = last by omega, show [Ev.maxX s.ex0] ++ (hrFirst neg s (p0.y / 256) p0.x).2.2 =
        Ev.maxX s.ex0 :: (hrFirst neg s (p0.y / 256) p0.x).2.2 from rfl, List.cons_append]
      refine hrEnd_spec neg banding hl hx hf ⟨by omega, hlast⟩ (by omega) b1 (b7.trans a1.init) ?_ hnb
        (a2.append b2 (by omega) (by omega)) (a6.append b8) ?_ (by omega) ?_ b4
      · intro hbt
        rw [b6]
        exact a1.ey0.trans (hb hbt)
      · have b3' : _ ≤ (hrFirst neg s (p0.y / 256) p0.x).1.ex0 := b3
        exact (a4.mono (by omega) (by omega)).append (b5.mono (by omega) (by show (hrFirst neg s (p0.y / 256) p0.x).1.ex0 ≤ _; exact a3))
      · have b3' : _ ≤ (hrFirst neg s (p0.y / 256) p0.x).1.ex0 := b3
        omega
  · rw [if_neg (by rw [h1]; simp)]
    rw [if_neg hx] at h4
    have ex : s.ex0 * 256 + s.fx0 = x := by omega
    rw [ex]
    obtain ⟨b1, b2, b3, b4, b5, b6, b7, b8⟩ := hrMids_spec neg hl hx hf i k x s (by omega) h3 (by omega)
    rw [show k + (i : Int) = last by omega] at b1 b2 ⊢
    have hx0 : x ≤ p0.x := by
      have hplo := h3.lo
      have g := gone_le hl.y (y := 256 * k) (by omega) (by omega)
      rw [h3.pos, xAt_gone_rtl hx]
      omega
    exact hrEnd_spec neg banding hl hx hf ⟨by omega, hlast⟩ (by omega) b1 (b7.trans h1)
      (fun hbt => by rw [b6]; exact hb hbt) hnb b2 b8 b5 (by omega) (by omega) b4

end Blend2D.Raster
