import Verif.Raster.Flat

/-! # The scanlines of a flat line that goes right -/

namespace Blend2D.Raster
open Spec

/-- The error term of the crossing of `256 * c`, for an edge that goes left. -/
def eR (p0 p1 : Pt) (c : Int) : Int := errOf ((p1.y - p0.y) * (p0.x - 256 * c)) (adx p0 p1)

/-- What a flat line knows about the next vertical boundary when it is at `x`: relative to the top of scanline `k`. -/
def HY (p0 p1 : Pt) (k x : Int) (t : St) : Prop :=
  if p0.x ≤ p1.x then 256 * (x / 256) + 256 ≤ p1.x → t.yDlt = T p0 p1 k (x / 256 + 1) ∧ t.yErr = eL p0 p1 (x / 256 + 1)
  else p1.x < 256 * ((x - 1) / 256) → t.yDlt = T p0 p1 k ((x - 1) / 256) ∧ t.yErr = eR p0 p1 ((x - 1) / 256)

/-- The state of a flat line at the top of scanline `k`, with some scanline already drawn; `x` is the position. -/
structure HP (p0 p1 : Pt) (k : Int) (s : St) (x : Int) : Prop where
  con : Con p0 p1 s
  fy0 : s.fy0 = 0
  fy1 : s.fy1 = 256
  lo : p0.y < 256 * k
  pos : x = xAt p0 p1 (256 * k)
  xd : k < (p1.y - 1) / 256 → s.xDlt = gone p0 p1 (256 * k + 256) - gone p0 p1 (256 * k)
  xe : k < (p1.y - 1) / 256 → s.xErr = errOf (adx p0 p1 * (256 * k + 256 - p0.y)) (p1.y - p0.y)
  yd : HY p0 p1 (k - 1) x s

/-- A flat line moves at least as far as it goes down. -/
theorem gone_flat {p0 p1 : Pt} {y z : Int} (hy : p0.y < p1.y) (hs : p1.y - p0.y < adx p0 p1) (h0 : p0.y ≤ y)
    (h : y ≤ z) (h1 : z ≤ p1.y) : gone p0 p1 y + (z - y) ≤ gone p0 p1 z := by
  by_cases h2 : 2 ≤ p1.y - p0.y
  · rw [gone_round h2 h0 (by omega), gone_round h2 (by omega) h1,
      ← round_add_mul _ (z - y) (by omega : 0 < p1.y - p0.y)]
    apply round_mono (by omega)
    have e : adx p0 p1 * (z - p0.y) = adx p0 p1 * (y - p0.y) + (z - y) * adx p0 p1 := by ring
    have := Int.mul_le_mul_of_nonneg_left (Int.le_of_lt hs) (by omega : 0 ≤ z - y)
    omega
  · have e0 := gone_start p0 p1
    have e1 := gone_end hy
    have : y = p0.y ∨ y = p1.y := by omega
    have : z = p0.y ∨ z = p1.y := by omega
    rcases ‹y = p0.y ∨ y = p1.y› with c | c <;> rcases ‹z = p0.y ∨ z = p1.y› with d | d <;> subst c d <;> omega

theorem HAfter.toHP {p0 p1 : Pt} {k x : Int} {s t : St} (hl : Line p0 p1) (r : Row p0 p1 k) (h : HAfter p0 p1 k s t x)
    (hk : k < (p1.y - 1) / 256) (hc : Con p0 p1 s)
    (hxe : s.xErr = errOf (adx p0 p1 * (256 * k + 256 - p0.y)) (p1.y - p0.y)) :
    HP p0 p1 (k + 1) { t with fy0 := 0, fy1 := 256 } x := by
  have hlo := r.lo
  have hn := nextX_spec hl.y hc hxe
  have en : adx p0 p1 * (256 * k + 256 - p0.y) + 256 * adx p0 p1 = adx p0 p1 * (256 * (k + 1) + 256 - p0.y) := by ring
  rw [en] at hn
  have eb := (Row.bottom_eq (p0 := p0) hk).1
  refine ⟨h.con.congr rfl, rfl, rfl, by omega, ?_, ?_, ?_, ?_⟩
  · rw [h.pos, eb]; congr 1; omega
  · intro hk'
    rw [gone_mid (by omega) (by omega), gone_mid (by omega) (by omega)]
    show t.xDlt = _
    rw [h.xDlt, hn.1, show 256 * (k + 1) - p0.y = 256 * k + 256 - p0.y by omega]
  · intro _
    show t.xErr = _
    rw [h.xErr, hn.2]
  · have e : k + 1 - 1 = k := by omega
    rw [e]
    exact h.yd

theorem T_pred (p0 p1 : Pt) (k c : Int) : T p0 p1 (k - 1) c - 256 = T p0 p1 k c := by unfold T; omega

/-- A scanline after the first one, when it leaves the pixel column it starts in. -/
theorem hlSkip_spec {p0 p1 : Pt} {k x : Int} {s : St} (neg : Bool) (hl : Line p0 p1) (hx : p0.x ≤ p1.x)
    (r : Row p0 p1 k) (hlo : p0.y < 256 * k) (hc : Con p0 p1 s) (hxa : x = xAt p0 p1 (256 * k))
    (hy : HY p0 p1 (k - 1) x s) (hfy1 : s.fy1 = bottom p1 k - 256 * k) (hxd : xAt p0 p1 (bottom p1 k) = x + s.xDlt)
    (hcross : 256 * (x / 256) + 256 < x + s.xDlt ∨ (x % 256 = 0 ∧ x + s.xDlt = 256 * (x / 256) + 256)) :
    HAfter p0 p1 k s (hlSkip neg (hlEnter s x) k x).1 (hlSkip neg (hlEnter s x) k x).2.1 ∧
    Draws p0 p1 neg k (k + 1) (hlSkip neg (hlEnter s x) k x).2.2 ∧
    x / 256 ≤ (hlSkip neg (hlEnter s x) k x).1.ex0 ∧
    Tidy (x / 256) (hlSkip neg (hlEnter s x) k x).1.ex0 (hlSkip neg (hlEnter s x) k x).2.2 ∧
    (hlSkip neg (hlEnter s x) k x).1.ex0 ≤ (hlSkip neg (hlEnter s x) k x).2.1 / 256 ∧
    NoRec (hlSkip neg (hlEnter s x) k x).2.2 := by
  have etop : top p0 k = 256 * k := by unfold top; omega
  have hend : xAt p0 p1 (bottom p1 k) ≤ p1.x := by
    have hlt := r.lt hl.y
    have g := gone_le hl.y (y := bottom p1 k) (by have := r.top_ge; omega) r.bottom_le
    rw [xAt_gone_ltr hx]
    have : adx p0 p1 = p1.x - p0.x := by unfold adx; rw [if_pos hx]
    omega
  unfold hlSkip
  obtain ⟨a1, a2, a3, a4, a5, a6⟩ := hlInside_spec (k := k) (x := x) (cov := sg neg (s.yDlt - 256))
    (s := { hlEnter s x with yDlt := s.yDlt - 256 }) neg hl hx r (hc.congr rfl)
    (by show 256 * (x / 256) + x % 256 = x; omega) (by rw [etop]; exact hxa) (by show 0 ≤ x % 256; omega)
    (by show x % 256 < 256; omega) hxd hfy1 (by rw [etop]; congr 1; show _ = s.yDlt - 256 - _; omega) hcross
    (by show x + s.xDlt ≤ p1.x; omega) (by
      intro hv
      unfold HY at hy
      rw [if_pos hx] at hy
      obtain ⟨y1, y2⟩ := hy hv
      refine ⟨?_, y2⟩
      show s.yDlt - 256 = _
      rw [y1, T_pred]
      rfl)
  exact ⟨⟨a1.con, a1.pos, a1.yd, a1.xDlt, a1.xErr, a1.fy0, a1.fy1, a1.ey0, a1.init⟩, a2, a3, a4, a5, a6⟩

theorem hp_step {p0 p1 : Pt} {k x : Int} {s : St} (hl : Line p0 p1) (hf : p1.y - p0.y < adx p0 p1) (h : HP p0 p1 k s x)
    (hk : k < (p1.y - 1) / 256) :
    s.xDlt = gone p0 p1 (bottom p1 k) - gone p0 p1 (256 * k) ∧ 256 ≤ s.xDlt ∧ s.fy1 = bottom p1 k - 256 * k := by
  have eb := (Row.bottom_eq (p0 := p0) hk).1
  have := h.xd hk
  have hlo := h.lo
  have hg := gone_flat (y := 256 * k) (z := 256 * k + 256) hl.y hf (by omega) (by omega) (by omega)
  rw [eb]
  refine ⟨this, by omega, ?_⟩
  rw [h.fy1]; omega

theorem hlMid_spec {p0 p1 : Pt} {k x : Int} {s : St} (neg : Bool) (hl : Line p0 p1) (hx : p0.x ≤ p1.x)
    (hf : p1.y - p0.y < adx p0 p1) (h : HP p0 p1 k s x) (hk : k < (p1.y - 1) / 256) :
    HAfter p0 p1 k s (hlSkip neg (hlEnter s x) k x).1 (hlSkip neg (hlEnter s x) k x).2.1 ∧
    Draws p0 p1 neg k (k + 1) (hlSkip neg (hlEnter s x) k x).2.2 ∧
    x / 256 ≤ (hlSkip neg (hlEnter s x) k x).1.ex0 ∧
    Tidy (x / 256) (hlSkip neg (hlEnter s x) k x).1.ex0 (hlSkip neg (hlEnter s x) k x).2.2 ∧
    (hlSkip neg (hlEnter s x) k x).1.ex0 ≤ (hlSkip neg (hlEnter s x) k x).2.1 / 256 ∧
    NoRec (hlSkip neg (hlEnter s x) k x).2.2 := by
  have hlo := h.lo
  obtain ⟨s1, s2, s3⟩ := hp_step hl hf h hk
  have hp := h.pos
  have e1 := xAt_gone_ltr hx (256 * k)
  have e2 := xAt_gone_ltr hx (bottom p1 k)
  exact hlSkip_spec neg hl hx ⟨by omega, by omega⟩ hlo h.con hp h.yd s3 (by omega) (by omega)

theorem HAfter.toHP' {p0 p1 : Pt} {k x x' : Int} {s t : St} (hl : Line p0 p1) (hk : k < (p1.y - 1) / 256)
    (h : HP p0 p1 k s x) (a : HAfter p0 p1 k s t x') : HP p0 p1 (k + 1) t x' := by
  have hlo := h.lo
  have := a.toHP hl ⟨by omega, by omega⟩ hk h.con (h.xe hk)
  have e0 := h.fy0
  have e1 := h.fy1
  rw [← a.fy0] at e0
  rw [← a.fy1] at e1
  exact ⟨a.con, e0, e1, this.lo, this.pos, this.xd, this.xe, this.yd⟩

theorem hlMids_spec {p0 p1 : Pt} (neg : Bool) (hl : Line p0 p1) (hx : p0.x ≤ p1.x) (hf : p1.y - p0.y < adx p0 p1) :
    ∀ (n : Nat) (k x : Int) (s : St), k + n ≤ (p1.y - 1) / 256 → HP p0 p1 k s x → s.ex0 ≤ x / 256 →
    HP p0 p1 (k + n) (hlMids neg k n s x).1 (hlMids neg k n s x).2.1 ∧
    Draws p0 p1 neg k (k + n) (hlMids neg k n s x).2.2 ∧
    s.ex0 ≤ (hlMids neg k n s x).1.ex0 ∧
    (hlMids neg k n s x).1.ex0 ≤ (hlMids neg k n s x).2.1 / 256 ∧
    Tidy s.ex0 (hlMids neg k n s x).1.ex0 (hlMids neg k n s x).2.2 ∧
    (hlMids neg k n s x).1.ey0 = s.ey0 ∧ (hlMids neg k n s x).1.initial = s.initial ∧ NoRec (hlMids neg k n s x).2.2
  | 0, k, x, s, _, h, he => by
    simp only [hlMids, Int.natCast_zero, Int.add_zero]
    exact ⟨h, Draws.empty _ _ _ _, by omega, he, Tidy.nil _ _, trivial, trivial, by intro m; simp⟩
  | n + 1, k, x, s, h1, h, he => by
    obtain ⟨a1, a2, a3, a4, a5, a6⟩ := hlMid_spec neg hl hx hf h (by omega)
    obtain ⟨b1, b2, b3, b4, b5, b6, b7, b8⟩ := hlMids_spec neg hl hx hf n (k + 1) _ _ (by omega) (a1.toHP' hl (by omega) h) a5
    simp only [hlMids]
    have ek : k + ((n + 1 : Nat) : Int) = k + 1 + n := by omega
    rw [ek]
    refine ⟨b1, a2.append b2 (by omega) (by omega), by omega, b4, ?_, ?_, ?_, a6.append b8⟩
    · exact (a4.mono (by omega) (by omega)).append (b5.mono (by omega) (by omega))
    · rw [b6]; exact a1.ey0
    · rw [b7]; exact a1.init

/-- The state of a flat line before its first scanline. -/
structure HInit (p0 p1 : Pt) (s : St) : Prop where
  con : Con p0 p1 s
  ex0 : s.ex0 = p0.x / 256
  fx0 : s.fx0 = p0.x % 256
  fy0 : s.fy0 = p0.y - 256 * (p0.y / 256)
  fy1 : s.fy1 = bottom p1 (p0.y / 256) - 256 * (p0.y / 256)
  xd : s.xDlt = gone p0 p1 (bottom p1 (p0.y / 256))
  xe : p0.y / 256 < (p1.y - 1) / 256 → s.xErr = errOf (adx p0 p1 * (256 * (p0.y / 256) + 256 - p0.y)) (p1.y - p0.y)
  yd : if p0.x ≤ p1.x then 256 * s.ex0 + 256 ≤ p1.x →
      s.yDlt = T p0 p1 (p0.y / 256) (s.ex0 + 1) ∧ s.yErr = eL p0 p1 (s.ex0 + 1)
    else p1.x < 256 * s.ex0 → s.yDlt = T p0 p1 (p0.y / 256) s.ex0 ∧ s.yErr = eR p0 p1 s.ex0

theorem hlFirst_spec {p0 p1 : Pt} {s : St} (neg : Bool) (hl : Line p0 p1) (hx : p0.x ≤ p1.x) (h : HInit p0 p1 s) :
    HAfter p0 p1 (p0.y / 256) { s with initial := false } (hlFirst neg s (p0.y / 256) p0.x).1
      (hlFirst neg s (p0.y / 256) p0.x).2.1 ∧
    Draws p0 p1 neg (p0.y / 256) (p0.y / 256 + 1) (hlFirst neg s (p0.y / 256) p0.x).2.2 ∧
    s.ex0 ≤ (hlFirst neg s (p0.y / 256) p0.x).1.ex0 ∧
    Tidy s.ex0 (hlFirst neg s (p0.y / 256) p0.x).1.ex0 (hlFirst neg s (p0.y / 256) p0.x).2.2 ∧
    (hlFirst neg s (p0.y / 256) p0.x).1.ex0 ≤ (hlFirst neg s (p0.y / 256) p0.x).2.1 / 256 ∧
    NoRec (hlFirst neg s (p0.y / 256) p0.x).2.2 := by
  have hy := hl.y
  have r : Row p0 p1 (p0.y / 256) := ⟨by omega, by omega⟩
  have hlt := r.lt hl.y
  have etop : top p0 (p0.y / 256) = p0.y := by unfold top; omega
  have e0 := h.ex0
  have e1 := h.fx0
  have e2 := h.fy0
  have e3 := h.fy1
  have e4 := h.xd
  have ee : adx p0 p1 = p1.x - p0.x := by unfold adx; rw [if_pos hx]
  have hxb : xAt p0 p1 (bottom p1 (p0.y / 256)) = p0.x + s.xDlt := by rw [xAt_gone_ltr hx, e4]
  have g := gone_le hl.y (y := bottom p1 (p0.y / 256)) (by omega) r.bottom_le
  have hst := xAt_start p0 p1
  have hyd := h.yd
  rw [if_pos hx] at hyd
  unfold hlFirst
  simp only []
  by_cases c : s.fx0 + s.xDlt > 256
  · rw [if_pos c]
    obtain ⟨a1, a2, a3, a4, a5, a6⟩ := hlInside_spec (k := p0.y / 256) (x := p0.x) (cov := sg neg (s.yDlt - s.fy0))
      (s := { s with initial := false }) neg hl hx r (h.con.congr rfl)
      (by show 256 * s.ex0 + s.fx0 = p0.x; omega) (by rw [etop, hst]) (by show 0 ≤ s.fx0; omega)
      (by show s.fx0 < 256; omega) hxb e3 (by rw [etop, e2])
      (Or.inl (by show 256 * s.ex0 + 256 < p0.x + s.xDlt; omega)) (by show p0.x + s.xDlt ≤ p1.x; omega) hyd
    exact ⟨a1, a2, a3, a4, a5, a6⟩
  · rw [if_neg c]
    have hD : ∀ l : List Ev, l = bit (p0.y / 256) s.ex0 :: merge (p0.y / 256) s.ex0 (sg neg (s.fy1 - s.fy0))
        (sg neg (s.fy1 - s.fy0) * (s.fx0 * 2 + s.xDlt)) →
        Draws p0 p1 neg (p0.y / 256) (p0.y / 256 + 1) l := by
      intro l el
      subst el
      apply Draws.row
      intro y' X
      rw [acc_bit, acc_merge, cover_single hlt (a := p0.x) (by rw [etop, hst]) hxb (e := s.ex0) (by omega) (by omega)
        (by omega) (by omega), sg_eq, e2, e3, etop]
      by_cases cy : p0.y / 256 = y'
      · rw [if_pos cy, if_pos cy]
        have ef : p0.x - 256 * s.ex0 + (p0.x + s.xDlt - 256 * s.ex0) = s.fx0 * 2 + s.xDlt := by omega
        rw [ef]
        unfold mergeAt
        split_ifs <;> ring
      · rw [if_neg cy, if_neg cy]
    have hN : NoRec (bit (p0.y / 256) s.ex0 :: merge (p0.y / 256) s.ex0 (sg neg (s.fy1 - s.fy0))
        (sg neg (s.fy1 - s.fy0) * (s.fx0 * 2 + s.xDlt))) := by
      intro m
      simp [bit, merge]
    by_cases c2 : s.fx0 + s.xDlt = 256
    · rw [if_pos c2]
      have hv := hyd (by omega)
      have hny := nextY_ltr (s := { s with initial := false }) hl hx (h.con.congr rfl) hv.1 hv.2
      refine ⟨⟨h.con.congr rfl, hxb.symm, ?_, rfl, rfl, rfl, rfl, rfl, rfl⟩, hD _ rfl, by show s.ex0 ≤ s.ex0; omega,
        Tidy.one (by show s.ex0 ≤ s.ex0; omega) (by show s.ex0 ≤ s.ex0; omega),
        by show s.ex0 ≤ (p0.x + s.xDlt) / 256; omega, hN⟩
      rw [if_pos hx]
      intro _
      have : (p0.x + s.xDlt) / 256 = s.ex0 + 1 := by omega
      simp only []
      rw [this]
      exact hny
    · rw [if_neg c2]
      refine ⟨⟨h.con.congr rfl, hxb.symm, ?_, rfl, rfl, rfl, rfl, rfl, rfl⟩, hD _ rfl, by show s.ex0 ≤ s.ex0; omega,
        Tidy.one (by show s.ex0 ≤ s.ex0; omega) (by show s.ex0 ≤ s.ex0; omega),
        by show s.ex0 ≤ (p0.x + s.xDlt) / 256; omega, hN⟩
      rw [if_pos hx]
      intro hv
      have : (p0.x + s.xDlt) / 256 = s.ex0 := by omega
      simp only [] at hv ⊢
      rw [this] at hv ⊢
      exact hyd hv

/-- A flat line is ready to draw scanline `k`. -/
def HI (p0 p1 : Pt) (k : Int) (s : St) : Prop :=
  (s.initial = true ∧ k = p0.y / 256 ∧ HInit p0 p1 s) ∨
  (s.initial = false ∧ p0.y / 256 < k ∧ ∃ x, HP p0 p1 k s x ∧
    if p0.x ≤ p1.x then s.ex0 = x / 256 ∧ s.fx0 = x % 256 else s.ex0 = (x - 1) / 256 ∧ s.fx0 = (x - 1) % 256 + 1)

def NextH (p0 p1 : Pt) (last : Int) (t : St) : Prop := HI p0 p1 (last + 1) t ∧ t.ey0 = last + 1

theorem HAfter.le_end {p0 p1 : Pt} {k x : Int} {s t : St} (hl : Line p0 p1) (hx : p0.x ≤ p1.x) (r : Row p0 p1 k)
    (a : HAfter p0 p1 k s t x) : x ≤ p1.x := by
  have hlt := r.lt hl.y
  have g := gone_le hl.y (y := bottom p1 k) (by have := r.top_ge; omega) r.bottom_le
  rw [a.pos, xAt_gone_ltr hx]
  have : adx p0 p1 = p1.x - p0.x := by unfold adx; rw [if_pos hx]
  omega

/-- After the last scanline of the band or of the line. -/
theorem hlDone_spec {p0 p1 : Pt} {k last x lo : Int} {s t : St} {log : List Ev} (neg banding : Bool) (hl : Line p0 p1)
    (hx : p0.x ≤ p1.x) (r : Row p0 p1 last) (hk : k ≤ last) (hc : Con p0 p1 s)
    (hxe : last < (p1.y - 1) / 256 → s.xErr = errOf (adx p0 p1 * (256 * last + 256 - p0.y)) (p1.y - p0.y))
    (a : HAfter p0 p1 last s t x) (hi : s.initial = false) (hb : banding = true → s.ey0 = last + 1)
    (hnb : banding = false → last = (p1.y - 1) / 256)
    (hd : Draws p0 p1 neg k (last + 1) log) (hN : NoRec log) (hT : Tidy lo t.ex0 log) (hlo : p0.x / 256 ≤ lo)
    (hle : lo ≤ t.ex0) (hex : t.ex0 ≤ x / 256) :
    Out p0 p1 neg k last (NextH p0 p1 last) (hlDone banding t x (Ev.minX lo :: log)) := by
  have hmin : min p0.x p1.x = p0.x := by omega
  have hmax : max p0.x p1.x = p1.x := by omega
  have hend := a.le_end hl hx r
  have hD : Draws p0 p1 neg k (last + 1) (Ev.minX lo :: log ++ [.maxX t.ex0]) :=
    draws_wrap hd (fun _ _ _ => rfl) (fun _ _ => rfl)
  have hB : Bounded p0 p1 (Ev.minX lo :: log ++ [.maxX t.ex0]) :=
    bounded_mk hN hT (Or.inl ⟨rfl, rfl⟩) (by omega) hle (by omega)
  unfold hlDone
  cases hbd : banding
  · rw [if_neg (by simp)]
    refine ⟨hD, hB, ?_, fun hc => absurd (hnb hbd) (by omega)⟩
    symm
    exact decide_eq_true (hnb hbd)
  · rw [if_pos rfl]
    refine ⟨hD, hB, ?_, ?_⟩
    · show decide (t.ey0 > t.ey1) = _
      rw [a.ey0, a.con.ey1, hb hbd]
      have := r.hi
      rw [decide_eq_decide]
      omega
    · intro hlt
      refine ⟨Or.inr ⟨?_, ?_, x, ?_, ?_⟩, ?_⟩
      · show t.initial = false
        rw [a.init, hi]
      · have := r.lo
        omega
      · have := a.toHP hl r hlt hc (hxe hlt)
        exact ⟨this.con.congr rfl, rfl, rfl, this.lo, this.pos, this.xd, this.xe, this.yd⟩
      · rw [if_pos hx]
        exact ⟨rfl, rfl⟩
      · show t.ey0 = _
        rw [a.ey0, hb hbd]

theorem hlEnd_spec {p0 p1 : Pt} {k last x lo : Int} {s : St} {log : List Ev} (neg banding : Bool) (hl : Line p0 p1)
    (hx : p0.x ≤ p1.x) (hf : p1.y - p0.y < adx p0 p1) (r : Row p0 p1 last) (hk : k ≤ last) (h : HP p0 p1 last s x)
    (hi : s.initial = false) (hb : banding = true → s.ey0 = last + 1)
    (hnb : banding = false → last = (p1.y - 1) / 256)
    (hd : Draws p0 p1 neg k last log) (hN : NoRec log) (hT : Tidy lo s.ex0 log) (hlo : p0.x / 256 ≤ lo)
    (hle : lo ≤ s.ex0) (hex : s.ex0 ≤ x / 256) :
    Out p0 p1 neg k last (NextH p0 p1 last) (hlEnd neg banding s last x (Ev.minX lo :: log)) := by
  have hr := r.hi
  have hrl := r.lo
  have hplo := h.lo
  have hmin : min p0.x p1.x = p0.x := by omega
  have hmax : max p0.x p1.x = p1.x := by omega
  have es : ({ s with fy0 := 0, fy1 := 256 } : St) = s := by
    have e0 := h.fy0
    have e1 := h.fy1
    cases s
    simp only at e0 e1
    subst e0 e1
    rfl
  unfold hlEnd
  simp only []
  rw [es]
  by_cases cl : last < (p1.y - 1) / 256
  · have hbt : banding = true := by
      cases hbd : banding
      · have := hnb hbd; omega
      · rfl
    rw [if_pos ⟨hbt, by rw [hb hbt, h.con.ey1]; omega⟩]
    obtain ⟨a1, a2, a3, a4, a5, a6⟩ := hlMid_spec neg hl hx hf h cl
    rw [List.cons_append]
    exact hlDone_spec neg banding hl hx r hk h.con h.xe a1 hi hb hnb (hd.append a2 (by omega) (by omega)) (hN.append a6)
      ((hT.mono (by omega) (by omega)).append (a4.mono (by omega) (by omega))) hlo (by omega) a5
  · have hlast : last = (p1.y - 1) / 256 := by omega
    rw [if_neg (by
      rintro ⟨hbt, hq⟩
      rw [hb hbt, h.con.ey1] at hq
      omega)]
    have eb : bottom p1 last = p1.y := by unfold bottom; omega
    have hxe := xAt_end hl.y
    have ex1 : s.ex1 * 256 + s.fx1 = p1.x := by rw [h.con.ex1, h.con.fx1]; omega
    have esv : s.savedFy1 = bottom p1 last - 256 * last := by rw [h.con.saved, eb]; omega
    have hxa := h.pos
    have hxle : x ≤ p1.x := by
      have g := gone_le hl.y (y := 256 * last) (by omega) (by omega)
      rw [hxa, xAt_gone_ltr hx]
      have : adx p0 p1 = p1.x - p0.x := by unfold adx; rw [if_pos hx]
      omega
    obtain ⟨u, hu⟩ : ∃ u : St, u = { s with xDlt := s.ex1 * 256 + s.fx1 - x, fy0 := 0, fy1 := s.savedFy1 } := ⟨_, rfl⟩
    have uc : Con p0 p1 u := h.con.congr (by rw [hu]; rfl)
    have uxd : u.xDlt = p1.x - x := by rw [hu]; show s.ex1 * 256 + s.fx1 - x = _; omega
    have ufy : u.fy1 = bottom p1 last - 256 * last := by rw [hu]; exact esv
    have uyd : HY p0 p1 (last - 1) x u := by rw [hu]; exact h.yd
    have uey : u.ey0 = s.ey0 := by rw [hu]
    have uin : u.initial = s.initial := by rw [hu]
    rw [← hu]
    have uf : (hlEnter u x).fx0 = x % 256 := rfl
    have ue : (hlEnter u x).ex0 = x / 256 := rfl
    have ud : (hlEnter u x).xDlt = p1.x - x := uxd
    have uy : (hlEnter u x).fy1 = bottom p1 last - 256 * last := ufy
    by_cases c : (hlEnter u x).fx0 + (hlEnter u x).xDlt ≤ 256
    · rw [if_pos c]
      rw [uf, ud] at c ⊢
      rw [ue, uy]
      have hlt := r.lt hl.y
      have etop : top p0 last = 256 * last := by unfold top; omega
      have hDr : Draws p0 p1 neg last (last + 1) (merge last (x / 256) (sg neg (bottom p1 last - 256 * last))
          (sg neg (bottom p1 last - 256 * last) * (x % 256 * 2 + (p1.x - x))) ++ [bit last (x / 256)]) := by
        apply Draws.row
        intro y' X
        rw [acc_append, acc_merge, acc_bit,
          cover_single hlt (a := x) (b := p1.x) (by rw [etop]; exact hxa.symm) (by rw [eb]; exact hxe) (e := x / 256)
          (by omega) (by omega) (by omega) (by omega), sg_eq, etop]
        by_cases cy : last = y'
        · rw [if_pos cy, if_pos cy]
          have ef : x - 256 * (x / 256) + (p1.x - 256 * (x / 256)) = x % 256 * 2 + (p1.x - x) := by omega
          rw [ef]
          show _ + 0 = _
          unfold mergeAt
          split_ifs <;> ring
        · rw [if_neg cy, if_neg cy]
          rfl
      have hTi : Tidy (x / 256) (x / 256) (merge last (x / 256) (sg neg (bottom p1 last - 256 * last))
          (sg neg (bottom p1 last - 256 * last) * (x % 256 * 2 + (p1.x - x))) ++ [bit last (x / 256)]) := by
        refine Tidy.range (y := last) (by omega) (by simp [bits, bit]) ?_ ?_
        · intro y' a b hm
          rcases List.mem_append.mp hm with hm | hm
          · exact (mem_merge_mark hm).elim
          · simp only [bit, List.mem_cons, Ev.mark.injEq, List.not_mem_nil, or_false] at hm
            omega
        · intro y' a b hm
          rcases List.mem_append.mp hm with hm | hm
          · exact mem_merge_cell hm
          · simp [bit] at hm
      have hNi : NoRec (merge last (x / 256) (sg neg (bottom p1 last - 256 * last))
          (sg neg (bottom p1 last - 256 * last) * (x % 256 * 2 + (p1.x - x))) ++ [bit last (x / 256)]) := by
        intro m
        simp [bit, merge]
      have elog : Ev.minX lo :: log ++ merge last (x / 256) (sg neg (bottom p1 last - 256 * last))
          (sg neg (bottom p1 last - 256 * last) * (x % 256 * 2 + (p1.x - x))) ++ [bit last (x / 256), .maxX (x / 256)] =
          Ev.minX lo :: (log ++ (merge last (x / 256) (sg neg (bottom p1 last - 256 * last))
          (sg neg (bottom p1 last - 256 * last) * (x % 256 * 2 + (p1.x - x))) ++ [bit last (x / 256)])) ++ [.maxX (x / 256)] := by
        simp
      rw [elog]
      refine ⟨?_, ?_, ?_, fun hc => absurd hc (by omega)⟩
      · exact draws_wrap (hd.append hDr (by omega) (by omega)) (fun _ _ _ => rfl) (fun _ _ => rfl)
      · exact bounded_mk (hN.append hNi) ((hT.mono (by omega) (by omega)).append (hTi.mono (by omega) (by omega)))
          (Or.inl ⟨rfl, rfl⟩) (by omega) (by omega) (by omega)
      · symm
        exact decide_eq_true hlast
    · rw [if_neg c]
      rw [uf, ud] at c
      obtain ⟨a1, a2, a3, a4, a5, a6⟩ := hlSkip_spec neg hl hx r hplo uc hxa uyd ufy (by rw [eb, hxe, uxd]; omega)
        (Or.inl (by rw [uxd]; omega))
      rw [List.cons_append]
      exact hlDone_spec neg banding hl hx r hk uc (fun hc => absurd hc (by omega)) a1 (by rw [uin, hi])
        (fun hbt => by rw [uey]; exact hb hbt) hnb (hd.append a2 (by omega) (by omega)) (hN.append a6)
        ((hT.mono (by omega) (by omega)).append (a4.mono (by omega) (by omega))) hlo (by omega) a5

theorem horzLtr_spec {p0 p1 : Pt} {k last : Int} {s : St} {i : Nat} (neg banding : Bool) (hl : Line p0 p1)
    (hf : p1.y - p0.y < adx p0 p1) (hx : p0.x ≤ p1.x) (r : Row p0 p1 k) (h : HI p0 p1 k s)
    (hk : k ≤ last) (hlast : last ≤ (p1.y - 1) / 256) (hi : (i : Int) = last - k)
    (hb : banding = true → s.ey0 = last + 1) (hnb : banding = false → last = (p1.y - 1) / 256) :
    Out p0 p1 neg k last (NextH p0 p1 last) (horzLtr neg banding s k i) := by
  have hrl := r.lo
  unfold horzLtr
  simp only []
  rcases h with ⟨h1, h2, h3⟩ | ⟨h1, h2, x, h3, h4⟩
  · rw [if_pos h1]
    have ex : s.ex0 * 256 + s.fx0 = p0.x := by rw [h3.ex0, h3.fx0]; omega
    rw [ex]
    subst h2
    obtain ⟨a1, a2, a3, a4, a5, a6⟩ := hlFirst_spec neg hl hx h3
    have he0 := h3.ex0
    by_cases c : i = 0
    · rw [if_pos c]
      have : last = p0.y / 256 := by omega
      subst this
      exact hlDone_spec (s := { s with initial := false }) neg banding hl hx r (by omega) (h3.con.congr rfl) h3.xe a1 rfl
        hb hnb a2 a6 a4 (by omega) a3 a5
    · rw [if_neg c]
      have hp := a1.toHP hl r (by omega) (h3.con.congr rfl) (h3.xe (by omega))
      obtain ⟨b1, b2, b3, b4, b5, b6, b7, b8⟩ := hlMids_spec neg hl hx hf (i - 1) (p0.y / 256 + 1) _ _ (by omega) hp a5
      have eki : p0.y / 256 + 1 + ((i - 1 : Nat) : Int) = last := by omega
      rw [eki] at b1 b2
      rw [show p0.y / 256 + (i : Int) = last by omega, show [Ev.minX s.ex0] ++ (hlFirst neg s (p0.y / 256) p0.x).2.2 =
        Ev.minX s.ex0 :: (hlFirst neg s (p0.y / 256) p0.x).2.2 from rfl, List.cons_append]
      refine hlEnd_spec neg banding hl hx hf ⟨by omega, hlast⟩ (by omega) b1 (b7.trans a1.init) ?_ hnb
        (a2.append b2 (by omega) (by omega)) (a6.append b8) ?_ (by omega) ?_ b4
      · intro hbt
        rw [b6]
        exact a1.ey0.trans (hb hbt)
      · have b3' : (hlFirst neg s (p0.y / 256) p0.x).1.ex0 ≤ _ := b3
        exact (a4.mono (by omega) (by omega)).append (b5.mono (by show s.ex0 ≤ _; exact a3) (by omega))
      · have b3' : (hlFirst neg s (p0.y / 256) p0.x).1.ex0 ≤ _ := b3
        omega
  · rw [if_neg (by rw [h1]; simp)]
    rw [if_pos hx] at h4
    have ex : s.ex0 * 256 + s.fx0 = x := by omega
    rw [ex]
    obtain ⟨b1, b2, b3, b4, b5, b6, b7, b8⟩ := hlMids_spec neg hl hx hf i k x s (by omega) h3 (by omega)
    rw [show k + (i : Int) = last by omega] at b1 b2 ⊢
    have hx0 : p0.x ≤ x := by
      have hplo := h3.lo
      have g := gone_le hl.y (y := 256 * k) (by omega) (by omega)
      rw [h3.pos, xAt_gone_ltr hx]
      omega
    exact hlEnd_spec neg banding hl hx hf ⟨by omega, hlast⟩ (by omega) b1 (b7.trans h1)
      (fun hbt => by rw [b6]; exact hb hbt) hnb b2 b8 b5 (by omega) (by omega) b4

end Blend2D.Raster
