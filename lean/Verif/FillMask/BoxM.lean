import Verif.FillMask.BoxU
namespace Blend2D.FillMask
open Fill (Comp Row Good)
open Spec

theorem masks_ok {alpha x0 y0 x1 y1 : Nat} (ha : alpha ≤ 255) (hx : x0 < x1) (hy : y0 < y1) (hlt : y1 + 255 < 2 ^ 32)
    (hw : 2 ≤ (x1 + 255) / 256 - x0 / 256) :
    ∃ r, boxMasks alpha (x0 / 256) ((x1 + 255) / 256) (y0 / 256) ((y1 + 255) / 256 - y0 / 256) (256 - x0 % 256) ((x1 - 1) % 256 + 1)
        (((if (y1 + 255) / 256 - y0 / 256 = 1 then (y1 - 1) % 256 + 1 else 256) - y0 % 256) * alpha)
        (((y1 - 1) % 256 + 1) * alpha) = some r ∧ Result alpha x0 y0 x1 y1 r := by
  rw [← covy_top hy]
  obtain ⟨fx0, hfx0⟩ : ∃ f, 256 - x0 % 256 = f := ⟨_, rfl⟩
  obtain ⟨fx1, hfx1⟩ : ∃ f, (x1 - 1) % 256 + 1 = f := ⟨_, rfl⟩
  obtain ⟨fy0, hfy0⟩ : ∃ f, cov y0 y1 (y0 / 256) = f := ⟨_, rfl⟩
  obtain ⟨fy1, hfy1⟩ : ∃ f, (y1 - 1) % 256 + 1 = f := ⟨_, rfl⟩
  rw [hfx0, hfx1, hfy0, hfy1]
  have lx0 : fx0 ≤ 256 := by omega
  have lx1 : fx1 ≤ 256 := by omega
  have ly0 : fy0 ≤ 256 := by rw [← hfy0]; exact cov_le ..
  have ly1 : fy1 ≤ 256 := by omega
  -- masks of a scanline with the vertical coverage c
  have hL : ∀ y, boxMask alpha x0 y0 x1 y1 (x0 / 256) y = fx0 * cov y0 y1 y * alpha / 65536 := by
    intro y
    have : cov x0 x1 (x0 / 256) = fx0 := by rw [cov]; omega
    rw [boxMask, this]
  have hR : ∀ y, boxMask alpha x0 y0 x1 y1 ((x1 + 255) / 256 - 1) y = fx1 * cov y0 y1 y * alpha / 65536 := by
    intro y
    have : cov x0 x1 ((x1 + 255) / 256 - 1) = fx1 := by rw [cov]; omega
    rw [boxMask, this]
  have hM : ∀ x y, x0 / 256 < x → x < (x1 + 255) / 256 - 1 → boxMask alpha x0 y0 x1 y1 x y = cov y0 y1 y * alpha / 2 ^ 8 := by
    intro x y h1 h2
    have : cov x0 x1 x = 256 := by rw [cov]; omega
    rw [boxMask, this, mask_l]
  have hO : ∀ x y, x < x0 / 256 → boxMask alpha x0 y0 x1 y1 x y = 0 := fun x y h => boxMask_zero_x (cov_out (by omega))
  have hle8 : ∀ c, c ≤ 256 → c * alpha / 2 ^ 8 ≤ 255 := by
    intro c hc
    have : c * alpha ≤ 256 * alpha := Nat.mul_le_mul_right _ hc
    omega
  have hle16 : ∀ c d, c ≤ 256 → d ≤ 256 → c * (d * alpha) / 2 ^ 16 ≤ 255 := by
    intro c d h1 h2
    rw [← mask_assoc]; exact Nat.le_trans (mask_le h1 h2) ha
  obtain ⟨b1, e1, c1, r1⟩ := maskRows_ok (alpha := alpha) (fx0 := fx0) (fy0a := fy0 * alpha) (fy1a := fy1 * alpha) (hle8 _ ly0)
    (hle16 _ _ lx0 ly0) ha (hle8 _ lx0) (hle8 _ ly1) (hle16 _ _ lx0 ly1)
  have h02 : (y1 + 255) / 256 - y0 / 256 = 1 → fy1 * alpha / 2 ^ 8 = 0 → fy0 * alpha / 2 ^ 8 = 0 := by
    intro h1 hz
    have : fy0 ≤ fy1 := by rw [← hfy0, covy_top hy, if_pos h1]; omega
    have : fy0 * alpha ≤ fy1 * alpha := Nat.mul_le_mul_right _ this
    omega
  simp only [boxMasks, e1, Option.bind_eq_bind, Option.bind_some]
  obtain ⟨wa, hwa⟩ : ∃ a, (if (4 - ((x1 + 255) / 256 - x0 / 256) % 4) % 4 > x0 / 256 then 0
    else (4 - ((x1 + 255) / 256 - x0 / 256) % 4) % 4) = a := ⟨_, rfl⟩
  have hwa3 : wa ≤ 3 := by rw [← hwa]; split <;> omega
  have hwax : wa ≤ x0 / 256 := by rw [← hwa]; split <;> omega
  rw [hwa]
  obtain ⟨ax1, hax1⟩ : ∃ a, (x1 + 255) / 256 = a := ⟨_, rfl⟩
  obtain ⟨ax0, hax0⟩ : ∃ a, x0 / 256 = a := ⟨_, rfl⟩
  simp only [hax1, hax0] at hL hR hM hO hwax hw ⊢
  -- the masks of a row of the buffer, relative to the first pixel
  have hrow : ∀ y c m l r i at_, cov y0 y1 y = c → (m = c * alpha / 2 ^ 8) → l = fx0 * c * alpha / 65536 → r = fx1 * c * alpha / 65536 →
      ∀ (b : Bufs), RowIs b.mem at_ (upd (upd (fun i => if i < 4 then 0 else m) 4 l) i r) → i < 32 → 5 ≤ i →
      (∀ x, ax0 - wa ≤ x → x < ax1 - 1 → 4 - wa + (x - (ax0 - wa)) < i →
        b.mem ((4 - wa + at_ + (x - (ax0 - wa)) : Nat) : Int) = some (boxMask alpha x0 y0 x1 y1 x y)) ∧
      (∀ x, i ≤ 31 → ax0 < x → x < ax1 → i + 1 - (ax1 - x) ≥ 5 → i + 1 ≥ ax1 - x → 
        b.mem ((at_ + (i + 1 - (ax1 - x)) : Nat) : Int) = some (boxMask alpha x0 y0 x1 y1 x y)) := by
    intro y c m l r i at_ hc hm hl hr b hb hi hi5
    constructor
    · intro x a1 a2 a3
      have := hb (4 - wa + (x - (ax0 - wa))) (by omega)
      rw [show 4 - wa + at_ + (x - (ax0 - wa)) = at_ + (4 - wa + (x - (ax0 - wa))) by omega, this, upd, if_neg (by omega), upd]
      by_cases d : x = ax0
      · rw [if_pos (by omega), d, hL y, hl, hc]
      · rw [if_neg (by omega)]
        by_cases d2 : x < ax0
        · rw [if_pos (by omega), hO x y d2]
        · rw [if_neg (by omega), hM x y (by omega) (by omega), hm, hc]
    · intro x _ a1 a2 a3 a4
      have := hb (i + 1 - (ax1 - x)) (by omega)
      rw [this, upd]
      by_cases d : x = ax1 - 1
      · rw [if_pos (by omega), d, hR y, hr, hc]
      · rw [if_neg (by omega), upd, if_neg (by omega), if_neg (by omega), hM x y (by omega) (by omega), hm, hc]
  have em : alpha = 256 * alpha / 2 ^ 8 := by omega
  have er := fun f => (mask_r f alpha).symm
  by_cases hs : ax1 - ax0 + wa ≤ 20
  · rw [if_pos hs]
    obtain ⟨b2, e2, c2, r2⟩ := lastMasks_ok r1 (i := 4 - wa + (ax1 - ax0 + wa) - 1) (alpha := alpha) (fx1 := fx1) (fy0a := fy0 * alpha)
      (fy1a := fy1 * alpha) (by omega) (hle16 _ _ lx1 ly0) (hle8 _ lx1) (hle16 _ _ lx1 ly1)
    rw [e2]
    simp only [Option.bind_some]
    obtain ⟨post, hp⟩ := programs_one (b := b2) (by rw [c2, c1]; rfl) (h := (y1 + 255) / 256 - y0 / 256) (m0 := fy0 * alpha / 2 ^ 8) (by omega)
      (vmask 2 (ax0 - wa) ax1 ((4 - wa + 0 : Nat) : Int) 0) (vmask 2 (ax0 - wa) ax1 ((4 - wa + 32 : Nat) : Int) 0)
      (vmask 2 (ax0 - wa) ax1 ((4 - wa + 64 : Nat) : Int) 0)
    rw [hp]
    simp only [Option.bind_some]
    have hchain : ∀ y c m l r at_, cov y0 y1 y = c → (m = c * alpha / 2 ^ 8) → l = fx0 * c * alpha / 65536 → r = fx1 * c * alpha / 65536 →
        RowIs b2.mem at_ (upd (upd (fun i => if i < 4 then 0 else m) 4 l) (4 - wa + (ax1 - ax0 + wa) - 1) r) →
        Chain 255 b2.mem (fun x => boxMask alpha x0 y0 x1 y1 x y) (ax0 - wa) ax1 [vmask 2 (ax0 - wa) ax1 ((4 - wa + at_ : Nat) : Int) 0] := by
      intro y c m l r at_ hc hm hl hr hb
      obtain ⟨q1, q2⟩ := hrow y c m l r _ at_ hc hm hl hr b2 hb (by omega) (by omega)
      refine chain_mem (by omega) (fun x a1 a2 => ?_) (Chain.nil _)
      by_cases d : x = ax1 - 1
      · have := q2 x (by omega) (by omega) a2 (by omega) (by omega)
        rw [← this]; congr 2; omega
      · exact q1 x a1 (by omega) (by omega)
    refine ⟨_, rfl, ?_⟩
    have := finish (alpha := alpha) (x0 := x0) (y0 := y0) (x1 := x1) (y1 := y1) hx hy hlt (a := ax0 - wa) (m0 := fy0 * alpha / 2 ^ 8)
      (m2 := fy1 * alpha / 2 ^ 8) (mem := b2.mem) (post := post)
      (flag := decide (y0 / 256 + (if fy0 * alpha / 2 ^ 8 = 0 then 1 else 0) <
        y0 / 256 + ((y1 + 255) / 256 - y0 / 256) - if fy1 * alpha / 2 ^ 8 = 0 then 1 else 0)) (by omega)
      (top := [vmask 2 (ax0 - wa) ax1 ((4 - wa + 0 : Nat) : Int) 0]) (mid := [vmask 2 (ax0 - wa) ax1 ((4 - wa + 32 : Nat) : Int) 0])
      (bot := [vmask 2 (ax0 - wa) ax1 ((4 - wa + 64 : Nat) : Int) 0])
      (by rw [hax1]; exact hchain (y0 / 256) fy0 _ _ _ 0 hfy0 rfl (mask_assoc ..).symm (mask_assoc ..).symm r2.r0)
      (fun y hc => by rw [hax1]; exact hchain y 256 _ _ _ 32 hc em (er _) (er _) r2.r1)
      (by simp [next_vmask])
      (fun y hc => by rw [hax1]; exact hchain y fy1 _ _ _ 64 (hc.trans hfy1) rfl (mask_assoc ..).symm (mask_assoc ..).symm r2.r2)
      (fun hz => zero_row (by rw [hfy0]; exact hz)) (fun hz x y hc => zero_row (by rw [hc, hfy1]; exact hz) x)
      h02 (fun hf => of_decide_eq_true hf) (fun hf => .inl (of_decide_eq_false hf))
    exact this
  · rw [if_neg hs]
    obtain ⟨b2, e2, c2, r2⟩ := lastMasks_ok r1 (i := 4 - wa + 15) (alpha := alpha) (fx1 := fx1) (fy0a := fy0 * alpha)
      (fy1a := fy1 * alpha) (by omega) (hle16 _ _ lx1 ly0) (hle8 _ lx1) (hle16 _ _ lx1 ly1)
    rw [e2]
    simp only [Option.bind_some]
    obtain ⟨ie, hie⟩ : ∃ e, ax0 - wa + 4 + (ax1 - ax0 + wa - 5) / 8 * 8 = e := ⟨_, rfl⟩
    rw [hie]
    have t1 : 1 ≤ ax1 - ie := by omega
    have t8 : ax1 - ie ≤ 8 := by omega
    have t2 : ax0 - wa + 4 < ie := by omega
    obtain ⟨post, hp⟩ := programs_three (b := b2) (by rw [c2, c1]; rfl) (h := (y1 + 255) / 256 - y0 / 256) (m0 := fy0 * alpha / 2 ^ 8) (by omega)
      (vmask 2 (ax0 - wa) (ax0 - wa + 4) ((4 - wa + 0 : Nat) : Int) 0) (cmask (ax0 - wa + 4) ie (fy0 * alpha / 2 ^ 8))
      (vmask 2 ie ax1 ((4 - wa + 16 - (ax1 - ie) + 0 : Nat) : Int) 0)
      (vmask 2 (ax0 - wa) (ax0 - wa + 4) ((4 - wa + 32 : Nat) : Int) 0) (cmask (ax0 - wa + 4) ie alpha)
      (vmask 2 ie ax1 ((4 - wa + 16 - (ax1 - ie) + 32 : Nat) : Int) 0)
      (vmask 2 (ax0 - wa) (ax0 - wa + 4) ((4 - wa + 64 : Nat) : Int) 0) (cmask (ax0 - wa + 4) ie (fy1 * alpha / 2 ^ 8))
      (vmask 2 ie ax1 ((4 - wa + 16 - (ax1 - ie) + 64 : Nat) : Int) 0)
    rw [hp]
    simp only [Option.bind_some]
    have hchain : ∀ y c m l r at_, cov y0 y1 y = c → (m = c * alpha / 2 ^ 8) → l = fx0 * c * alpha / 65536 → r = fx1 * c * alpha / 65536 →
        RowIs b2.mem at_ (upd (upd (fun i => if i < 4 then 0 else m) 4 l) (4 - wa + 15) r) → m ≤ 255 →
        Chain 255 b2.mem (fun x => boxMask alpha x0 y0 x1 y1 x y) (ax0 - wa) ax1
          [vmask 2 (ax0 - wa) (ax0 - wa + 4) ((4 - wa + at_ : Nat) : Int) 0, cmask (ax0 - wa + 4) ie m,
           vmask 2 ie ax1 ((4 - wa + 16 - (ax1 - ie) + at_ : Nat) : Int) 0] := by
      intro y c m l r at_ hc hm hl hr hb hm2
      obtain ⟨q1, q2⟩ := hrow y c m l r _ at_ hc hm hl hr b2 hb (by omega) (by omega)
      refine chain_mem (by omega) (fun x a1 a2 => q1 x a1 (by omega) (by omega)) (chain_const t2 hm2 (fun x a1 a2 => ?_)
        (chain_mem (by omega) (fun x a1 a2 => ?_) (Chain.nil _)))
      · rw [hM x y (by omega) (by omega), hm, hc]
      · have := q2 x (by omega) (by omega) a2 (by omega) (by omega)
        rw [← this]; congr 2; omega
    refine ⟨_, rfl, ?_⟩
    have := finish (alpha := alpha) (x0 := x0) (y0 := y0) (x1 := x1) (y1 := y1) hx hy hlt (a := ax0 - wa) (m0 := fy0 * alpha / 2 ^ 8)
      (m2 := fy1 * alpha / 2 ^ 8) (mem := b2.mem) (post := post)
      (flag := decide (y0 / 256 + (if fy0 * alpha / 2 ^ 8 = 0 then 1 else 0) <
        y0 / 256 + ((y1 + 255) / 256 - y0 / 256) - if fy1 * alpha / 2 ^ 8 = 0 then 1 else 0)) (by omega)
      (by rw [hax1]; exact hchain (y0 / 256) fy0 _ _ _ 0 hfy0 rfl (mask_assoc ..).symm (mask_assoc ..).symm r2.r0 (hle8 _ ly0))
      (fun y hc => by rw [hax1]; exact hchain y 256 _ _ _ 32 hc em (er _) (er _) r2.r1 ha)
      (by simp [next_vmask, next_cmask])
      (fun y hc => by rw [hax1]; exact hchain y fy1 _ _ _ 64 (hc.trans hfy1) rfl (mask_assoc ..).symm (mask_assoc ..).symm r2.r2 (hle8 _ ly1))
      (fun hz => zero_row (by rw [hfy0]; exact hz)) (fun hz x y hc => zero_row (by rw [hc, hfy1]; exact hz) x)
      h02 (fun hf => of_decide_eq_true hf) (fun hf => .inl (of_decide_eq_false hf))
    exact this

theorem land_256 {a b : Nat} (ha : a ≤ 256) (hb : b ≤ 256) (h : a &&& b = 256) : a = 256 ∧ b = 256 := by
  have h1 : a &&& b ≤ a := Nat.and_le_left
  have h2 : a &&& b ≤ b := Nat.and_le_right
  omega

theorem initBoxU_ok {alpha x0 y0 x1 y1 : Nat} (ha : alpha ≤ 255) (hx : x0 < x1) (hy : y0 < y1) (hlt : y1 + 255 < 2 ^ 32) :
    ∃ r, initBoxU alpha x0 y0 x1 y1 = some r ∧ Result alpha x0 y0 x1 y1 r := by
  simp only [initBoxU]
  by_cases h1 : (x1 + 255) / 256 - x0 / 256 = 1
  · rw [if_pos h1]
    exact narrow_ok ha hx hy hlt h1
  · rw [if_neg h1]
    by_cases h2 : (256 - x0 % 256) &&& ((x1 - 1) % 256 + 1) = 256
    · rw [if_pos h2]
      obtain ⟨h3, h4⟩ := land_256 (by omega) (by omega) h2
      exact even_ok ha hx hy hlt (by omega) (by omega)
    · rw [if_neg h2]
      exact masks_ok ha hx hy hlt (by omega)

end Blend2D.FillMask
