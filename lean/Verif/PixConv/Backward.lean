import Verif.PixConv.Forward

/-!
# Conversions from native formats
-/
namespace Blend2D.PixConv
open Spec Pixel Bits
open Pixel.Spec (chan)

theorem and_mask (x n s : Nat) : x &&& lsb n * 2 ^ s = x / 2 ^ s % 2 ^ n * 2 ^ s := by
  apply Nat.eq_of_testBit_eq
  intro i
  rw [Nat.testBit_and, Nat.testBit_mul_two_pow, lsb, Nat.testBit_two_pow_sub_one, Nat.testBit_mul_two_pow, Nat.testBit_mod_two_pow,
    Nat.testBit_div_two_pow]
  by_cases h : s ≤ i
  · simp only [h, decide_true, Bool.true_and, Nat.sub_add_cancel h]
    rw [Bool.and_comm]
  · simp [h]

theorem narrow_table : ∀ n : Fin 17, ∀ v : Fin 256, v.val * 16843009 / 2 ^ (32 - n.val) = scale 8 n.val v.val := by
  decide +kernel

theorem place_toNat (c : Ch) (h16 : c.size ≤ 16) (hs : c.shift + c.size ≤ 32) (v : UInt32) (hv : v.toNat < 256) :
    (place (ffnChan c) v).toNat = scale 8 c.size v.toNat * 2 ^ c.shift := by
  unfold ffnChan
  split
  · rename_i h0
    unfold place
    dsimp only
    have hm : lsb c.size * 2 ^ c.shift < 2 ^ 32 := by
      have : lsb c.size * 2 ^ c.shift < 2 ^ c.size * 2 ^ c.shift := by
        apply Nat.mul_lt_mul_of_pos_right _ (Nat.two_pow_pos _)
        have := Nat.two_pow_pos c.size
        unfold lsb; omega
      rw [← Nat.pow_add] at this
      exact lt_of_lt_of_le this (Nat.pow_le_pow_right (by omega) (by omega))
    rw [UInt32.toNat_and, ofNat_shift _ _ (by omega), UInt32.toNat_mul, UInt32.toNat_ofNat', Nat.mod_eq_of_lt hm, and_mask,
      show (0x01010101 : UInt32).toNat = 16843009 from rfl, Nat.mod_eq_of_lt (show v.toNat * 16843009 < 2 ^ 32 by omega),
      Nat.div_div_eq_div_mul, ← Nat.pow_add, show 32 - c.size - c.shift + c.shift = 32 - c.size by omega]
    have := narrow_table ⟨c.size, by omega⟩ ⟨v.toNat, hv⟩
    dsimp only at this
    rw [this, Nat.mod_eq_of_lt]
    have := scale_le 8 c.size v.toNat
    have := Nat.two_pow_pos c.size
    omega
  · rename_i h0
    have h0 : c.size = 0 := by omega
    simp [place, h0, scale]

theorem field_or (c : Ch) (x y : Nat) : field c (x ||| y) = field c x ||| field c y := by
  apply Nat.eq_of_testBit_eq
  intro i
  unfold field
  simp only [Nat.testBit_or, Nat.testBit_mod_two_pow, Nat.testBit_div_two_pow]
  cases decide (i < c.size) <;> simp

theorem field_self (c : Ch) (k : Nat) (h : k < 2 ^ c.size) : field c (k * 2 ^ c.shift) = k := by
  unfold field
  rw [Nat.mul_div_cancel _ (Nat.two_pow_pos _), Nat.mod_eq_of_lt h]

theorem field_apart (c d : Ch) (k : Nat) (hk : k < 2 ^ d.size) (h : Apart c d) : field c (k * 2 ^ d.shift) = 0 := by
  unfold field
  apply Nat.eq_of_testBit_eq
  intro i
  rw [Nat.testBit_mod_two_pow, Nat.testBit_div_two_pow, Nat.testBit_mul_two_pow, Nat.zero_testBit]
  by_contra hn
  have hn := Bool.of_not_eq_false hn
  simp only [Bool.and_eq_true, decide_eq_true_eq] at hn
  obtain ⟨h1, h2, h3⟩ := hn
  have hb : i + c.shift - d.shift < d.size := by
    by_contra hb
    have : k < 2 ^ (i + c.shift - d.shift) := lt_of_lt_of_le hk (Nat.pow_le_pow_right (by omega) (by omega))
    rw [Nat.testBit_lt_two_pow this] at h3
    simp at h3
  unfold Apart at h
  have hd0 : d.size ≠ 0 := by omega
  omega

theorem scale_lt (m n v : Nat) : scale m n v < 2 ^ n := by
  have := scale_le m n v
  have := Nat.two_pow_pos n
  omega

/-- The components of a destination pixel. -/
def Fields (d : Fmt) (v : Nat) (c : Color) : Prop :=
  field d.r v = scale 8 d.r.size c.r ∧ field d.g v = scale 8 d.g.size c.g ∧ field d.b v = scale 8 d.b.size c.b ∧
  field d.a v = scale 8 d.a.size c.a

theorem apart_symm {c d : Ch} (h : Apart c d) : Apart d c := by unfold Apart at *; omega

/-- Four components side by side. -/
theorem fields_or {f d : Fmt} (D : Sane f d) (hlum : f.lum = false) (c : Color) :
    Fields d (scale 8 d.r.size c.r * 2 ^ d.r.shift ||| scale 8 d.g.size c.g * 2 ^ d.g.shift |||
      scale 8 d.b.size c.b * 2 ^ d.b.shift ||| scale 8 d.a.size c.a * 2 ^ d.a.shift) c := by
  obtain ⟨pra, pga, pba⟩ := D.apartA
  obtain ⟨prg, prb, pgb⟩ := D.apartRgb hlum
  have sr := scale_lt 8 d.r.size c.r
  have sg := scale_lt 8 d.g.size c.g
  have sb := scale_lt 8 d.b.size c.b
  have sa := scale_lt 8 d.a.size c.a
  refine ⟨?_, ?_, ?_, ?_⟩
  · rw [field_or, field_or, field_or, field_self _ _ sr, field_apart _ _ _ sg prg, field_apart _ _ _ sb prb, field_apart _ _ _ sa pra]
    simp
  · rw [field_or, field_or, field_or, field_self _ _ sg, field_apart _ _ _ sr (apart_symm prg), field_apart _ _ _ sb pgb,
      field_apart _ _ _ sa pga]
    simp
  · rw [field_or, field_or, field_or, field_self _ _ sb, field_apart _ _ _ sr (apart_symm prb), field_apart _ _ _ sg (apart_symm pgb),
      field_apart _ _ _ sa pba]
    simp
  · rw [field_or, field_or, field_or, field_self _ _ sa, field_apart _ _ _ sr (apart_symm pra), field_apart _ _ _ sg (apart_symm pga),
      field_apart _ _ _ sb (apart_symm pba)]
    simp

theorem byte_val (p : UInt32) : ((p >>> 16) &&& 0xFF).toNat = chan 2 p.toNat ∧ ((p >>> 8) &&& 0xFF).toNat = chan 1 p.toNat ∧
    (p &&& 0xFF).toNat = chan 0 p.toNat ∧ (p >>> 24).toNat = chan 3 p.toNat := by
  have hlt := p.toNat_lt
  obtain ⟨h0, h1, h2, _⟩ := chan_vals p.toNat
  refine ⟨?_, ?_, ?_, ?_⟩
  · rw [h2, UInt32.toNat_and, UInt32.toNat_shiftRight]
    simp only [UInt32.reduceToNat, Nat.shiftRight_eq_div_pow, Nat.reducePow, Nat.reduceMod, and_255]
  · rw [h1, UInt32.toNat_and, UInt32.toNat_shiftRight]
    simp only [UInt32.reduceToNat, Nat.shiftRight_eq_div_pow, Nat.reducePow, Nat.reduceMod, and_255]
  · rw [h0, UInt32.toNat_and]
    simp only [UInt32.reduceToNat, and_255]
  · rw [chan3]; simp only [UInt32.toNat_shiftRight, UInt32.reduceToNat, Nat.shiftRight_eq_div_pow, Nat.reduceMod, Nat.reducePow]

/-- The colour of a native pixel. -/
def nativeColor (p : Nat) : Color := ⟨chan 2 p, chan 1 p, chan 0 p, chan 3 p⟩

/-- The colour a destination pixel gets. -/
def outColor (d : Fmt) (p : Nat) : Color :=
  if d.alpha && !d.prem then
    ⟨unp (chan 2 p) (chan 3 p), unp (chan 1 p) (chan 3 p), unp (chan 0 p) (chan 3 p), chan 3 p⟩
  else nativeColor p

theorem toPrgb_fields {f d : Fmt} (D : Sane f d) (hlum : f.lum = false) (p : UInt32) :
    Fields d (toPrgb (ffn d) p).toNat (nativeColor p.toNat) := by
  obtain ⟨v2, v1, v0, v3⟩ := byte_val p
  have l := fun k => chan_le k p.toNat
  have e : (toPrgb (ffn d) p).toNat = scale 8 d.r.size (chan 2 p.toNat) * 2 ^ d.r.shift ||| scale 8 d.g.size (chan 1 p.toNat) * 2 ^ d.g.shift |||
      scale 8 d.b.size (chan 0 p.toNat) * 2 ^ d.b.shift ||| scale 8 d.a.size (chan 3 p.toNat) * 2 ^ d.a.shift := by
    unfold toPrgb ffn
    simp only [UInt32.toNat_or]
    rw [place_toNat _ D.fits.r.1 D.fits.r.2 _ (by have := l 2; omega), place_toNat _ D.fits.g.1 D.fits.g.2 _ (by have := l 1; omega),
      place_toNat _ D.fits.b.1 D.fits.b.2 _ (by have := l 0; omega), place_toNat _ D.fits.a.1 D.fits.a.2 _ (by have := l 3; omega),
      v2, v1, v0, v3]
  rw [e]
  exact fields_or D hlum (nativeColor p.toNat)

theorem toXrgb_fields {f d : Fmt} (D : Sane f d) (hlum : f.lum = false) (ha : f.alpha = false) (p : UInt32) :
    Fields d (toXrgb (ffn d) p).toNat (nativeColor p.toNat) := by
  have e : toXrgb (ffn d) p = toPrgb (ffn d) p := by
    unfold toXrgb toPrgb ffn
    have : d.a = ⟨0, 0⟩ := by
      rcases D.hasAlpha with ⟨h, -⟩ | ⟨-, h⟩
      · rw [ha] at h; simp at h
      · exact h
    simp [this, ffnChan, place]
  rw [e]
  exact toPrgb_fields D hlum p

theorem toArgb_fields {f d : Fmt} (D : Sane f d) (hlum : f.lum = false) (p : UInt32) (hp : Pixel.Spec.Premultiplied p.toNat) :
    Fields d (toArgb (ffn d) p).toNat
      ⟨unp (chan 2 p.toNat) (chan 3 p.toNat), unp (chan 1 p.toNat) (chan 3 p.toNat), unp (chan 0 p.toNat) (chan 3 p.toNat), chan 3 p.toNat⟩ := by
  obtain ⟨v2, v1, v0, v3⟩ := byte_val p
  have l := fun k => chan_le k p.toNat
  have l3 := l 3
  have t := fun k (hk : k < 3) => (unp_table (chan 3 p.toNat) (by omega) (chan k p.toNat) (by have := l k; omega) (hp k hk)).1
  have u2 := unpremultiply8_toNat ((p >>> 16) &&& 0xFF) (p >>> 24) (by rw [v2]; exact l 2) (by rw [v3]; exact l 3)
  have u1 := unpremultiply8_toNat ((p >>> 8) &&& 0xFF) (p >>> 24) (by rw [v1]; exact l 1) (by rw [v3]; exact l 3)
  have u0 := unpremultiply8_toNat (p &&& 0xFF) (p >>> 24) (by rw [v0]; exact l 0) (by rw [v3]; exact l 3)
  rw [v2, v3] at u2
  rw [v1, v3] at u1
  rw [v0, v3] at u0
  have t2 := t 2 (by omega)
  have t1 := t 1 (by omega)
  have t0 := t 0 (by omega)
  have e0 : toArgb (ffn d) p = place (ffn d).r (unpremultiply8 ((p >>> 16) &&& 0xFF) (p >>> 24)) |||
      place (ffn d).g (unpremultiply8 ((p >>> 8) &&& 0xFF) (p >>> 24)) ||| place (ffn d).b (unpremultiply8 (p &&& 0xFF) (p >>> 24)) |||
      place (ffn d).a (p >>> 24) := rfl
  have e : (toArgb (ffn d) p).toNat = scale 8 d.r.size (unp (chan 2 p.toNat) (chan 3 p.toNat)) * 2 ^ d.r.shift |||
      scale 8 d.g.size (unp (chan 1 p.toNat) (chan 3 p.toNat)) * 2 ^ d.g.shift |||
      scale 8 d.b.size (unp (chan 0 p.toNat) (chan 3 p.toNat)) * 2 ^ d.b.shift ||| scale 8 d.a.size (chan 3 p.toNat) * 2 ^ d.a.shift := by
    rw [e0]
    simp only [UInt32.toNat_or, ffn]
    rw [place_toNat _ D.fits.r.1 D.fits.r.2 _ (by omega), place_toNat _ D.fits.g.1 D.fits.g.2 _ (by omega),
      place_toNat _ D.fits.b.1 D.fits.b.2 _ (by omega), place_toNat _ D.fits.a.1 D.fits.a.2 _ (by omega),
      u2, u1, u0, v3]
  rw [e]
  exact fields_or D hlum ⟨unp (chan 2 p.toNat) (chan 3 p.toNat), unp (chan 1 p.toNat) (chan 3 p.toNat), unp (chan 0 p.toNat) (chan 3 p.toNat), chan 3 p.toNat⟩

/-- Native pixels are pixels of 32-bit formats with the same components. -/
theorem fields_native {d : Fmt} (hr : d.r = ⟨8, 16⟩) (hg : d.g = ⟨8, 8⟩) (hb : d.b = ⟨8, 0⟩) (ha : d.a = ⟨8, 24⟩ ∨ d.a = ⟨0, 0⟩)
    (v : Nat) (c : Color) (h : v % 16777216 = pack4 0 c.r c.g c.b) (h2 : d.a = ⟨8, 24⟩ → v / 16777216 % 256 = c.a)
    (hc : c.r < 256 ∧ c.g < 256 ∧ c.b < 256 ∧ c.a < 256) : Fields d v c := by
  have s8 : ∀ x, x < 256 → scale 8 8 x = x := fun x hx => by
    rw [scale_top 8 x (by omega) (by omega)]; simp
  unfold pack4 at h
  refine ⟨?_, ?_, ?_, ?_⟩
  · rw [hr]; simp only [field]; rw [s8 _ hc.1]; omega
  · rw [hg]; simp only [field]; rw [s8 _ hc.2.1]; omega
  · rw [hb]; simp only [field]; rw [s8 _ hc.2.2.1]; omega
  · rcases ha with ha | ha
    · have := h2 ha
      rw [ha]; simp only [field]; rw [s8 _ hc.2.2.2]; omega
    · rw [ha]; simp [field, scale, Nat.mod_one]

theorem unpremultiply24 (p : UInt32) : unpremultiply 24 p = cvtArgb32FromPrgb32 p := by
  have ha : (p >>> 24) &&& (0xFF : UInt32) = p >>> 24 := by
    apply UInt32.toNat_inj.1
    have := p.toNat_lt
    rw [UInt32.toNat_and, UInt32.toNat_shiftRight]
    simp only [UInt32.reduceToNat, Nat.shiftRight_eq_div_pow, Nat.reducePow, Nat.reduceMod, and_255]
    omega
  have e : unpremultiply 24 p =
      (unpremultiply8 ((p >>> 0) &&& 0xFF) ((p >>> 24) &&& 0xFF) <<< 0) ||| (unpremultiply8 ((p >>> 8) &&& 0xFF) ((p >>> 24) &&& 0xFF) <<< 8) |||
      (unpremultiply8 ((p >>> 16) &&& 0xFF) ((p >>> 24) &&& 0xFF) <<< 16) ||| (((p >>> 24) &&& 0xFF) <<< 24) := rfl
  rw [e, ha, UInt32.shiftRight_zero, UInt32.shiftLeft_zero]
  unfold cvtArgb32FromPrgb32
  dsimp only
  generalize unpremultiply8 (p &&& 0xFF) (p >>> 24) = x
  generalize unpremultiply8 ((p >>> 8) &&& 0xFF) (p >>> 24) <<< 8 = y
  generalize unpremultiply8 ((p >>> 16) &&& 0xFF) (p >>> 24) <<< 16 = z
  generalize (p >>> 24) <<< 24 = w
  ac_rfl

theorem nativeColor_lt (p : Nat) : (nativeColor p).r < 256 ∧ (nativeColor p).g < 256 ∧ (nativeColor p).b < 256 ∧ (nativeColor p).a < 256 := by
  have := chan_le 2 p
  have := chan_le 1 p
  have := chan_le 0 p
  have := chan_le 3 p
  simp only [nativeColor]
  omega

theorem pack_native (p : Nat) : p % 16777216 = pack4 0 (nativeColor p).r (nativeColor p).g (nativeColor p).b := by
  obtain ⟨h0, h1, h2, h3⟩ := chan_vals p
  simp only [nativeColor, h0, h1, h2]
  unfold pack4
  omega

/-- What a pixel converter from a native format does. -/
def Sends (d : Fmt) (c : Conv) : Prop :=
  (∃ fn : PixFn, c = .map 4 false (d.depth / 8) d.swap fn ∧
    ∀ p : UInt32, (d.alpha = true → d.prem = false → Pixel.Spec.Premultiplied p.toNat) → Fields d (fn.eval p).toNat (outColor d p.toNat)) ∨
  (c = .copy 4 ∧ d.depth = 32 ∧ d.swap = false ∧ ∀ p : Nat, Fields d p (outColor d p))

theorem toForeign_sends {f d : Fmt} (D : Sane f d) (hlum : f.lum = false) :
    Sends d (.map 4 false (d.depth / 8) d.swap
      (if d.prem then .toPrgb (ffn d) else if d.alpha then .toArgb (ffn d) else .toXrgb (ffn d))) := by
  left
  refine ⟨_, rfl, fun p hp => ?_⟩
  by_cases h1 : d.prem = true
  · rw [if_pos h1]
    have : outColor d p.toNat = nativeColor p.toNat := by simp [outColor, h1]
    rw [this]
    exact toPrgb_fields D hlum p
  · rw [if_neg h1]
    have h1 : d.prem = false := by simpa using h1
    by_cases h2 : d.alpha = true
    · rw [if_pos h2]
      have e : outColor d p.toNat = ⟨unp (chan 2 p.toNat) (chan 3 p.toNat), unp (chan 1 p.toNat) (chan 3 p.toNat),
          unp (chan 0 p.toNat) (chan 3 p.toNat), chan 3 p.toNat⟩ := by simp [outColor, h1, h2]
      rw [e]
      exact toArgb_fields D hlum p (hp h2 h1)
    · rw [if_neg h2]
      have h2 : d.alpha = false := by simpa using h2
      have : outColor d p.toNat = nativeColor p.toNat := by simp [outColor, h2]
      rw [this]
      exact toXrgb_fields D hlum (by rw [← D.alpha]; exact h2) p

theorem copyOr_sends {d : Fmt} (hr : d.r = ⟨8, 16⟩) (hg : d.g = ⟨8, 8⟩) (hb : d.b = ⟨8, 0⟩) (ha : d.a = ⟨0, 0⟩)
    (hal : d.alpha = false) (h32 : d.depth = 32) (hsw : d.swap = false) (n : Fmt) : Sends d (initCopyOr d n) := by
  left
  have hf : fillMask d = 0xFF000000 := by simp only [fillMask, hr, hg, hb, ha]; rfl
  refine ⟨.copyOr 0xFF000000, ?_, fun p _ => ?_⟩
  · rw [h32, hsw]
    simp only [initCopyOr, hal, hf, Bool.false_and, Bool.false_eq_true, if_false]
  · have e : outColor d p.toNat = nativeColor p.toNat := by simp [outColor, hal]
    rw [e]
    refine fields_native hr hg hb (Or.inr ha) _ _ ?_ (fun h => by rw [ha] at h; simp at h) (nativeColor_lt _)
    simp only [PixFn.eval, UInt32.toNat_or]
    rw [show (0xFF000000 : UInt32).toNat = 0xFF000000 from rfl, or_FF000000 _ p.toNat_lt, ← pack_native]
    omega

theorem foreign32_sends {d : Fmt} (hr : d.r = ⟨8, 16⟩) (hg : d.g = ⟨8, 8⟩) (hb : d.b = ⟨8, 0⟩) (ha : d.a = ⟨0, 0⟩)
    (hal : d.alpha = false) (h32 : d.depth = 32) (hsw : d.swap = false) :
    Sends d (.map 4 false 4 false (.fromXrgb (nff xrgb32))) := by
  left
  refine ⟨.fromXrgb (nff xrgb32), by rw [h32, hsw], fun p _ => ?_⟩
  have e : outColor d p.toNat = nativeColor p.toNat := by simp [outColor, hal]
  rw [e]
  refine fields_native hr hg hb (Or.inr ha) _ _ ?_ (fun h => by rw [ha] at h; simp at h) (nativeColor_lt _)
  have := fromXrgb_toNat xrgb32 ⟨by simp [xrgb32], by simp [xrgb32], by simp [xrgb32], by simp [xrgb32]⟩ rfl p
  rw [show (PixFn.fromXrgb (nff xrgb32)).eval p = fromXrgb (nff xrgb32) p from rfl, this]
  have cr : comp xrgb32.r p.toNat = p.toNat / 65536 % 256 := comp_byte 2 _
  have cg : comp xrgb32.g p.toNat = p.toNat / 256 % 256 := comp_byte 1 _
  have cb : comp xrgb32.b p.toNat = p.toNat % 256 := (comp_byte 0 _).trans (by simp)
  rw [cr, cg, cb, ← pack_native]
  unfold pack4
  omega

theorem orElse_nothing {x y : Init} (h : x.orElse y = .nothing) : y = .nothing := by
  cases x <;> simp [Init.orElse] at h
  exact h

theorem native_sends {f d n : Fmt} {c : Conv} (D : Sane f d) (hrgb : f.rgb = true) (hlum : f.lum = false)
    (hn : n = prgb32 ∨ n = xrgb32 ∧ f.alpha = false) (h : initPlain d n = some c) : Sends d c := by
  have hn32 : n.depth = 32 ∧ n.aligned = true ∧ n.rgb = true ∧ n.r = ⟨8, 16⟩ ∧ n.g = ⟨8, 8⟩ ∧ n.b = ⟨8, 0⟩ ∧ n.lum = false ∧
      n.indexed = false ∧ n.swap = false := by
    rcases hn with rfl | ⟨rfl, -⟩ <;> exact ⟨rfl, rfl, rfl, rfl, rfl, rfl, rfl, rfl, rfl⟩
  obtain ⟨n32, nal, nrgb, nr, ng, nb, nlum, nidx, nsw⟩ := hn32
  have drgb : d.rgb = true := D.rgb.trans hrgb
  have hforeign : initToForeign d n = if d.depth = 16 ∨ d.depth = 24 ∨ d.depth = 32 then
    .conv (.map 4 false (d.depth / 8) d.swap
      (if d.prem then .toPrgb (ffn d) else if d.alpha then .toArgb (ffn d) else .toXrgb (ffn d))) else .error := by
    unfold initToForeign
    rw [if_neg (by simp [nr, ng, nb])]
  -- the simple converters
  have hsimple : ∀ k, d.depth = 32 → initSimple d n = .conv k → Sends d k := by
    intro k h32 h
    unfold initSimple at h
    split at h
    · rename_i hl
      obtain ⟨hr, hg, hb⟩ := hl
      rw [nr] at hr
      rw [ng] at hg
      rw [nb] at hb
      split at h
      · rename_i ha
        split at h
        · rename_i hf
          rw [sameFlags_iff] at hf
          split at h
          · rename_i hk
            simp only [Init.conv.injEq] at h
            rw [← h]
            have hal : d.alpha = false := by simpa using hk.2.1
            have ha0 : d.a = ⟨0, 0⟩ := by
              rcases D.hasAlpha with ⟨h, -⟩ | ⟨-, h⟩
              · rw [← D.alpha, hal] at h; simp at h
              · exact h
            exact copyOr_sends hr hg hb ha0 hal h32 (by rw [hf.1.2.2.2.2.1, nsw]) n
          · rename_i hk
            simp only [Init.conv.injEq] at h
            rw [h32] at h
            right
            refine ⟨h.symm, h32, by rw [hf.1.2.2.2.2.1, nsw], fun p => ?_⟩
            rcases hn with rfl | ⟨rfl, hal⟩
            · have e : outColor d p = nativeColor p := by
                have : d.prem = true := hf.2
                simp [outColor, this]
              rw [e]
              refine fields_native hr hg hb (Or.inl ha) _ _ (pack_native p) (fun _ => ?_) (nativeColor_lt _)
              exact (chan_vals p).2.2.2.symm
            · exfalso
              apply hk
              refine ⟨h32, ?_, ?_⟩
              · rw [D.alpha, hal]; rfl
              · exact hf.1.2.2.2.2.2.2
        · split at h
          · rename_i hf
            obtain ⟨⟨-, dal, hdal⟩, ⟨-, nal', -⟩, -, hpr, -⟩ := hf
            have hn : n = prgb32 := by
              rcases hn with h | ⟨h, -⟩
              · exact h
              · rw [h] at nal'; simp [xrgb32] at nal'
            subst hn
            have hp : d.prem = false := by simpa [prgb32] using hpr
            rw [if_neg (by simp [hp])] at h
            unfold initUnpremul at h
            have ha' : d.a = ⟨8, 24⟩ := ha
            rw [if_pos (by rw [ha']; exact Or.inr rfl), ha'] at h
            simp only [Init.conv.injEq] at h
            left
            refine ⟨.unpremul 24, ?_, fun p hpm => ?_⟩
            · rw [← h, h32, D.swapA hdal]; rfl
            · have hpm := hpm dal hp
              have e : outColor d p.toNat = ⟨unp (chan 2 p.toNat) (chan 3 p.toNat), unp (chan 1 p.toNat) (chan 3 p.toNat),
                unp (chan 0 p.toNat) (chan 3 p.toNat), chan 3 p.toNat⟩ := by simp [outColor, hp, dal]
              have l := fun k => chan_le k p.toNat
              have l3 := l 3
              have t := fun k (hk : k < 3) =>
                (unp_table (chan 3 p.toNat) (by omega) (chan k p.toNat) (by have := l k; omega) (hpm k hk)).1
              have t2 := t 2 (by omega)
              have t1 := t 1 (by omega)
              have t0 := t 0 (by omega)
              rw [e, show (PixFn.unpremul 24).eval p = unpremultiply 24 p from rfl, unpremultiply24, cvtArgb_toNat p hpm]
              refine fields_native hr hg hb (Or.inl ha') _ _ ?_ (fun _ => ?_) ?_
              · dsimp only; unfold pack4; omega
              · dsimp only; unfold pack4; omega
              · dsimp only; omega
          · simp at h
      · rename_i ha
        split at h
        · rename_i hf
          obtain ⟨-, ⟨-, dali⟩, -, -⟩ := hf
          split at h
          · rename_i hk
            simp only [Init.conv.injEq] at h
            rw [← h]
            have hal : d.alpha = false := by
              rcases hn with rfl | ⟨rfl, hal⟩
              · simpa [prgb32] using hk
              · rw [D.alpha, hal]
            have ha0 : d.a = ⟨0, 0⟩ := by
              rcases D.hasAlpha with ⟨h, -⟩ | ⟨-, h⟩
              · rw [← D.alpha, hal] at h; simp at h
              · exact h
            exact copyOr_sends hr hg hb ha0 hal h32 (D.swapA dali) n
          · rename_i hk
            exfalso
            rcases hn with rfl | ⟨rfl, hal⟩
            · split at h
              · rename_i hk2
                apply hk
                left
                exact ⟨hk2.1, rfl⟩
              · simp at h
            · rw [if_neg (by simp [xrgb32])] at h
              simp at h
        · simp at h
    · simp at h
  -- the converter for foreign sources is not used
  have hnative : ∀ k, d.depth = 32 → d.aligned = true → initSimple d n = .nothing → initFromForeign d n = .conv k → Sends d k := by
    intro k h32 hal hs h
    unfold initFromForeign at h
    split at h
    · simp at h
    · rename_i hsh
      have A := D.aligned hal
      simp only [List.mem_cons, List.not_mem_nil, or_false, forall_eq_or_imp, forall_eq] at A
      have hsz : 1 ≤ d.r.size ∧ 1 ≤ d.g.size ∧ 1 ≤ d.b.size := by
        rcases D.hasRgb with ⟨-, h⟩ | ⟨h, -⟩
        · exact h
        · rw [hrgb] at h; simp at h
      have ext : ∀ (c : Ch) (s : Nat), c.size = 8 → c.shift = s → c = ⟨8, s⟩ := by
        intro c s h1 h2; cases c; simp_all
      have hr : d.r = ⟨8, 16⟩ := ext _ _ (A.1 (by omega)).1 (by omega)
      have hg : d.g = ⟨8, 8⟩ := ext _ _ (A.2.1 (by omega)).1 (by omega)
      have hb : d.b = ⟨8, 0⟩ := ext _ _ (A.2.2.1 (by omega)).1 (by omega)
      have hsw := D.swapA hal
      rcases hn with rfl | ⟨rfl, hal0⟩
      · exfalso
        unfold initSimple at hs
        rw [if_pos ⟨hr, hg, hb⟩] at hs
        rcases D.hasAlpha with ⟨h1, h2⟩ | ⟨h1, h2⟩
        · have P := D.apartA
          have k4 := A.2.2.2 (by omega)
          have w4 := D.within d.a (by simp)
          rw [← D.depth, h32] at w4
          rw [hr, hg, hb] at P
          simp only [Apart] at P
          have ha : d.a = ⟨8, 24⟩ := ext _ _ k4.1 (by omega)
          have hal1 : d.alpha = true := D.alpha.trans h1
          have hund := D.full (by rw [← D.depth]; exact h32) hal hrgb hlum h1
          have hsf : sameFlags d prgb32 = true := by
            rw [sameFlags_iff]
            exact ⟨drgb, hal1, D.lum.trans hlum, D.indexed, hsw, hal, hund⟩
          rw [if_pos (show d.a = prgb32.a from ha)] at hs
          split at hs
          · split at hs <;> simp at hs
          · rename_i hne
            have hp : d.prem = false := by
              cases hp : d.prem
              · rfl
              · exact absurd ⟨hsf, hp⟩ hne
            rw [if_pos ⟨⟨drgb, hal1, hal⟩, ⟨rfl, rfl, rfl⟩, hsf, by simp [hp, prgb32], h32⟩, if_neg (by simp [hp])] at hs
            unfold initUnpremul at hs
            rw [if_pos (by rw [ha]; exact Or.inr rfl)] at hs
            simp at hs
        · have hal1 : d.alpha = false := D.alpha.trans h1
          rw [if_neg (by rw [h2]; simp [prgb32]), if_pos ⟨h32, ⟨drgb, hal⟩, rfl, rfl⟩, if_pos (Or.inl ⟨by simp [hal1], rfl⟩)] at hs
          simp at hs
      · rw [if_pos (by simp [xrgb32])] at h
        simp only [Init.conv.injEq] at h
        have ha0 : d.a = ⟨0, 0⟩ := by
          rcases D.hasAlpha with ⟨h, -⟩ | ⟨-, h⟩
          · rw [hal0] at h; simp at h
          · exact h
        rw [← h]
        exact foreign32_sends hr hg hb ha0 (D.alpha.trans hal0) h32 hsw
  have h := initPlain_some h
  have hC : ∀ (k : Conv) (y : Init), (Init.conv k).orElse y = .conv k := fun _ _ => rfl
  -- in the order of the code
  have hdirect : initDirect d n = .conv c ∨ initDirect d n = .nothing := by
    rcases orElse_conv h with h | ⟨h, -⟩
    · exact Or.inl h
    · exact Or.inr h
  have h8 : ¬ (d.depth = 8 ∧ (d.alpha = true ∧ d.aligned = true)) := by
    rintro ⟨h8, hal, hali⟩
    have A := D.aligned hali
    have W := D.within
    simp only [List.mem_cons, List.not_mem_nil, or_false, forall_eq_or_imp, forall_eq] at A W
    have k1 : 1 ≤ d.r.size := by
      rcases D.hasRgb with ⟨-, h, -⟩ | ⟨h, -⟩
      · exact h
      · rw [hrgb] at h; simp at h
    have k2 : 1 ≤ d.a.size := by
      rcases D.hasAlpha with ⟨-, h⟩ | ⟨h, -⟩
      · exact h
      · rw [← D.alpha, hal] at h; simp at h
    have P := D.apartA.1
    unfold Apart at P
    have := D.depth
    have := A.1 (by omega)
    have := A.2.2.2 (by omega)
    omega
  unfold initDirect at hdirect
  rw [hforeign, n32, if_neg (show ¬ (d.depth = 32 ∧ 32 = 8 ∧ _) by omega), if_pos (show 32 = 32 ∧ n.aligned = true from ⟨rfl, nal⟩)] at hdirect
  have e8 : (if d.depth = 8 ∧ 32 = 32 then
        (if (d.alpha ∧ d.aligned) ∧ (n.alpha ∧ n.aligned) then
          Init.conv (.map 4 false 1 false (.toA8 (UInt32.ofNat n.a.shift))) else .nothing)
      else Init.nothing) = .nothing := by
    split
    · rename_i hh
      rw [if_neg (fun k => h8 ⟨hh.1, k.1⟩)]
    · rfl
  rw [e8] at hdirect
  have hN : ∀ y : Init, (Init.nothing).orElse y = y := fun _ => rfl
  simp only [hN] at hdirect
  by_cases h32 : d.depth = 32
  · rw [if_pos h32] at hdirect
    rcases hdirect with hd | hd
    · rcases orElse_conv hd with hd | ⟨h0, hd⟩
      · exact hsimple c h32 hd
      · rcases orElse_conv hd with hd | ⟨-, hd⟩
        · split at hd
          · rename_i hk
            exact hnative c h32 hk.2 h0 hd
          · simp at hd
        · rw [if_pos (by omega)] at hd
          simp only [Init.conv.injEq] at hd
          rw [← hd]
          exact toForeign_sends D hlum
    · exfalso
      have hd := orElse_nothing (orElse_nothing hd)
      rw [if_pos (Or.inr (Or.inr h32))] at hd
      simp at hd
  · rw [if_neg h32, hN, if_neg (fun k => h32 k.1), hN] at hdirect
    rcases hdirect with hd | hd
    · split at hd
      · simp only [Init.conv.injEq] at hd
        rw [← hd]
        exact toForeign_sends D hlum
      · simp at hd
    · split at hd <;> simp at hd

end Blend2D.PixConv
