import Verif.Qoi.Lemmas
/-! Lane arithmetic of the QOI pixel helpers. -/
namespace Blend2D.Qoi
open Bits Pixel Pixel.Spec
open Comp (P4 P4_lt P4_add P4_andFF P4_or hi_div hi_mod)

/-- Unpacked form of a pixel: lanes alpha, green, red, blue. -/
def U (p : UInt32) : Nat := P4 (chan 3 p.toNat) (chan 1 p.toNat) (chan 2 p.toNat) (chan 0 p.toNat)

theorem P4_congr {a g r b a' g' r' b' : Nat} (ha : a = a') (hg : g = g') (hr : r = r') (hb : b = b') :
    P4 a g r b = P4 a' g' r' b' := by subst ha hg hr hb; rfl

theorem or_low (x y : Nat) : ((x * 256) ||| y) % 256 = y % 256 := by
  have := Nat.or_mod_two_pow (a := x * 256) (b := y) (n := 8)
  simpa using this

theorem unpackPx_toNat (p : UInt32) : (unpackPx p).toNat = U p := by
  have hp := pack4_chan p
  have l := fun k => chan_le k p.toNat
  have l0 := l 0
  have l1 := l 1
  have l2 := l 2
  have l3 := l 3
  unfold unpackPx U
  simp only [UInt64.toNat_and, UInt64.toNat_or, UInt64.toNat_shiftLeft, UInt32.toNat_toUInt64, UInt64.reduceToNat,
    Nat.shiftLeft_eq, Nat.reduceMod, Nat.reducePow]
  generalize chan 0 p.toNat = b at *
  generalize chan 1 p.toNat = g at *
  generalize chan 2 p.toNat = r at *
  generalize chan 3 p.toNat = a at *
  rewrite [← hp]
  clear hp l
  unfold pack4
  have e1 : (a * 16777216 + r * 65536 + g * 256 + b) * 16777216 % 18446744073709551616 =
      P4 a (r * 256 + g) (b * 256) 0 := by
    unfold P4
    rewrite [Nat.mod_eq_of_lt (by omega)]; eqomega
  have e2 : a * 16777216 + r * 65536 + g * 256 + b = P4 0 0 (a * 256 + r) (g * 256 + b) := by
    unfold P4; omega
  rewrite [e1, e2, P4_or _ _ _ _ _ _ _ _ (by omega) (by omega) (by omega) (by omega) (by omega) (by omega),
    P4_andFF _ _ _ _ ?_ ?_ ?_]
  · rewrite [or_low]; simp only [Nat.or_zero, Nat.zero_or]
    clear e1 e2
    exact P4_congr (by omega) (by omega) (by omega) (by omega)
  · exact Nat.or_lt_two_pow (n := 16) (by omega) (by omega)
  · exact Nat.or_lt_two_pow (n := 16) (by omega) (by omega)
  · exact Nat.or_lt_two_pow (n := 16) (by omega) (by omega)

/-- The 32-bit value rebuilt by `pack`. -/
def rebuild (u : UInt64) : UInt32 := (u >>> 24).toUInt32 ||| (u &&& 0xFFFFFFFF).toUInt32

theorem rebuild_toNat (u : UInt64) (a g r b : Nat) (h : u.toNat = P4 a g r b)
    (ha : a < 256) (hg : g < 256) (hr : r < 256) (hb : b < 256) : (rebuild u).toNat = pack4 a r g b := by
  unfold rebuild
  simp only [UInt32.toNat_or, UInt64.toNat_toUInt32, UInt64.toNat_and, UInt64.toNat_shiftRight, h,
    UInt64.reduceToNat, Nat.shiftRight_eq_div_pow, Nat.reduceMod, Nat.reducePow]
  have e0 : P4 a g r b &&& 4294967295 = r * 65536 + b := by
    rewrite [and_mask _ 32]
    unfold P4
    rewrite [show 2 ^ 32 = 65536 * 65536 by rfl, Nat.mod_mul, hi_mod _ b (by omega), hi_div _ b (by omega),
      hi_mod _ r (by omega)]
    omega
  have e1 : P4 a g r b / 16777216 % 4294967296 = a * 16777216 + g * 256 := by
    unfold P4
    rewrite [show (16777216:Nat) = 65536 * 256 by rfl, ← Nat.div_div_eq_div_mul, hi_div _ b (by omega)]
    omega
  rewrite [e0, e1, Nat.mod_eq_of_lt (by omega : r * 65536 + b < 4294967296)]
  unfold pack4
  have o1 := or_split (a * 256) (g * 256) r b 16 (by omega) (by omega)
  have o2 := or_split a 0 0 r 8 (by omega) (by omega)
  have o3 := or_split g 0 0 b 8 (by omega) (by omega)
  simp only [Nat.reducePow, Nat.zero_or, Nat.or_zero, Nat.zero_mul, Nat.zero_add, Nat.add_zero] at o1 o2 o3
  rewrite [show a * 16777216 + g * 256 = a * 256 * 65536 + g * 256 by omega, o1, o2, o3]
  omega

theorem rebuild_unpack (p : UInt32) : rebuild (unpackPx p) = p := by
  apply UInt32.toNat_inj.mp
  have l := fun k => chan_le k p.toNat
  have l0 := l 0
  have l1 := l 1
  have l2 := l 2
  have l3 := l 3
  rw [rebuild_toNat (unpackPx p) _ _ _ _ (unpackPx_toNat p) (by omega) (by omega) (by omega) (by omega)]
  exact pack4_chan p

theorem packPx_unpack_true (p : UInt32) : packPx true (unpackPx p) = cvtPrgb32FromArgb32 p := by
  have := rebuild_unpack p
  unfold rebuild at this
  unfold packPx
  simp only [this, if_true]

theorem packPx_unpack_false (p : UInt32) : packPx false (unpackPx p) = p ||| 0xFF000000 := by
  have := rebuild_unpack p
  unfold rebuild at this
  unfold packPx
  simp only [this, Bool.false_eq_true, if_false]

/-- An unpacked value is determined by its lanes. -/
theorem eq_unpack (u : UInt64) (p : UInt32) (h : u.toNat = U p) : u = unpackPx p := by
  apply UInt64.toNat_inj.mp; rw [unpackPx_toNat, h]

theorem hash_arith (S M Z : Nat) (hM : M < 288230376151711744) :
    (S * 288230376151711744 + M + Z * 18446744073709551616) % 18446744073709551616 / 288230376151711744
      = S % 64 := by
  rewrite [Nat.add_mul_mod_self_right, show (18446744073709551616 : Nat) = 288230376151711744 * 64 by rfl,
    Nat.mod_mul_right_div_self]
  congr 1
  rewrite [Nat.mul_comm, Nat.mul_add_div (by decide), Nat.div_eq_of_lt hM]
  rfl

theorem lane_bound (A L : Nat) (hA : A < 65536) (hL : L < 4398046511104) :
    A * 4398046511104 + L < 288230376151711744 := by
  have : A * 4398046511104 ≤ 65535 * 4398046511104 := Nat.mul_le_mul_right _ (by omega)
  refine Nat.lt_of_lt_of_le (Nat.add_lt_add_of_le_of_lt this hL) ?_
  decide

theorem hash64_eq (u : UInt64) (a g r b : Nat) (h : u.toNat = P4 a g r b)
    (_ha : a < 256) (hg : g < 256) (hr : r < 256) (hb : b < 256) :
    hash64 u = (3 * r + 5 * g + 7 * b + 11 * a) % 64 := by
  unfold hash64
  have hk : (((11 : UInt64) <<< 10) + ((5 : UInt64) <<< 26) + ((3 : UInt64) <<< 42) + ((7 : UInt64) <<< 58)).toNat
      = 2017625827537071104 := by decide +kernel
  simp only [UInt64.toNat_shiftRight, UInt64.toNat_mul, h, hk, UInt64.reduceToNat, Nat.shiftRight_eq_div_pow,
    Nat.reduceMod, Nat.reducePow]
  have e : P4 a g r b * 2017625827537071104 =
      (3 * r + 5 * g + 7 * b + 11 * a) * 288230376151711744 +
      ((11 * g + 5 * r + 3 * b) * 4398046511104 + (11 * r * 67108864 + 11 * b * 1024 + 5 * b * 67108864)) +
      (5 * 1024 * a + 3 * 67108864 * a + 7 * 4398046511104 * a + 3 * 1024 * g + 7 * 67108864 * g + 7 * 1024 * r)
        * 18446744073709551616 := by
    unfold P4
    eqomega
  rewrite [e]
  refine hash_arith _ _ _ ?_
  clear e hk h
  exact lane_bound _ _ (by omega) (by omega)

theorem hash_unpack (p : UInt32) : hash64 (unpackPx p) = hashRgba32 p := rfl

theorem hash_lt (p : UInt32) : hashRgba32 p < 64 := by
  have l := fun k => chan_le k p.toNat
  have l0 := l 0
  have l1 := l 1
  have l2 := l 2
  have l3 := l 3
  rw [← hash_unpack, hash64_eq _ _ _ _ _ (unpackPx_toNat p) (by omega) (by omega) (by omega) (by omega)]
  omega

theorem unpackRGBA_toNat (r g b a : UInt8) : (unpackRGBA r g b a).toNat = P4 a.toNat g.toNat r.toNat b.toNat := by
  have ha := a.toNat_lt
  have hg := g.toNat_lt
  have hr := r.toNat_lt
  have hb := b.toNat_lt
  unfold unpackRGBA
  simp only [UInt64.toNat_or, UInt64.toNat_shiftLeft, UInt8.toNat_toUInt64, UInt64.reduceToNat,
    Nat.shiftLeft_eq, Nat.reduceMod, Nat.reducePow]
  generalize a.toNat = a at *
  generalize g.toNat = g at *
  generalize r.toNat = r at *
  generalize b.toNat = b at *
  have e1 : a * 281474976710656 % 18446744073709551616 = P4 a 0 0 0 := by
    unfold P4; rewrite [Nat.mod_eq_of_lt (by omega)]; eqomega
  have e2 : g * 4294967296 % 18446744073709551616 = P4 0 g 0 0 := by
    unfold P4; rewrite [Nat.mod_eq_of_lt (by omega)]; eqomega
  have e3 : r * 65536 % 18446744073709551616 = P4 0 0 r 0 := by
    unfold P4; rewrite [Nat.mod_eq_of_lt (by omega)]; eqomega
  have e4 : b = P4 0 0 0 b := by
    unfold P4; omega
  rewrite [e1, e2, e3]
  conv => lhs; rhs; rewrite [e4]
  clear e1 e2 e3 e4
  rewrite [P4_or _ _ _ _ _ _ _ _ (by omega) (by omega) (by omega) (by omega) (by omega) (by omega)]
  simp only [Nat.or_zero, Nat.zero_or]
  rewrite [P4_or _ _ _ _ _ _ _ _ (by omega) (by omega) (by omega) (by omega) (by omega) (by omega)]
  simp only [Nat.or_zero, Nat.zero_or]
  rewrite [P4_or _ _ _ _ _ _ _ _ (by omega) (by omega) (by omega) (by omega) (by omega) (by omega)]
  simp only [Nat.or_zero, Nat.zero_or]

theorem and_lane (A L m1 m0 : Nat) (h : m0 < 281474976710656) (hL : L < 281474976710656) :
    (A * 281474976710656 + L) &&& (m1 * 281474976710656 + m0) = (A &&& m1) * 281474976710656 + (L &&& m0) := by
  rewrite [and_split _ m1 m0 48 h]
  have e1 : (A * 281474976710656 + L) / 2 ^ 48 = A := by
    rewrite [Nat.mul_comm, show (2:Nat) ^ 48 = 281474976710656 by rfl, Nat.mul_add_div (by decide), Nat.div_eq_of_lt hL]
    rfl
  have e2 : (A * 281474976710656 + L) % 2 ^ 48 = L := by
    rewrite [show (2:Nat) ^ 48 = 281474976710656 by rfl, Nat.mul_comm, Nat.mul_add_mod, Nat.mod_eq_of_lt hL]; rfl
  rewrite [e1, e2]; rfl

/-- Low three lanes. -/
def P3 (g r b : Nat) : Nat := (g * 65536 + r) * 65536 + b

theorem P4_P3 (a g r b : Nat) : P4 a g r b = a * 281474976710656 + P3 g r b := by
  unfold P4 P3; eqomega

theorem P3_lt {g r b : Nat} (hg : g < 65536) (hr : r < 65536) (hb : b < 65536) : P3 g r b < 281474976710656 := by
  unfold P3; omega

theorem opRGB_toNat (u v : UInt64) (a g r b a' g' r' b' : Nat) (hu : u.toNat = P4 a g r b)
    (hv : v.toNat = P4 a' g' r' b') (ha : a < 256) (hg : g < 256) (hr : r < 256) (hb : b < 256)
    (ha' : a' < 256) (hg' : g' < 256) (hr' : r' < 256) (hb' : b' < 256) :
    (opRGBX u 0xFE v).toNat = P4 a g' r' b' := by
  unfold opRGBX
  have hm : (((0xFE : UInt32) + 1).toUInt64 <<< 48).toNat = 255 * 281474976710656 + 0 := by decide +kernel
  have hm' : (~~~(((0xFE : UInt32) + 1).toUInt64 <<< 48)).toNat = 65280 * 281474976710656 + 281474976710655 := by
    decide +kernel
  simp only [UInt64.toNat_or, UInt64.toNat_and, hm, hm', hu, hv]
  rewrite [P4_P3, P4_P3, P4_P3, and_lane _ _ _ _ (by decide) (P3_lt (by omega) (by omega) (by omega)),
    and_lane _ _ _ _ (by decide) (P3_lt (by omega) (by omega) (by omega)), and_255]
  have e : a' &&& 65280 = 0 := by
    have := and_split a' 255 0 8 (by decide)
    rewrite [show 255 * 2 ^ 8 + 0 = 65280 by rfl] at this
    rewrite [this, show a' / 2 ^ 8 = 0 by omega]; simp
  have e' : P3 g' r' b' &&& 281474976710655 = P3 g' r' b' := by
    have := and_mask (P3 g' r' b') 48
    rewrite [show 2 ^ 48 - 1 = 281474976710655 by rfl] at this
    rewrite [this]
    exact Nat.mod_eq_of_lt (P3_lt (by omega) (by omega) (by omega))
  rewrite [e, e', Nat.and_zero, Nat.mod_eq_of_lt ha, Nat.zero_mul, Nat.zero_add, Nat.add_zero]
  have := or_disjoint (a * 281474976710656) (P3 g' r' b') 48 (by simp)
    (P3_lt (by omega) (by omega) (by omega))
  exact this

theorem opRGBA_toNat (u v : UInt64) (a g r b a' g' r' b' : Nat) (hu : u.toNat = P4 a g r b)
    (hv : v.toNat = P4 a' g' r' b') (ha : a < 256) (hg : g < 256) (hr : r < 256) (hb : b < 256)
    (ha' : a' < 256) (hg' : g' < 256) (hr' : r' < 256) (hb' : b' < 256) :
    (opRGBX u 0xFF v).toNat = P4 a' g' r' b' := by
  unfold opRGBX
  have hm : (((0xFF : UInt32) + 1).toUInt64 <<< 48).toNat = 256 * 281474976710656 + 0 := by decide +kernel
  have hm' : (~~~(((0xFF : UInt32) + 1).toUInt64 <<< 48)).toNat = 65279 * 281474976710656 + 281474976710655 := by
    decide +kernel
  simp only [UInt64.toNat_or, UInt64.toNat_and, hm, hm', hu, hv]
  rewrite [P4_P3, P4_P3, and_lane _ _ _ _ (by decide) (P3_lt (by omega) (by omega) (by omega)),
    and_lane _ _ _ _ (by decide) (P3_lt (by omega) (by omega) (by omega))]
  have e0 : a &&& 256 = 0 := by
    have := and_split a 1 0 8 (by decide)
    rewrite [show 1 * 2 ^ 8 + 0 = 256 by rfl] at this
    rewrite [this, show a / 2 ^ 8 = 0 by omega]; simp
  have e : a' &&& 65279 = a' := by
    have := and_split a' 254 255 8 (by decide)
    rewrite [show 254 * 2 ^ 8 + 255 = 65279 by rfl] at this
    rewrite [this, show a' / 2 ^ 8 = 0 by omega, and_255]; simp; omega
  have e' : P3 g' r' b' &&& 281474976710655 = P3 g' r' b' := by
    have := and_mask (P3 g' r' b') 48
    rewrite [show 2 ^ 48 - 1 = 281474976710655 by rfl] at this
    rewrite [this]
    exact Nat.mod_eq_of_lt (P3_lt (by omega) (by omega) (by omega))
  rewrite [e, e', e0, Nat.and_zero, Nat.zero_mul, Nat.zero_add, Nat.zero_or]
  rfl

theorem lut_diff : ∀ i : Fin 64, (lutValue (UInt32.ofNat i.val)).toNat =
    pack4 ((i.val / 16 + 254) % 256) ((i.val / 4 % 4 + 254) % 256) ((i.val % 4 + 254) % 256) 0 := by
  decide +kernel

theorem lut_luma : ∀ i : Fin 64, (lutValue (UInt32.ofNat (64 + i.val))).toNat =
    pack4 ((i.val + 216) % 256) ((i.val + 224) % 256) ((i.val + 216) % 256) 255 := by
  decide +kernel

theorem luma_low : ∀ b : Fin 256, ((((UInt32.ofNat b.val) ||| ((UInt32.ofNat b.val) <<< 12)) &&& 0x000F000F).toUInt64).toNat
    = b.val / 16 * 65536 + b.val % 16 := by
  decide +kernel

theorem delta_sum (u : UInt64) (x : UInt64) (q : UInt32) (a g r b xr xb dr dg db : Nat) (hu : u.toNat = P4 a g r b)
    (hx : x.toNat = P4 0 0 xr xb) (hq : q.toNat = pack4 0 dr dg db)
    (ha : a < 256) (hg : g < 256) (hr : r < 256) (hb : b < 256)
    (hxr : xr < 256) (hxb : xb < 256) (hdr : dr < 256) (hdg : dg < 256) (hdb : db < 256) :
    ((u + x + unpackPx q) &&& 0x00FF00FF00FF00FF).toNat =
      P4 a ((g + dg) % 256) ((r + xr + dr) % 256) ((b + xb + db) % 256) := by
  have hc : (unpackPx q).toNat = P4 0 dg dr db := by
    rewrite [unpackPx_toNat]
    unfold U
    have := chan_pack4 0 dr dg db (by omega) hdr hdg hdb
    rewrite [hq]
    rewrite [this.1, this.2.1, this.2.2.1, this.2.2.2]
    rfl
  have h1 : (u + x).toNat = P4 a g (r + xr) (b + xb) := by
    rewrite [UInt64.toNat_add, hu, hx, P4_add]
    exact Nat.mod_eq_of_lt (P4_lt (by omega) (by omega) (by omega) (by omega))
  have h2 : (u + x + unpackPx q).toNat = P4 a (g + dg) (r + xr + dr) (b + xb + db) := by
    rewrite [UInt64.toNat_add, h1, hc, P4_add]
    exact Nat.mod_eq_of_lt (P4_lt (by omega) (by omega) (by omega) (by omega))
  simp only [UInt64.toNat_and, h2, UInt64.reduceToNat]
  rewrite [P4_andFF _ _ _ _ (by omega) (by omega) (by omega)]
  exact P4_congr (by omega) rfl rfl rfl

theorem pack4_shr8 (r g b l : Nat) (hl : l < 256) : pack4 r g b l / 256 = pack4 0 r g b := by
  unfold pack4; omega

theorem pack4_and_byte (x r g b l : Nat) (hx : x < 256) (hl : l < 256) :
    x &&& pack4 r g b l = x &&& l := by
  unfold pack4
  have := and_split x (r * 65536 + g * 256 + b) l 8 (by omega)
  rewrite [show (r * 65536 + g * 256 + b) * 2 ^ 8 + l = r * 16777216 + g * 65536 + b * 256 + l by omega] at this
  rewrite [this, show x / 2 ^ 8 = 0 by omega, show x % 2 ^ 8 = x by omega]
  simp

theorem sub64 (b0 : UInt8) (i : Nat) (h : b0.toNat = 64 + i) (_hi : i < 192) :
    b0.toUInt32 - 64 = UInt32.ofNat i := by
  apply UInt32.toNat_inj.mp
  rw [UInt32.toNat_sub, UInt8.toNat_toUInt32, h]
  simp
  omega

theorem applyDelta_diff (u : UInt64) (b0 b1 : UInt8) (i a g r b : Nat) (h0 : b0.toNat = 64 + i) (hi : i < 64)
    (hu : u.toNat = P4 a g r b) (ha : a < 256) (hg : g < 256) (hr : r < 256) (hb : b < 256) :
    (applyDelta u b0 b1).toNat = P4 a ((g + (i / 4 % 4 + 254) % 256) % 256) ((r + (i / 16 + 254) % 256) % 256)
      ((b + (i % 4 + 254) % 256) % 256) := by
  have hl := lut_diff ⟨i, hi⟩
  simp only at hl
  unfold applyDelta
  rewrite [sub64 b0 i h0 (by omega)]
  generalize lutValue (UInt32.ofNat i) = q at hl
  simp only
  have hz : b1.toUInt32 &&& q = 0 := by
    apply UInt32.toNat_inj.mp
    rewrite [UInt32.toNat_and, UInt8.toNat_toUInt32, hl, pack4_and_byte _ _ _ _ _ b1.toNat_lt (by omega), Nat.and_zero]
    rfl
  rewrite [hz]
  have hq : (q >>> 8).toNat = pack4 0 ((i / 16 + 254) % 256) ((i / 4 % 4 + 254) % 256) ((i % 4 + 254) % 256) := by
    simp only [UInt32.toNat_shiftRight, UInt32.reduceToNat, Nat.reduceMod, Nat.shiftRight_eq_div_pow, Nat.reducePow,
      hl]
    exact pack4_shr8 _ _ _ _ (by omega)
  rewrite [delta_sum u _ (q >>> 8) a g r b 0 0 _ _ _ hu (by decide +kernel) hq ha hg hr hb
    (by omega) (by omega) (by omega) (by omega) (by omega)]
  rfl

theorem applyDelta_luma (u : UInt64) (b0 b1 : UInt8) (i a g r b : Nat) (h0 : b0.toNat = 128 + i) (hi : i < 64)
    (hu : u.toNat = P4 a g r b) (ha : a < 256) (hg : g < 256) (hr : r < 256) (hb : b < 256) :
    (applyDelta u b0 b1).toNat = P4 a ((g + (i + 224) % 256) % 256)
      ((r + b1.toNat / 16 + (i + 216) % 256) % 256) ((b + b1.toNat % 16 + (i + 216) % 256) % 256) := by
  have hl := lut_luma ⟨i, hi⟩
  simp only at hl
  have hb1 := b1.toNat_lt
  unfold applyDelta
  rewrite [sub64 b0 (64 + i) (by omega) (by omega)]
  generalize lutValue (UInt32.ofNat (64 + i)) = q at hl
  simp only
  have hz : b1.toUInt32 &&& q = UInt32.ofNat b1.toNat := by
    apply UInt32.toNat_inj.mp
    rewrite [UInt32.toNat_and, UInt8.toNat_toUInt32, hl, pack4_and_byte _ _ _ _ _ b1.toNat_lt (by omega), and_255]
    simp
  rewrite [hz]
  have hlow := luma_low ⟨b1.toNat, hb1⟩
  simp only at hlow
  have hq : (q >>> 8).toNat = pack4 0 ((i + 216) % 256) ((i + 224) % 256) ((i + 216) % 256) := by
    simp only [UInt32.toNat_shiftRight, UInt32.reduceToNat, Nat.reduceMod, Nat.shiftRight_eq_div_pow, Nat.reducePow,
      hl]
    exact pack4_shr8 _ _ _ _ (by omega)
  have hx : P4 0 0 (b1.toNat / 16) (b1.toNat % 16) = b1.toNat / 16 * 65536 + b1.toNat % 16 := by
    unfold P4; omega
  exact delta_sum u _ (q >>> 8) a g r b (b1.toNat / 16) (b1.toNat % 16) _ _ _ hu (hlow.trans hx.symm) hq ha hg hr hb
    (by omega) (by omega) (by omega) (by omega) (by omega)

theorem hashA8_eq (a : UInt32) (_h : a.toNat ≤ 255) : hashA8 a = (3 * 255 + 5 * 255 + 7 * 255 + 11 * a.toNat) % 64 := by
  unfold hashA8
  simp only [UInt32.toNat_and, UInt32.toNat_add, UInt32.toNat_mul, UInt32.reduceToNat, Nat.reduceMul,
    Nat.reduceAdd, and_63]
  omega

end Blend2D.Qoi
