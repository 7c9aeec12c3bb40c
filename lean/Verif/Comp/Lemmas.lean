import Verif.Pixel.Lemmas
import Verif.Comp.Model
import Verif.Comp.Spec
/-! Lane arithmetic for the compositing proofs. -/
namespace Blend2D.Comp
open Bits Pixel Pixel.Spec Spec

theorem round255_eq (n : Nat) (h : n ≤ 65025) : round255 n = r255 n := by
  unfold round255 r255; omega

/-- Four 16-bit lanes in Horner form. -/
def P4 (a g r b : Nat) : Nat := ((a * 65536 + g) * 65536 + r) * 65536 + b

theorem P4_lt {a g r b : Nat} (ha : a < 65536) (hg : g < 65536) (hr : r < 65536) (hb : b < 65536) :
    P4 a g r b < 18446744073709551616 := by
  unfold P4; omega

theorem P4_add (a g r b a' g' r' b' : Nat) :
    P4 a g r b + P4 a' g' r' b' = P4 (a + a') (g + g') (r + r') (b + b') := by
  unfold P4; eqomega

theorem P4_mul (a g r b m : Nat) : P4 a g r b * m = P4 (a * m) (g * m) (r * m) (b * m) := by
  unfold P4
  simp only [Nat.add_mul, Nat.mul_right_comm _ 65536 m]

theorem shr8_lane (H b : Nat) : (H * 65536 + b) / 256 = H * 256 + b / 256 := by omega

theorem and_u16 (x m1 m0 : Nat) (h : m0 < 65536) :
    x &&& (m1 * 65536 + m0) = ((x / 65536) &&& m1) * 65536 + ((x % 65536) &&& m0) :=
  and_split x m1 m0 16 h

theorem hi_div (H b : Nat) (h : b < 65536) : (H * 65536 + b) / 65536 = H := by omega

theorem hi_mod (H b : Nat) (h : b < 65536) : (H * 65536 + b) % 65536 = b := by omega

/-- `& 0x00FF00FF00FF00FF` of a value in lanes. -/
theorem P4_andFF (a g r b : Nat) (hg : g < 65536) (hr : r < 65536) (hb : b < 65536) :
    P4 a g r b &&& 0x00FF00FF00FF00FF = P4 (a % 256) (g % 256) (r % 256) (b % 256) := by
  have e : 0x00FF00FF00FF00FF = ((255 * 65536 + 255) * 65536 + 255) * 65536 + 255 := by rfl
  unfold P4
  rewrite [e, and_u16 _ _ _ (by omega), and_u16 _ _ _ (by omega), and_u16 _ _ _ (by omega)]
  rewrite [hi_div _ b hb, hi_mod _ b hb, hi_div _ r hr, hi_mod _ r hr, hi_div _ g hg, hi_mod _ g hg]
  simp only [and_255]

theorem P4_and1 (a g r b : Nat) (hg : g < 65536) (hr : r < 65536) (hb : b < 65536) :
    P4 a g r b &&& 0x0001000100010001 = P4 (a % 2) (g % 2) (r % 2) (b % 2) := by
  have e : 0x0001000100010001 = ((1 * 65536 + 1) * 65536 + 1) * 65536 + 1 := by rfl
  unfold P4
  rewrite [e, and_u16 _ _ _ (by omega), and_u16 _ _ _ (by omega), and_u16 _ _ _ (by omega)]
  rewrite [hi_div _ b hb, hi_mod _ b hb, hi_div _ r hr, hi_mod _ r hr, hi_div _ g hg, hi_mod _ g hg]
  simp only [and_1]

theorem P4_or (a g r b a' g' r' b' : Nat) (hg : g < 65536) (hr : r < 65536) (hb : b < 65536)
    (hg' : g' < 65536) (hr' : r' < 65536) (hb' : b' < 65536) :
    P4 a g r b ||| P4 a' g' r' b' = P4 (a ||| a') (g ||| g') (r ||| r') (b ||| b') := by
  unfold P4
  rewrite [or_split16 _ _ _ _ hb hb', or_split16 _ _ _ _ hr hr', or_split16 _ _ _ _ hg hg']
  rfl

/-- Shift by 8: every lane keeps its top byte and receives the low byte of the next lane. -/
theorem P4_shr8 (a g r b : Nat) :
    P4 a g r b / 256 =
      P4 (a / 256) (a % 256 * 256 + g / 256) (g % 256 * 256 + r / 256) (r % 256 * 256 + b / 256) := by
  unfold P4
  rewrite [shr8_lane]
  have h1 : ∀ H x : Nat, H * 65536 + x = (H * 256 + x / 256) * 256 + x % 256 := by intro H x; omega
  eqomega

theorem P4_shr8_andFF (a g r b : Nat) (hg : g < 65536) (hr : r < 65536) (hb : b < 65536) (ha : a < 65536) :
    (P4 a g r b / 256) &&& 0x00FF00FF00FF00FF = P4 (a / 256) (g / 256) (r / 256) (b / 256) := by
  rewrite [P4_shr8 a g r b, P4_andFF _ _ _ _ (by omega) (by omega) (by omega)]
  congr 1 <;> omega

theorem u16x4_80 : (u16x4 0x80).toNat = P4 128 128 128 128 := by decide
theorem u16x4_FF : (u16x4 0xFF).toNat = 0x00FF00FF00FF00FF := by decide
theorem u16x4_1 : (u16x4 0x1).toNat = 0x0001000100010001 := by decide

theorem div255_toNat (x : UInt64) (a g r b : Nat) (hx : x.toNat = P4 a g r b)
    (ha : a ≤ 65025) (hg : g ≤ 65025) (hr : r ≤ 65025) (hb : b ≤ 65025) :
    (div255 x).toNat = P4 (r255 a) (r255 g) (r255 r) (r255 b) := by
  unfold div255
  have hu : (x + u16x4 0x80).toNat = P4 (a + 128) (g + 128) (r + 128) (b + 128) := by
    rewrite [UInt64.toNat_add, hx, u16x4_80, P4_add]
    exact Nat.mod_eq_of_lt (P4_lt (by omega) (by omega) (by omega) (by omega))
  simp only [UInt64.toNat_and, UInt64.toNat_shiftRight, UInt64.toNat_add (x + u16x4 0x80), hu, u16x4_FF,
    UInt64.reduceToNat, Nat.shiftRight_eq_div_pow, Nat.reduceMod, Nat.reducePow]
  rewrite [P4_shr8_andFF _ _ _ _ (by omega) (by omega) (by omega) (by omega), P4_add,
    Nat.mod_eq_of_lt (P4_lt (by omega) (by omega) (by omega) (by omega)),
    P4_shr8_andFF _ _ _ _ (by omega) (by omega) (by omega) (by omega)]
  rfl

theorem or_sat (v : Nat) (h : v ≤ 510) : (v ||| (v / 256 % 2 * 255)) % 256 = min 255 v := by
  have : ∀ w : Fin 511, (w.val ||| (w.val / 256 % 2 * 255)) % 256 = min 255 w.val := by decide +kernel
  exact this ⟨v, by omega⟩

theorem or_sat_lt (v : Nat) (h : v ≤ 510) : (v ||| (v / 256 % 2 * 255)) < 65536 := by
  have : ∀ w : Fin 511, (w.val ||| (w.val / 256 % 2 * 255)) < 65536 := by decide +kernel
  exact this ⟨v, by omega⟩

theorem addus8_toNat (x y : UInt64) (a g r b a' g' r' b' : Nat) (hx : x.toNat = P4 a g r b)
    (hy : y.toNat = P4 a' g' r' b')
    (ha : a ≤ 255) (hg : g ≤ 255) (hr : r ≤ 255) (hb : b ≤ 255)
    (ha' : a' ≤ 255) (hg' : g' ≤ 255) (hr' : r' ≤ 255) (hb' : b' ≤ 255) :
    (addus8 x y).toNat = P4 (min 255 (a + a')) (min 255 (g + g')) (min 255 (r + r')) (min 255 (b + b')) := by
  unfold addus8 mulRepeat
  have hv : (x + y).toNat = P4 (a + a') (g + g') (r + r') (b + b') := by
    rewrite [UInt64.toNat_add, hx, hy, P4_add]
    exact Nat.mod_eq_of_lt (P4_lt (by omega) (by omega) (by omega) (by omega))
  have hm : ((((x + y) >>> 8) &&& u16x4 0x1) * (0xFF : UInt32).toUInt64).toNat =
      P4 ((a + a') / 256 % 2 * 255) ((g + g') / 256 % 2 * 255) ((r + r') / 256 % 2 * 255)
        ((b + b') / 256 % 2 * 255) := by
    simp only [UInt64.toNat_mul, UInt64.toNat_and, UInt64.toNat_shiftRight, hv, u16x4_1,
      UInt64.reduceToNat, UInt32.toNat_toUInt64, UInt32.reduceToNat, Nat.shiftRight_eq_div_pow,
      Nat.reduceMod, Nat.reducePow]
    rewrite [P4_shr8 _ _ _ _, P4_and1 _ _ _ _ (by omega) (by omega) (by omega),
      P4_mul]
    have e : ∀ u v : Nat, (u % 256 * 256 + v / 256) % 2 = v / 256 % 2 := by intro u v; omega
    rewrite [e, e, e]
    exact Nat.mod_eq_of_lt (P4_lt (by omega) (by omega) (by omega) (by omega))
  simp only [UInt64.toNat_and, UInt64.toNat_or, hm, hv, u16x4_FF]
  rewrite [P4_or _ _ _ _ _ _ _ _ (by omega) (by omega) (by omega) (by omega) (by omega) (by omega),
    P4_andFF _ _ _ _ (or_sat_lt _ (by omega)) (or_sat_lt _ (by omega)) (or_sat_lt _ (by omega)),
    or_sat _ (by omega), or_sat _ (by omega), or_sat _ (by omega), or_sat _ (by omega)]
  rfl

theorem unpack_toNat (p : UInt32) :
    (unpack p).toNat = P4 (chan 3 p.toNat) (chan 1 p.toNat) (chan 2 p.toNat) (chan 0 p.toNat) := by
  obtain ⟨h0, h1, h2, h3⟩ := chan_vals p.toNat
  have hp := p.toNat_lt
  unfold unpack
  simp only [UInt64.toNat_or, UInt64.toNat_shiftLeft, UInt32.toNat_toUInt64, UInt32.toNat_and,
    UInt32.reduceToNat, UInt64.reduceToNat, Nat.shiftLeft_eq, Nat.reducePow, Nat.reduceMod,
    and_00FF00FF, and_FF00FF00, ← h0, ← h1, ← h2, ← h3]
  have l0 := chan_le 0 p.toNat
  have l1 := chan_le 1 p.toNat
  have l2 := chan_le 2 p.toNat
  have l3 := chan_le 3 p.toNat
  generalize chan 0 p.toNat = b at *
  generalize chan 1 p.toNat = g at *
  generalize chan 2 p.toNat = r at *
  generalize chan 3 p.toNat = a at *
  clear h0 h1 h2 h3 hp
  have e : (a * 16777216 + g * 256) * 16777216 % 18446744073709551616 = ((a * 65536 + g) * 65536 + 0) * 65536 + 0 := by
    rewrite [Nat.mod_eq_of_lt (by omega)]; eqomega
  have e2 : r * 65536 + b = ((0 * 65536 + 0) * 65536 + r) * 65536 + b := by omega
  rewrite [e, e2]
  have := P4_or 0 0 r b a g 0 0 (by omega) (by omega) (by omega) (by omega) (by omega) (by omega)
  unfold P4 at this ⊢
  rewrite [this]
  simp

theorem low32 (Q P : Nat) (h : P < 4294967296) :
    (Q * 4294967296 + P) % 4294967296 % 4294967296 = P := by
  rewrite [Nat.mod_mod, Nat.add_comm, Nat.add_mul_mod_self_right, Nat.mod_eq_of_lt h]
  rfl

theorem pack_toNat (u : UInt64) (a g r b : Nat) (hu : u.toNat = P4 a g r b)
    (ha : a ≤ 255) (hg : g ≤ 255) (hr : r ≤ 255) (hb : b ≤ 255) :
    (pack u).toNat = pack4 a r g b := by
  unfold pack
  have hmask := fun x => and_mask x 32
  simp only [Nat.reducePow, Nat.reduceSub] at hmask
  simp only [UInt64.toNat_toUInt32, UInt64.toNat_and, UInt64.toNat_or, UInt64.toNat_shiftRight, hu,
    UInt64.reduceToNat, Nat.shiftRight_eq_div_pow, Nat.reduceMod, Nat.reducePow, hmask]
  have e1 : P4 a g r b / 16777216 = a * 16777216 + g * 256 := by
    unfold P4
    rewrite [show 16777216 = 65536 * 256 by rfl, ← Nat.div_div_eq_div_mul]
    rewrite [hi_div _ b (by omega)]
    clear hu
    omega
  have e2 : P4 a g r b = (a * 65536 + g) * 4294967296 + (r * 65536 + b) := by
    unfold P4; eqomega
  rewrite [e1, e2]
  have e3 := or_split 0 (a * 16777216 + g * 256) (a * 65536 + g) (r * 65536 + b) 32 (by omega) (by omega)
  simp only [Nat.zero_mul, Nat.zero_add, Nat.zero_or, Nat.reducePow] at e3
  rewrite [e3, or_lanes _ _ _ _ (by omega) (by omega) (by omega)]
  have hlt : pack4 a r g b < 4294967296 := by unfold pack4; omega
  exact low32 _ _ hlt

theorem mulRepeat_toNat (u : UInt64) (m : UInt32) (a g r b : Nat) (hu : u.toNat = P4 a g r b)
    (ha : a ≤ 255) (hg : g ≤ 255) (hr : r ≤ 255) (hb : b ≤ 255) (hm : m.toNat ≤ 255) :
    (mulRepeat u m).toNat = P4 (a * m.toNat) (g * m.toNat) (r * m.toNat) (b * m.toNat) := by
  unfold mulRepeat
  rewrite [UInt64.toNat_mul, UInt32.toNat_toUInt64, hu, P4_mul]
  have m1 := byte_mul_le ha hm
  have m2 := byte_mul_le hg hm
  have m3 := byte_mul_le hr hm
  have m4 := byte_mul_le hb hm
  exact Nat.mod_eq_of_lt (P4_lt (by omega) (by omega) (by omega) (by omega))

/-- `pack(div255(unpack(p) * m))`: every component multiplied by `m`. -/
theorem mulDiv_toNat (p m : UInt32) (hm : m.toNat ≤ 255) :
    (pack (div255 (mulRepeat (unpack p) m))).toNat =
      pack4 (r255 (chan 3 p.toNat * m.toNat)) (r255 (chan 2 p.toNat * m.toNat))
        (r255 (chan 1 p.toNat * m.toNat)) (r255 (chan 0 p.toNat * m.toNat)) := by
  have l := fun k => chan_le k p.toNat
  have h1 := mulRepeat_toNat (unpack p) m _ _ _ _ (unpack_toNat p) (l 3) (l 1) (l 2) (l 0) hm
  have q := fun k => byte_mul_le (l k) hm
  have h2 := div255_toNat _ _ _ _ _ h1 (q 3) (q 1) (q 2) (q 0)
  exact pack_toNat _ _ _ _ _ h2 (r255_le _ (q 3)) (r255_le _ (q 1)) (r255_le _ (q 2)) (r255_le _ (q 0))

theorem alphaOf_toNat (p : UInt32) : (alphaOf p).toNat = chan 3 p.toNat := by
  unfold alphaOf
  rewrite [(chan_vals p.toNat).2.2.2]
  simp only [UInt32.toNat_and, UInt32.toNat_shiftRight, UInt32.reduceToNat, Nat.shiftRight_eq_div_pow,
    Nat.reducePow, Nat.reduceMod, and_255]

theorem neg255_toNat (x : UInt32) (h : x.toNat ≤ 255) : (neg255 x).toNat = 255 - x.toNat := by
  unfold neg255
  simp only [UInt32.toNat_xor, UInt32.reduceToNat]
  exact xor_255 _ (by omega)

theorem xorFF_toNat (x : UInt32) (h : x.toNat ≤ 255) : (x ^^^ 0xFF).toNat = 255 - x.toNat := by
  simp only [UInt32.toNat_xor, UInt32.reduceToNat]
  exact xor_255 _ (by omega)

end Blend2D.Comp
