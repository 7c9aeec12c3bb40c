import Verif.Util.Bits
import Verif.Pixel.Model
import Verif.Pixel.Spec
/-! Proof machinery for pixel arithmetic. -/
namespace Blend2D.Pixel
open Bits Spec

/-- Exactly rounded division by 255 as a closed `Nat` expression. -/
def r255 (x : Nat) : Nat := (x + 128 + (x + 128) / 256) / 256

theorem r255_nearest (x : Nat) (h : x ≤ 65025) : Nearest (r255 x) x 255 := by
  unfold Nearest r255; omega

theorem r255_le (x : Nat) (h : x ≤ 65025) : r255 x ≤ 255 := by unfold r255; omega

theorem r255_mul_255 (c : Nat) (h : c ≤ 255) : r255 (c * 255) = c := by unfold r255; omega

theorem r255_mono {x y : Nat} (h : x ≤ y) : r255 x ≤ r255 y := by unfold r255; omega

theorem r255_mul_le (c a : Nat) (hc : c ≤ 255) (ha : a ≤ 255) : r255 (c * a) ≤ a := by
  have h1 : c * a ≤ 255 * a := Nat.mul_le_mul_right a hc
  have := r255_mono h1
  rw [Nat.mul_comm 255 a, r255_mul_255 a ha] at this
  exact this

theorem udiv255_toNat (x : UInt32) (h : x.toNat ≤ 65025) : (udiv255 x).toNat = r255 x.toNat := by
  unfold udiv255 r255
  simp only [UInt32.toNat_shiftRight, UInt32.toNat_mul, UInt32.toNat_add, UInt32.reduceToNat,
    Nat.shiftRight_eq_div_pow, Nat.reducePow, Nat.reduceMod]
  generalize x.toNat = n at *
  have e : (n + 128) % 4294967296 * 257 % 4294967296 / 65536 = (n + 128) * 257 / 256 / 256 := by
    rewrite [Nat.div_div_eq_div_mul]
    congr 1; omega
  rw [e]; omega

/-- Exactly rounded division by 65535 as a closed `Nat` expression. -/
def r65535 (x : Nat) : Nat := (x + 32768 + (x + 32768) / 65536) / 65536

theorem r65535_nearest (x : Nat) (h : x ≤ 65535 * 65535) : Nearest (r65535 x) x 65535 := by
  unfold Nearest r65535; omega

theorem udiv65535_toNat (x : UInt32) (h : x.toNat ≤ 65535 * 65535) :
    (udiv65535 x).toNat = r65535 x.toNat := by
  unfold udiv65535 r65535
  simp only [UInt32.toNat_shiftRight, UInt32.toNat_add, UInt32.reduceToNat,
    Nat.shiftRight_eq_div_pow, Nat.reducePow, Nat.reduceMod]
  omega

theorem byte_mul_le {x y : Nat} (hx : x ≤ 255) (hy : y ≤ 255) : x * y ≤ 65025 :=
  Nat.mul_le_mul hx hy

/-- Packing of four bytes. -/
def pack4 (a r g b : Nat) : Nat := a * 16777216 + r * 65536 + g * 256 + b

theorem or_lanes (A R G B : Nat) (hR : R < 256) (hG : G < 256) (hB : B < 256) :
    (A * 16777216 + G * 256) ||| (R * 65536 + B) = pack4 A R G B := by
  have e1 : A * 16777216 + G * 256 = (A * 256) * 65536 + G * 256 := by omega
  rewrite [e1, or_split16 _ _ _ _ (by omega) (by omega), or_disjoint8 _ _ (by omega),
    or_disjoint8 _ _ (by omega)]
  unfold pack4
  apply Nat.le_antisymm <;> omega

/-- The two-lane division step of `cvt_prgb32_8888_from_argb32_8888`. -/
theorem lane_sum (u v : Nat) (hu : u ≤ 65025) (hv : v ≤ 65025) :
    ((((u * 65536 + v) % 4294967296 + 8388736) % 4294967296 +
        (((u * 65536 + v) % 4294967296 + 8388736) % 4294967296 / 256 / 65536 % 256 * 65536 +
          ((u * 65536 + v) % 4294967296 + 8388736) % 4294967296 / 256 % 256)) % 4294967296)
      = (u + 128 + (u + 128) / 256) * 65536 + (v + 128 + (v + 128) / 256) := by
  have e0 : ((u * 65536 + v) % 4294967296 + 8388736) % 4294967296 = (u + 128) * 65536 + (v + 128) := by omega
  rewrite [e0]
  have e1 : ((u + 128) * 65536 + (v + 128)) / 256 = (u + 128) * 256 + (v + 128) / 256 := by omega
  rewrite [e1]
  have e2 : ((u + 128) * 256 + (v + 128) / 256) % 256 = (v + 128) / 256 := by omega
  have e3 : ((u + 128) * 256 + (v + 128) / 256) / 65536 % 256 = (u + 128) / 256 := by omega
  rewrite [e2, e3]
  apply Nat.le_antisymm <;> omega

theorem lane_hi (u v : Nat) (hu : u ≤ 65025) (hv : v ≤ 65025) :
    ((((u * 65536 + v) % 4294967296 + 8388736) % 4294967296 +
        (((u * 65536 + v) % 4294967296 + 8388736) % 4294967296 / 256 / 65536 % 256 * 65536 +
          ((u * 65536 + v) % 4294967296 + 8388736) % 4294967296 / 256 % 256)) % 4294967296) / 16777216 % 256
        = r255 u := by
  rw [lane_sum u v hu hv]
  have : v + 128 + (v + 128) / 256 < 65536 := by omega
  have : u + 128 + (u + 128) / 256 < 65536 := by omega
  unfold r255
  generalize u + 128 + (u + 128) / 256 = U at *
  generalize v + 128 + (v + 128) / 256 = V at *
  have e : (U * 65536 + V) / 16777216 = U / 256 := by
    rewrite [show 16777216 = 65536 * 256 from rfl, ← Nat.div_div_eq_div_mul]
    congr 1; omega
  rw [e]; omega

theorem lane_lo (u v : Nat) (hu : u ≤ 65025) (hv : v ≤ 65025) :
    ((((u * 65536 + v) % 4294967296 + 8388736) % 4294967296 +
        (((u * 65536 + v) % 4294967296 + 8388736) % 4294967296 / 256 / 65536 % 256 * 65536 +
          ((u * 65536 + v) % 4294967296 + 8388736) % 4294967296 / 256 % 256)) % 4294967296) / 256 % 256
        = r255 v := by
  rw [lane_sum u v hu hv]
  have : v + 128 + (v + 128) / 256 < 65536 := by omega
  have : u + 128 + (u + 128) / 256 < 65536 := by omega
  unfold r255; omega

theorem cvtPrgbWith_toNat (v a : UInt32) (ha : a.toNat ≤ 255) :
    (cvtPrgb32FromArgb32With v a).toNat =
      pack4 a.toNat (r255 (v.toNat / 65536 % 256 * a.toNat)) (r255 (v.toNat / 256 % 256 * a.toNat))
        (r255 (v.toNat % 256 * a.toNat)) := by
  have hv := v.toNat_lt
  unfold cvtPrgb32FromArgb32With
  generalize hw : v ||| 0xFF000000 = w
  have hwn : w.toNat = 255 * 16777216 + v.toNat % 16777216 := by
    rw [← hw, UInt32.toNat_or]
    have e : v.toNat = (v.toNat / 2 ^ 24) * 2 ^ 24 + v.toNat % 2 ^ 24 := by omega
    have e2 : (0xFF000000 : UInt32).toNat = 255 * 2 ^ 24 + 0 := by simp
    rw [e2]
    conv => lhs; rw [e]
    rw [or_split _ _ _ _ 24 (Nat.mod_lt _ (by omega)) (by omega), Nat.or_zero]
    have h255 : ∀ y : Fin 256, y.val ||| 255 = 255 := by decide +kernel
    rw [h255 ⟨v.toNat / 2 ^ 24, by omega⟩]
  simp only [UInt32.toNat_or, UInt32.toNat_and, UInt32.toNat_add, UInt32.toNat_mul,
    UInt32.toNat_shiftRight, UInt32.reduceToNat, Nat.shiftRight_eq_div_pow, Nat.reducePow,
    Nat.reduceMod, and_00FF00FF, and_FF00FF00]
  rw [hwn]
  generalize hA : a.toNat = A at *
  generalize hR : v.toNat / 65536 % 256 = R
  generalize hG : v.toNat / 256 % 256 = G
  generalize hB : v.toNat % 256 = B
  have e1 : (255 * 16777216 + v.toNat % 16777216) / 65536 % 256 = R := by omega
  have e2 : (255 * 16777216 + v.toNat % 16777216) % 256 = B := by omega
  have e3 : (255 * 16777216 + v.toNat % 16777216) / 256 / 65536 % 256 = 255 := by omega
  have e4 : (255 * 16777216 + v.toNat % 16777216) / 256 % 256 = G := by omega
  rw [e1, e2, e3, e4]
  have hRA : R * A ≤ 65025 := byte_mul_le (by omega) ha
  have hGA : G * A ≤ 65025 := byte_mul_le (by omega) ha
  have hBA : B * A ≤ 65025 := byte_mul_le (by omega) ha
  have x1 : (R * 65536 + B) * A = (R * A) * 65536 + B * A := by
    rw [Nat.add_mul, Nat.mul_right_comm]
  have x2 : (255 * 65536 + G) * A = (255 * A) * 65536 + G * A := by
    rw [Nat.add_mul, Nat.mul_right_comm]
  rw [x1, x2]
  generalize R * A = RA at *
  generalize G * A = GA at *
  generalize B * A = BA at *
  rw [lane_hi _ _ hRA hBA, lane_lo _ _ hRA hBA, lane_hi _ _ (by omega) hGA, lane_lo _ _ (by omega) hGA]
  have hr1 := r255_le RA hRA
  have hr2 := r255_le GA hGA
  have hr3 := r255_le BA hBA
  have hr4 : r255 (255 * A) = A := by rw [Nat.mul_comm]; exact r255_mul_255 A ha
  rw [hr4]
  rw [show (r255 RA * 16777216 + r255 BA * 256) / 256 = r255 RA * 65536 + r255 BA by omega]
  exact or_lanes _ _ _ _ (by omega) (by omega) (by omega)

/-! ## Unpremultiply -/

theorem rcp_table : ∀ a : Fin 256,
    (unpremultiplyRcp.getD a.val 0).toNat = if a.val = 0 then 0 else 0xFF00FF / a.val := by
  decide +kernel

/-- Exactly rounded `255 * c / a` as computed from the reciprocal. -/
def unp (c a : Nat) : Nat := (c * (if a = 0 then 0 else 0xFF00FF / a) + 32768) / 65536

def unpChk (a c : Nat) : Bool :=
  !(Nat.ble c a) || (Nat.ble (unp c a) 255 && Nat.beq (r255 (unp c a * a)) c &&
    (Nat.beq a 0 || (Nat.ble (2 * (c * 255)) (2 * (unp c a * a) + a) &&
      Nat.ble (2 * (unp c a * a)) (2 * (c * 255) + a))))

theorem unpChk_all : allBelow (fun a => allBelow (fun c => unpChk a c) 256) 256 = true := by
  decide +kernel

/-- The whole table of valid premultiplied components, checked by the kernel. -/
theorem unp_table (a : Nat) (ha : a < 256) (c : Nat) (hc : c < 256) (hca : c ≤ a) :
    unp c a ≤ 255 ∧ r255 (unp c a * a) = c ∧
      (a ≠ 0 → 2 * (c * 255) ≤ 2 * (unp c a * a) + a ∧ 2 * (unp c a * a) ≤ 2 * (c * 255) + a) := by
  have h := allBelow_spec _ _ (allBelow_spec _ _ unpChk_all a ha) c hc
  simp only [unpChk, Bool.or_eq_true, Bool.and_eq_true, Bool.not_eq_true', Nat.beq_eq,
    Nat.ble_eq] at h
  rcases h with h | ⟨⟨h1, h2⟩, h3⟩
  · rw [← Bool.not_eq_true, Nat.ble_eq] at h; omega
  · refine ⟨h1, h2, fun hne => ?_⟩
    rcases h3 with h3 | h3
    · omega
    · exact h3

theorem unpremultiply8_toNat (c a : UInt32) (hc : c.toNat ≤ 255) (ha : a.toNat ≤ 255) :
    (unpremultiply8 c a).toNat = unp c.toNat a.toNat := by
  unfold unpremultiply8 unp
  have ht := rcp_table ⟨a.toNat, by omega⟩
  simp only at ht
  simp only [UInt32.toNat_shiftRight, UInt32.toNat_add, UInt32.toNat_mul, UInt32.reduceToNat,
    Nat.shiftRight_eq_div_pow, Nat.reducePow, Nat.reduceMod, ht]
  have hle : (if a.toNat = 0 then 0 else 0xFF00FF / a.toNat) ≤ 0xFF00FF := by
    split
    · omega
    · exact Nat.div_le_self _ _
  have := Nat.mul_le_mul hc hle
  generalize c.toNat * _ = m at *
  omega

theorem pack_or (A R G B : Nat) (hR : R < 256) (hG : G < 256) (hB : B < 256) :
    ((A * 16777216 ||| R * 65536) ||| G * 256) ||| B = pack4 A R G B := by
  rewrite [or_disjoint24 _ _ (by omega)]
  have e1 : A * 16777216 + R * 65536 = (A * 256 + R) * 65536 := by
    apply Nat.le_antisymm <;> omega
  rewrite [e1, or_disjoint16 _ _ (by omega)]
  have e2 : (A * 256 + R) * 65536 + G * 256 = ((A * 256 + R) * 256 + G) * 256 := by
    apply Nat.le_antisymm <;> omega
  rewrite [e2, or_disjoint8 _ _ (by omega)]
  unfold pack4
  apply Nat.le_antisymm <;> omega

theorem chan_vals (v : Nat) : chan 0 v = v % 256 ∧ chan 1 v = v / 256 % 256 ∧
    chan 2 v = v / 65536 % 256 ∧ chan 3 v = v / 16777216 % 256 := by
  simp [chan]

theorem chan3 (v : UInt32) : chan 3 v.toNat = v.toNat / 16777216 := by
  have := v.toNat_lt
  rw [(chan_vals v.toNat).2.2.2]; omega

theorem chan_pack4 (A R G B : Nat) (hA : A < 256) (hR : R < 256) (hG : G < 256) (hB : B < 256) :
    chan 0 (pack4 A R G B) = B ∧ chan 1 (pack4 A R G B) = G ∧ chan 2 (pack4 A R G B) = R ∧
    chan 3 (pack4 A R G B) = A := by
  obtain ⟨h0, h1, h2, h3⟩ := chan_vals (pack4 A R G B)
  rw [h0, h1, h2, h3]
  unfold pack4
  omega

theorem pack4_chan (v : UInt32) :
    pack4 (chan 3 v.toNat) (chan 2 v.toNat) (chan 1 v.toNat) (chan 0 v.toNat) = v.toNat := by
  have := v.toNat_lt
  obtain ⟨h0, h1, h2, h3⟩ := chan_vals v.toNat
  rw [h0, h1, h2, h3]
  unfold pack4
  omega

theorem cvtPrgb_toNat (v : UInt32) :
    (cvtPrgb32FromArgb32 v).toNat =
      pack4 (chan 3 v.toNat) (r255 (chan 2 v.toNat * chan 3 v.toNat))
        (r255 (chan 1 v.toNat * chan 3 v.toNat)) (r255 (chan 0 v.toNat * chan 3 v.toNat)) := by
  have hlt := v.toNat_lt
  have ha : (v >>> 24).toNat = chan 3 v.toNat := by
    rw [chan3]; simp only [UInt32.toNat_shiftRight, UInt32.reduceToNat, Nat.shiftRight_eq_div_pow, Nat.reduceMod, Nat.reducePow]
  unfold cvtPrgb32FromArgb32
  rw [cvtPrgbWith_toNat _ _ (by rw [ha, chan3]; omega), ha]
  obtain ⟨h0, h1, h2, _⟩ := chan_vals v.toNat
  rw [h0, h1, h2]

theorem chan_le (k v : Nat) : chan k v ≤ 255 := by
  have : chan k v < 256 := Nat.mod_lt _ (by omega)
  omega

theorem cvtArgb_toNat (v : UInt32) (hv : Premultiplied v.toNat) :
    (cvtArgb32FromPrgb32 v).toNat =
      pack4 (chan 3 v.toNat) (unp (chan 2 v.toNat) (chan 3 v.toNat))
        (unp (chan 1 v.toNat) (chan 3 v.toNat)) (unp (chan 0 v.toNat) (chan 3 v.toNat)) := by
  have hlt := v.toNat_lt
  have hA : (v >>> 24).toNat = chan 3 v.toNat := by
    rw [chan3]; simp only [UInt32.toNat_shiftRight, UInt32.reduceToNat, Nat.shiftRight_eq_div_pow, Nat.reduceMod, Nat.reducePow]
  obtain ⟨h0, h1, h2, _⟩ := chan_vals v.toNat
  have hR : ((v >>> 16) &&& 0xFF).toNat = chan 2 v.toNat := by
    rw [h2, UInt32.toNat_and, UInt32.toNat_shiftRight]
    simp only [UInt32.reduceToNat, Nat.shiftRight_eq_div_pow, Nat.reducePow, Nat.reduceMod, and_255]
  have hG : ((v >>> 8) &&& 0xFF).toNat = chan 1 v.toNat := by
    rw [h1, UInt32.toNat_and, UInt32.toNat_shiftRight]
    simp only [UInt32.reduceToNat, Nat.shiftRight_eq_div_pow, Nat.reducePow, Nat.reduceMod, and_255]
  have hB : (v &&& 0xFF).toNat = chan 0 v.toNat := by
    rw [h0, UInt32.toNat_and]
    simp only [UInt32.reduceToNat, and_255]
  have l0 := chan_le 0 v.toNat
  have l1 := chan_le 1 v.toNat
  have l2 := chan_le 2 v.toNat
  have l3 := chan_le 3 v.toNat
  have t0 := (unp_table (chan 3 v.toNat) (by omega) (chan 0 v.toNat) (by omega) (hv 0 (by omega))).1
  have t1 := (unp_table (chan 3 v.toNat) (by omega) (chan 1 v.toNat) (by omega) (hv 1 (by omega))).1
  have t2 := (unp_table (chan 3 v.toNat) (by omega) (chan 2 v.toNat) (by omega) (hv 2 (by omega))).1
  unfold cvtArgb32FromPrgb32
  simp only [UInt32.toNat_or, UInt32.toNat_shiftLeft, UInt32.reduceToNat, Nat.shiftLeft_eq, Nat.reducePow,
    Nat.reduceMod]
  rw [unpremultiply8_toNat _ _ (by omega) (by omega), unpremultiply8_toNat _ _ (by omega) (by omega),
    unpremultiply8_toNat _ _ (by omega) (by omega), hA, hR, hG, hB]
  rw [Nat.mod_eq_of_lt (by omega), Nat.mod_eq_of_lt (by omega), Nat.mod_eq_of_lt (by omega)]
  exact pack_or _ _ _ _ (by omega) (by omega) (by omega)

end Blend2D.Pixel
