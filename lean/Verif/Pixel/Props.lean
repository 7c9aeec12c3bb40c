import Verif.Pixel.Tables16
import Verif.Pixel.Lemmas64
/-! # C09, C10, C38: scalar pixel arithmetic -/
namespace Blend2D.Pixel
open Spec

/-- **C09**: `udiv255` of any product of two bytes is the exactly rounded quotient. -/
theorem C09_udiv255_exact (x y : UInt32) (hx : x.toNat ≤ 255) (hy : y.toNat ≤ 255) :
    Nearest (udiv255 (x * y)).toNat (x.toNat * y.toNat) 255 ∧ (udiv255 (x * y)).toNat ≤ 255 := by
  have hm : x.toNat * y.toNat ≤ 65025 := byte_mul_le hx hy
  have e : (x * y).toNat = x.toNat * y.toNat := by
    rw [UInt32.toNat_mul]; omega
  rw [udiv255_toNat _ (by omega), e]
  exact ⟨r255_nearest _ hm, r255_le _ hm⟩

example : (udiv255 (200 * 100)).toNat = 78 ∧ Nearest 78 20000 255 := by
  constructor
  · decide
  · unfold Nearest; omega

/-- **C09**: multiplying by full alpha is the identity, by zero alpha gives zero. -/
theorem C09_udiv255_neutral (c : UInt32) (h : c.toNat ≤ 255) :
    udiv255 (c * 255) = c ∧ udiv255 (c * 0) = 0 := by
  have e : (c * 255).toNat = c.toNat * 255 := by
    rw [UInt32.toNat_mul]; simp only [UInt32.reduceToNat]; omega
  constructor
  · apply UInt32.toNat.inj
    rw [udiv255_toNat _ (by omega), e, r255_mul_255 _ h]
  · have : c * 0 = 0 := by simp
    rw [this]; decide

/-- **C09**: `udiv65535` of any product of two 16-bit components is the exactly rounded quotient. -/
theorem C09_udiv65535_exact (x y : UInt32) (hx : x.toNat ≤ 65535) (hy : y.toNat ≤ 65535) :
    Nearest (udiv65535 (x * y)).toNat (x.toNat * y.toNat) 65535 := by
  have hm : x.toNat * y.toNat ≤ 65535 * 65535 := Nat.mul_le_mul hx hy
  have e : (x * y).toNat = x.toNat * y.toNat := by
    rw [UInt32.toNat_mul]; omega
  rw [udiv65535_toNat _ (by omega), e]
  exact r65535_nearest _ hm

example : (udiv65535 (65535 * 65535)).toNat = 65535 := by decide

/-- **C10**: premultiplication keeps alpha, every colour component is the exactly rounded
`c * a / 255`, and the result is a valid premultiplied pixel - for every 32-bit input. -/
theorem C10_premultiply_exact (v : UInt32) :
    chan 3 (cvtPrgb32FromArgb32 v).toNat = chan 3 v.toNat ∧
    (∀ k < 3, Nearest (chan k (cvtPrgb32FromArgb32 v).toNat) (chan k v.toNat * chan 3 v.toNat) 255) ∧
    Premultiplied (cvtPrgb32FromArgb32 v).toNat := by
  have l := fun k => chan_le k v.toNat
  have m := fun k => byte_mul_le (l k) (l 3)
  have r := fun k => r255_le _ (m k)
  have q := fun k => r255_mul_le _ _ (l k) (l 3)
  have n := fun k => r255_nearest _ (m k)
  have l3 := l 3
  have r0 := r 0
  have r1 := r 1
  have r2 := r 2
  obtain ⟨c0, c1, c2, c3⟩ := chan_pack4 (chan 3 v.toNat) (r255 (chan 2 v.toNat * chan 3 v.toNat))
    (r255 (chan 1 v.toNat * chan 3 v.toNat)) (r255 (chan 0 v.toNat * chan 3 v.toNat))
    (by omega) (by omega) (by omega) (by omega)
  rw [cvtPrgb_toNat]
  refine ⟨c3, ?_, ?_⟩
  · intro k hk
    match k, hk with
    | 0, _ => rw [c0]; exact n 0
    | 1, _ => rw [c1]; exact n 1
    | 2, _ => rw [c2]; exact n 2
  · intro k hk
    rw [c3]
    match k, hk with
    | 0, _ => rw [c0]; exact q 0
    | 1, _ => rw [c1]; exact q 1
    | 2, _ => rw [c2]; exact q 2

example : cvtPrgb32FromArgb32 0x80FF4020 = 0x80802010 := by decide

/-- **C10**: unpremultiplying a valid premultiplied pixel keeps alpha and yields for every colour the
exactly rounded `255 * c / a` (when alpha is not zero). -/
theorem C10_unpremultiply_exact (v : UInt32) (hv : Premultiplied v.toNat) :
    chan 3 (cvtArgb32FromPrgb32 v).toNat = chan 3 v.toNat ∧
    (chan 3 v.toNat ≠ 0 → ∀ k < 3,
      Nearest (chan k (cvtArgb32FromPrgb32 v).toNat) (chan k v.toNat * 255) (chan 3 v.toNat)) := by
  have l := fun k => chan_le k v.toNat
  have l3 := l 3
  have t := fun k (hk : k < 3) => unp_table (chan 3 v.toNat) (by omega) (chan k v.toNat)
    (by have := l k; omega) (hv k hk)
  have t0 := (t 0 (by omega)).1
  have t1 := (t 1 (by omega)).1
  have t2 := (t 2 (by omega)).1
  obtain ⟨c0, c1, c2, c3⟩ := chan_pack4 (chan 3 v.toNat) (unp (chan 2 v.toNat) (chan 3 v.toNat))
    (unp (chan 1 v.toNat) (chan 3 v.toNat)) (unp (chan 0 v.toNat) (chan 3 v.toNat))
    (by omega) (by omega) (by omega) (by omega)
  rw [cvtArgb_toNat v hv]
  refine ⟨c3, fun hne k hk => ?_⟩
  have tk := (t k hk).2.2 hne
  obtain rfl | rfl | rfl : k = 0 ∨ k = 1 ∨ k = 2 := by omega
  · rewrite [c0]; exact tk
  · rewrite [c1]; exact tk
  · rewrite [c2]; exact tk

/-- **C10**: premultiply after unpremultiply is the identity on every valid premultiplied pixel. -/
theorem C10_premultiply_unpremultiply (v : UInt32) (hv : Premultiplied v.toNat) :
    cvtPrgb32FromArgb32 (cvtArgb32FromPrgb32 v) = v := by
  have l := fun k => chan_le k v.toNat
  have l3 := l 3
  have t := fun k (hk : k < 3) => unp_table (chan 3 v.toNat) (by omega) (chan k v.toNat)
    (by have := l k; omega) (hv k hk)
  have t0 := t 0 (by omega)
  have t1 := t 1 (by omega)
  have t2 := t 2 (by omega)
  apply UInt32.toNat.inj
  obtain ⟨c0, c1, c2, c3⟩ := chan_pack4 (chan 3 v.toNat) (unp (chan 2 v.toNat) (chan 3 v.toNat))
    (unp (chan 1 v.toNat) (chan 3 v.toNat)) (unp (chan 0 v.toNat) (chan 3 v.toNat))
    (by omega) (by omega) (by omega) (by omega)
  rw [cvtPrgb_toNat, cvtArgb_toNat v hv, c0, c1, c2, c3, t0.2.1, t1.2.1, t2.2.1, pack4_chan]

example : Premultiplied (0x80402010 : UInt32).toNat ∧
    cvtArgb32FromPrgb32 0x80402010 = 0x80804020 := by
  constructor
  · intro k hk
    match k, hk with
    | 0, _ => decide +kernel
    | 1, _ => decide +kernel
    | 2, _ => decide +kernel
  · decide +kernel

/-- **C09**: the packed division divides both 32-bit lanes with exact rounding. -/
theorem C09_udiv65535_packed_exact (u v : Nat) (hu : u ≤ 65535 * 65535) (hv : v ≤ 65535 * 65535)
    (x : UInt64) (hx : x.toNat = u * 4294967296 + v) :
    Nearest ((udiv65535Packed x).toNat / 4294967296) u 65535 ∧
    Nearest ((udiv65535Packed x).toNat % 4294967296) v 65535 := by
  have h := udiv65535Packed_toNat u v hu hv x hx
  have hv' := r65535_le v hv
  rewrite [h, show (r65535 u * 4294967296 + r65535 v) / 4294967296 = r65535 u by omega,
    show (r65535 u * 4294967296 + r65535 v) % 4294967296 = r65535 v by omega]
  exact ⟨r65535_nearest u hu, r65535_nearest v hv⟩

example : udiv65535Packed 0xFFFE0001FFFE0001 = 0x0000FFFF0000FFFF := by decide +kernel

/-- **C10** for 64-bit pixels (16 bits per component): alpha kept, components exactly rounded,
result validly premultiplied - for every 64-bit input. -/
theorem C10_premultiply64_exact (v : UInt64) :
    chan16 3 (cvtPrgb64FromArgb64 v).toNat = chan16 3 v.toNat ∧
    ∀ k < 3, Nearest (chan16 k (cvtPrgb64FromArgb64 v).toNat) (chan16 k v.toNat * chan16 3 v.toNat) 65535 ∧
      chan16 k (cvtPrgb64FromArgb64 v).toNat ≤ chan16 3 (cvtPrgb64FromArgb64 v).toNat := by
  have l := fun k => chan16_le k v.toNat
  have m := fun k => Nat.mul_le_mul (l k) (l 3)
  have r := fun k => r65535_le _ (m k)
  have q := fun k => r65535_mul_le _ _ (l k) (l 3)
  have n := fun k => r65535_nearest _ (m k)
  have l3 := l 3
  have r0 := r 0
  have r1 := r 1
  have r2 := r 2
  have ha : (v >>> 48).toUInt32.toNat = chan16 3 v.toNat := by
    have := v.toNat_lt
    rewrite [(chan16_vals v.toNat).2.2.2]
    simp only [UInt64.toNat_toUInt32, UInt64.toNat_shiftRight, UInt64.reduceToNat,
      Nat.shiftRight_eq_div_pow, Nat.reducePow, Nat.reduceMod]
    omega
  obtain ⟨c0, c1, c2, c3⟩ := chan16_pack64 (chan16 3 v.toNat) (r65535 (chan16 2 v.toNat * chan16 3 v.toNat))
    (r65535 (chan16 1 v.toNat * chan16 3 v.toNat)) (r65535 (chan16 0 v.toNat * chan16 3 v.toNat))
    (by omega) (by omega) (by omega) (by omega)
  unfold cvtPrgb64FromArgb64
  rewrite [cvtPrgb64With_toNat _ _ (by rewrite [ha]; exact l3), ha, c3]
  refine ⟨rfl, fun k hk => ?_⟩
  obtain rfl | rfl | rfl : k = 0 ∨ k = 1 ∨ k = 2 := by omega
  · rewrite [c0]; exact ⟨n 0, q 0⟩
  · rewrite [c1]; exact ⟨n 1, q 1⟩
  · rewrite [c2]; exact ⟨n 2, q 2⟩

example : cvtPrgb64FromArgb64 0x8000FFFF80000001 = 0x8000800040000001 := by decide +kernel

/-- **C38**: conversion of every 16-bit 555 pixel (the top bit is ignored) expands each component by
bit replication and produces opaque alpha. -/
theorem C38_cvt_0555 (x : UInt32) (hx : x.toNat < 65536) :
    (cvtXrgb32FromXrgb16_0555 x).toNat =
      255 * 16777216 + expand5 (x.toNat / 1024 % 32) * 65536 + expand5 (x.toNat / 32 % 32) * 256 +
        expand5 (x.toNat % 32) := by
  have := n555_table (x.toNat / 256) (by omega) (x.toNat % 256) (by omega)
  rw [show x.toNat / 256 * 256 + x.toNat % 256 = x.toNat by omega] at this
  rw [cvt555_toNat, this]; rfl

theorem C38_cvt_0565 (x : UInt32) (hx : x.toNat < 65536) :
    (cvtXrgb32FromXrgb16_0565 x).toNat =
      255 * 16777216 + expand5 (x.toNat / 2048 % 32) * 65536 + expand6 (x.toNat / 32 % 64) * 256 +
        expand5 (x.toNat % 32) := by
  have := n565_table (x.toNat / 256) (by omega) (x.toNat % 256) (by omega)
  rw [show x.toNat / 256 * 256 + x.toNat % 256 = x.toNat by omega] at this
  rw [cvt565_toNat, this]; rfl

theorem C38_cvt_4444 (x : UInt32) (hx : x.toNat < 65536) :
    (cvtArgb32FromArgb16_4444 x).toNat =
      expand4 (x.toNat / 4096 % 16) * 16777216 + expand4 (x.toNat / 256 % 16) * 65536 +
        expand4 (x.toNat / 16 % 16) * 256 + expand4 (x.toNat % 16) := by
  have := n4444_table (x.toNat / 256) (by omega) (x.toNat % 256) (by omega)
  rw [show x.toNat / 256 * 256 + x.toNat % 256 = x.toNat by omega] at this
  rw [cvt4444_toNat, this]; rfl

example : cvtXrgb32FromXrgb16_0565 0xF81F = 0xFFFF00FF := by decide +kernel

/-- **C38**: bit replication maps black to black and white to white, differs from the ideal rescaling
`255 * c / (2^n - 1)` by less than one unit (exactly none for 4 bits), and dropping the low bits
recovers the component. -/
theorem C38_expand_exact :
    (∀ c < 32, 31 * expand5 c < 255 * c + 31 ∧ 255 * c < 31 * expand5 c + 31 ∧ expand5 c / 8 = c) ∧
    (∀ c < 64, 63 * expand6 c < 255 * c + 63 ∧ 255 * c < 63 * expand6 c + 63 ∧ expand6 c / 4 = c) ∧
    (∀ c < 16, 15 * expand4 c = 255 * c ∧ expand4 c / 16 = c) ∧
    expand5 0 = 0 ∧ expand5 31 = 255 ∧ expand6 0 = 0 ∧ expand6 63 = 255 := by
  unfold expand5 expand6 expand4
  refine ⟨fun c h => ?_, fun c h => ?_, fun c h => ?_, by omega⟩ <;> omega

end Blend2D.Pixel
