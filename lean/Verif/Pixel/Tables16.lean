import Verif.Pixel.Lemmas
/-! Kernel evaluation of the three 16-bit conversions on their whole 2^16 domain. -/
namespace Blend2D.Pixel
open Spec Bits

/-! ## 16-bit formats -/

/-- `Nat` image of `cvtXrgb32FromXrgb16_0555`. -/
def n555 (x : Nat) : Nat :=
  let t0 := (x * 0x00080008 % 4294967296) &&& 0x1F03E0F8
  let t0 := t0 ||| (t0 / 32)
  ((0xFF000000 ||| (t0 &&& 0xFF)) ||| ((t0 / 8192) &&& 0xFF00)) |||
    ((t0 * 64 % 4294967296) &&& 0xFF0000)

def n565 (x : Nat) : Nat :=
  let t0 := ((x &&& 0xF81F) * 0x21) % 4294967296
  let t1 := ((x &&& 0x07E0) * 0x41) % 4294967296
  ((0xFF000000 ||| ((t0 / 4) &&& 0xFF)) ||| ((t1 / 2) &&& 0xFF00)) |||
    ((t0 * 8 % 4294967296) &&& 0xFF0000)

def n4444 (x : Nat) : Nat :=
  let t0 := (x ||| (x * 4096 % 4294967296)) &&& 0x0F00000F
  let t1 := ((x * 16 % 4294967296) * 16 % 4294967296) &&& 0x000F0000
  let t2 := (x * 16 % 4294967296) &&& 0x00000F00
  (((t0 + t1) % 4294967296 + t2) % 4294967296) * 0x11 % 4294967296

def n555Chk (h l : Nat) : Bool := Nat.beq (n555 (h * 256 + l))
    (pack4 255 (expand5 ((h * 256 + l) / 1024 % 32)) (expand5 ((h * 256 + l) / 32 % 32))
      (expand5 ((h * 256 + l) % 32)))

def n565Chk (h l : Nat) : Bool := Nat.beq (n565 (h * 256 + l))
    (pack4 255 (expand5 ((h * 256 + l) / 2048 % 32)) (expand6 ((h * 256 + l) / 32 % 64))
      (expand5 ((h * 256 + l) % 32)))

def n4444Chk (h l : Nat) : Bool := Nat.beq (n4444 (h * 256 + l))
    (pack4 (expand4 ((h * 256 + l) / 4096 % 16)) (expand4 ((h * 256 + l) / 256 % 16))
      (expand4 ((h * 256 + l) / 16 % 16)) (expand4 ((h * 256 + l) % 16)))

theorem n555Chk_all : allBelow (fun h => allBelow (fun l => n555Chk h l) 256) 256 = true := by
  decide +kernel

theorem n565Chk_all : allBelow (fun h => allBelow (fun l => n565Chk h l) 256) 256 = true := by
  decide +kernel

theorem n4444Chk_all : allBelow (fun h => allBelow (fun l => n4444Chk h l) 256) 256 = true := by
  decide +kernel

theorem n555_table : ∀ h < 256, ∀ l < 256, n555 (h * 256 + l) =
    pack4 255 (expand5 ((h * 256 + l) / 1024 % 32)) (expand5 ((h * 256 + l) / 32 % 32))
      (expand5 ((h * 256 + l) % 32)) :=
  fun h hh l hl => Nat.eq_of_beq_eq_true
    (allBelow_spec _ _ (allBelow_spec _ _ n555Chk_all h hh) l hl)

theorem n565_table : ∀ h < 256, ∀ l < 256, n565 (h * 256 + l) =
    pack4 255 (expand5 ((h * 256 + l) / 2048 % 32)) (expand6 ((h * 256 + l) / 32 % 64))
      (expand5 ((h * 256 + l) % 32)) :=
  fun h hh l hl => Nat.eq_of_beq_eq_true
    (allBelow_spec _ _ (allBelow_spec _ _ n565Chk_all h hh) l hl)

theorem n4444_table : ∀ h < 256, ∀ l < 256, n4444 (h * 256 + l) =
    pack4 (expand4 ((h * 256 + l) / 4096 % 16)) (expand4 ((h * 256 + l) / 256 % 16))
      (expand4 ((h * 256 + l) / 16 % 16)) (expand4 ((h * 256 + l) % 16)) :=
  fun h hh l hl => Nat.eq_of_beq_eq_true
    (allBelow_spec _ _ (allBelow_spec _ _ n4444Chk_all h hh) l hl)

theorem cvt555_toNat (x : UInt32) : (cvtXrgb32FromXrgb16_0555 x).toNat = n555 x.toNat := by
  simp only [cvtXrgb32FromXrgb16_0555, n555, UInt32.toNat_or, UInt32.toNat_and, UInt32.toNat_mul,
    UInt32.toNat_shiftRight, UInt32.toNat_shiftLeft, UInt32.reduceToNat, Nat.shiftRight_eq_div_pow,
    Nat.shiftLeft_eq, Nat.reducePow, Nat.reduceMod]

theorem cvt565_toNat (x : UInt32) : (cvtXrgb32FromXrgb16_0565 x).toNat = n565 x.toNat := by
  simp only [cvtXrgb32FromXrgb16_0565, n565, UInt32.toNat_or, UInt32.toNat_and, UInt32.toNat_mul,
    UInt32.toNat_shiftRight, UInt32.toNat_shiftLeft, UInt32.reduceToNat, Nat.shiftRight_eq_div_pow,
    Nat.shiftLeft_eq, Nat.reducePow, Nat.reduceMod]

theorem cvt4444_toNat (x : UInt32) : (cvtArgb32FromArgb16_4444 x).toNat = n4444 x.toNat := by
  simp only [cvtArgb32FromArgb16_4444, n4444, UInt32.toNat_or, UInt32.toNat_and, UInt32.toNat_mul,
    UInt32.toNat_shiftLeft, UInt32.reduceToNat, Nat.shiftLeft_eq, Nat.reducePow, Nat.reduceMod, UInt32.toNat_add]

end Blend2D.Pixel
