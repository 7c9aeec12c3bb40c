import Verif.Pixel.Lemmas
/-! Proof machinery for 64-bit (16 bits per component) pixels. -/
namespace Blend2D.Pixel
open Bits Spec

theorem lane64 (U V : Nat) (hU : U ≤ 4294868993) (hV : V ≤ 4294868993) :
    (U * 4294967296 + V + ((U * 4294967296 + V) / 65536 / 4294967296 % 65536 * 4294967296 +
      (U * 4294967296 + V) / 65536 % 65536)) % 18446744073709551616
    = (U + U / 65536) * 4294967296 + (V + V / 65536) := by
  have e1 : (U * 4294967296 + V) / 65536 = U * 65536 + V / 65536 := by
    have h : U * 4294967296 + V = V + (U * 65536) * 65536 := by eqomega
    rewrite [h, Nat.add_mul_div_right _ _ (by omega)]
    exact Nat.add_comm _ _
  have e2 : (U * 65536 + V / 65536) / 4294967296 = U / 65536 := by
    have hv : V / 65536 < 65536 := by omega
    generalize V / 65536 = v at hv ⊢
    rewrite [show 4294967296 = 65536 * 65536 by rfl, ← Nat.div_div_eq_div_mul]
    omega
  have e3 : (U * 65536 + V / 65536) % 65536 = V / 65536 := by omega
  rewrite [e1, e2, e3]
  have h1 : U / 65536 < 65536 := by omega
  have h2 : V / 65536 < 65536 := by omega
  clear e1 e2 e3
  obtain ⟨u, hu⟩ : ∃ u, u = U / 65536 := ⟨_, rfl⟩
  obtain ⟨v, hv⟩ : ∃ v, v = V / 65536 := ⟨_, rfl⟩
  rewrite [← hu] at h1 ⊢
  rewrite [← hv] at h2 ⊢
  have h3 : U + u < 4294967296 := by omega
  clear hu hv
  rewrite [Nat.mod_eq_of_lt h1, Nat.mod_eq_of_lt (by omega)]
  eqomega

theorem udiv65535Packed_toNat (u v : Nat) (hu : u ≤ 65535 * 65535) (hv : v ≤ 65535 * 65535)
    (x : UInt64) (hx : x.toNat = u * 4294967296 + v) :
    (udiv65535Packed x).toNat = r65535 u * 4294967296 + r65535 v := by
  unfold udiv65535Packed r65535
  simp only [UInt64.toNat_shiftRight, UInt64.toNat_add, UInt64.toNat_and, UInt64.reduceToNat,
    Nat.shiftRight_eq_div_pow, Nat.reducePow, Nat.reduceMod, hx]
  simp only [and_0000FFFF0000FFFF]
  have e0 : (u * 4294967296 + v + 140737488388096) % 18446744073709551616
      = (u + 32768) * 4294967296 + (v + 32768) := by omega
  rewrite [e0, lane64 _ _ (by omega) (by omega)]
  obtain ⟨P, hP⟩ : ∃ P, P = u + 32768 + (u + 32768) / 65536 := ⟨_, rfl⟩
  obtain ⟨Q, hQ⟩ : ∃ Q, Q = v + 32768 + (v + 32768) / 65536 := ⟨_, rfl⟩
  have hP' : P < 4294967296 := by omega
  have hQ' : Q < 4294967296 := by omega
  rewrite [← hP, ← hQ]
  clear hP hQ e0 hx
  have e1 : (P * 4294967296 + Q) / 65536 = P * 65536 + Q / 65536 := by omega
  rewrite [e1]
  omega

theorem chan16_vals (v : Nat) : chan16 0 v = v % 65536 ∧ chan16 1 v = v / 65536 % 65536 ∧
    chan16 2 v = v / 4294967296 % 65536 ∧ chan16 3 v = v / 281474976710656 % 65536 := by
  simp [chan16]

theorem chan16_le (k v : Nat) : chan16 k v ≤ 65535 := by
  have : chan16 k v < 65536 := Nat.mod_lt _ (by omega)
  omega

theorem r65535_le (x : Nat) (h : x ≤ 65535 * 65535) : r65535 x ≤ 65535 := by unfold r65535; omega

theorem r65535_mono {x y : Nat} (h : x ≤ y) : r65535 x ≤ r65535 y := by unfold r65535; omega

theorem r65535_mul_65535 (c : Nat) (h : c ≤ 65535) : r65535 (c * 65535) = c := by unfold r65535; omega

theorem r65535_mul_le (c a : Nat) (hc : c ≤ 65535) (ha : a ≤ 65535) : r65535 (c * a) ≤ a := by
  have h1 : c * a ≤ 65535 * a := Nat.mul_le_mul_right a hc
  have := r65535_mono h1
  rw [Nat.mul_comm 65535 a, r65535_mul_65535 a ha] at this
  exact this

def pack64 (a r g b : Nat) : Nat :=
  a * 281474976710656 + r * 4294967296 + g * 65536 + b

theorem pack64_or (A R G B : Nat) (hR : R < 65536) (hG : G < 65536) (hB : B < 65536) :
    (A * 281474976710656 ||| (R * 4294967296 + B)) ||| (G * 65536) = pack64 A R G B := by
  have h1 := or_disjoint (A * 281474976710656) (R * 4294967296 + B) 48 (Nat.mul_mod_left _ _) (by omega)
  rewrite [h1]
  have e : A * 281474976710656 + (R * 4294967296 + B) = (A * 65536 + R) * 4294967296 + B := by omega
  have h2 := or_split (A * 65536 + R) B 0 (G * 65536) 32 (by omega) (by omega)
  simp only [Nat.reducePow, Nat.zero_mul, Nat.zero_add, Nat.or_zero] at h2
  rewrite [e, h2, Nat.or_comm, or_disjoint16 _ _ (by omega)]
  unfold pack64
  eqomega

theorem chan16_pack64 (A R G B : Nat) (hA : A < 65536) (hR : R < 65536) (hG : G < 65536)
    (hB : B < 65536) :
    chan16 0 (pack64 A R G B) = B ∧ chan16 1 (pack64 A R G B) = G ∧
    chan16 2 (pack64 A R G B) = R ∧ chan16 3 (pack64 A R G B) = A := by
  obtain ⟨h0, h1, h2, h3⟩ := chan16_vals (pack64 A R G B)
  rewrite [h0, h1, h2, h3]
  unfold pack64
  refine ⟨?_, ?_, ?_, ?_⟩ <;> omega

theorem cvtPrgb64With_toNat (v : UInt64) (a : UInt32) (ha : a.toNat ≤ 65535) :
    (cvtPrgb64FromArgb64With v a).toNat =
      pack64 a.toNat (r65535 (chan16 2 v.toNat * a.toNat))
        (r65535 (chan16 1 v.toNat * a.toNat)) (r65535 (chan16 0 v.toNat * a.toNat)) := by
  obtain ⟨h0, h1, h2, _⟩ := chan16_vals v.toNat
  have m := fun k => (Nat.mul_le_mul (chan16_le k v.toNat) ha)
  have r := fun k => r65535_le _ (m k)
  have m0 := m 0
  have m1 := m 1
  have m2 := m 2
  have r0 := r 0
  have r1 := r 1
  have r2 := r 2
  have hrb : ((v &&& 0x0000FFFF0000FFFF) * a.toUInt64).toNat
      = (chan16 2 v.toNat * a.toNat) * 4294967296 + chan16 0 v.toNat * a.toNat := by
    simp only [UInt64.toNat_mul, UInt64.toNat_and, UInt64.reduceToNat, UInt32.toNat_toUInt64,
      Nat.reducePow, and_0000FFFF0000FFFF, ← h2, ← h0]
    rewrite [Nat.add_mul, Nat.mul_right_comm]
    omega
  have hg : (((v >>> 16) &&& 0xFFFF).toUInt32 * a).toNat = chan16 1 v.toNat * a.toNat := by
    simp only [UInt32.toNat_mul, UInt64.toNat_toUInt32, UInt64.toNat_and, UInt64.toNat_shiftRight,
      UInt64.reduceToNat, Nat.shiftRight_eq_div_pow, Nat.reducePow, Nat.reduceMod, and_65535, ← h1]
    have := chan16_le 1 v.toNat
    rewrite [Nat.mod_eq_of_lt (a := chan16 1 v.toNat) (by omega)]
    omega
  unfold cvtPrgb64FromArgb64With
  have hg' := udiv65535_toNat _ (by rewrite [hg]; exact m1)
  rewrite [hg] at hg'
  have hrb' := udiv65535Packed_toNat _ _ m2 m0 _ hrb
  simp only [UInt64.toNat_or, UInt64.toNat_shiftLeft, UInt32.toNat_shiftLeft, UInt32.toNat_toUInt64,
    UInt64.reduceToNat, UInt32.reduceToNat, Nat.shiftLeft_eq, Nat.reducePow, Nat.reduceMod, hg', hrb']
  rewrite [Nat.mod_eq_of_lt (by omega), Nat.mod_eq_of_lt (by omega)]
  exact pack64_or _ _ _ _ (by omega) (by omega) (by omega)

end Blend2D.Pixel
