import Verif.Unicode.Spec
/-! `Utf8Reader::next` decodes exactly the UTF-8 code unit sequences (surrogates included). -/
namespace Blend2D.Unicode
open Bits

theorem toUInt32_toNat (b : UInt8) : b.toUInt32.toNat = b.toNat := by simp

theorem xor80 (b : UInt8) : (b.toUInt32 ^^^ 0x80).toNat = if b.toNat < 0x80 then b.toNat + 0x80 else b.toNat - 0x80 := by
  have h : ∀ n, n < 256 → n ^^^ 0x80 = if n < 0x80 then n + 0x80 else n - 0x80 := by decide +kernel
  have := h b.toNat b.toNat_lt
  simpa using this

theorem or_le_63 (a b : Nat) : (a ||| b) ≤ 63 ↔ a ≤ 63 ∧ b ≤ 63 := by
  constructor
  · intro h; exact ⟨Nat.le_trans Nat.left_le_or h, Nat.le_trans Nat.right_le_or h⟩
  · intro ⟨h1, h2⟩
    have := Nat.or_lt_two_pow (x := a) (y := b) (n := 6) (by omega) (by omega)
    omega

/-- A continuation byte. -/
def Cont (b : UInt8) : Prop := 0x80 ≤ b.toNat ∧ b.toNat < 0xC0

theorem xor80_cont (b : UInt8) : (b.toUInt32 ^^^ 0x80).toNat ≤ 63 ↔ Cont b := by
  rw [xor80]; have := b.toNat_lt; unfold Cont; split <;> omega

theorem xor80_val (b : UInt8) (h : Cont b) : (b.toUInt32 ^^^ 0x80).toNat = b.toNat - 0x80 := by
  rw [xor80]; unfold Cont at h; split <;> omega

theorem xor80_lt (b : UInt8) : (b.toUInt32 ^^^ 0x80).toNat < 256 := by
  rw [xor80]; have := b.toNat_lt; split <;> omega

variable (f : Flags) (src : List UInt8) (stop : Nat) (r : Reader)

theorem next8_1 {b0 : UInt8} (h0 : src[r.ptr]? = some b0) (hb : b0.toNat < 0x80) :
    next8 f src stop r = some (.success, b0.toUInt32, 1, { r with ptr := r.ptr + 1 }) := by
  have : b0.toUInt32 < 0x80 := by rw [UInt32.lt_iff_toNat_lt]; simpa using hb
  simp [next8, rd8, h0, this]

theorem sub_c2 (b0 : UInt8) (h : 0xC2 ≤ b0.toNat) : (b0.toUInt32 - 0xC2).toNat = b0.toNat - 0xC2 := by
  rw [UInt32.toNat_sub]; have := b0.toNat_lt
  simp only [toUInt32_toNat, UInt32.reduceToNat]; omega

theorem sub_c2_bad (b0 : UInt8) (h0 : 0x80 ≤ b0.toNat) (h : b0.toNat < 0xC2) :
    0xFFFFFFBE ≤ (b0.toUInt32 - 0xC2).toNat := by
  rw [UInt32.toNat_sub]; have := b0.toNat_lt
  simp only [toUInt32_toNat, UInt32.reduceToNat]; omega

theorem not_lt_80 (b0 : UInt8) (h : 0x80 ≤ b0.toNat) : ¬ (b0.toUInt32 < 0x80) := by
  rw [UInt32.lt_iff_toNat_lt]; simpa using h

theorem next8_2t {b0 : UInt8} (h0 : src[r.ptr]? = some b0) (hl : 0xC2 ≤ b0.toNat) (hh : b0.toNat < 0xE0)
    (hs : stop < r.ptr + 2) :
    ∃ u n, next8 f src stop r = some (.dataTruncated, u, n, r) := by
  have h1 := not_lt_80 b0 (by omega)
  have h2 : b0.toUInt32 - 0xC2 < 0xE0 - 0xC2 := by
    rw [UInt32.lt_iff_toNat_lt, sub_c2 b0 hl]; simp only [UInt32.reduceSub, UInt32.reduceToNat]; omega
  refine ⟨b0.toUInt32 - 0xC2, 2, ?_⟩
  unfold next8
  simp only [rd8, h0, Option.map_some, Option.bind_eq_bind, Option.bind_some, h1, if_false, h2, if_true]
  rw [if_pos (by omega)]; rfl

theorem next8_2 {b0 b1 : UInt8} (h0 : src[r.ptr]? = some b0) (h1 : src[r.ptr + 1]? = some b1)
    (hl : 0xC2 ≤ b0.toNat) (hh : b0.toNat < 0xE0) (hs : r.ptr + 2 ≤ stop) :
    (Cont b1 → ∃ u : UInt32, next8 f src stop r = some (.success, u, 2, ({ r with ptr := r.ptr + 2 } : Reader).bump f 1 0) ∧
      u.toNat = (b0.toNat - 0xC0) * 64 + (b1.toNat - 0x80)) ∧
    (¬ Cont b1 → ∃ u n, next8 f src stop r = some (.invalidString, u, n, r)) := by
  have g1 := not_lt_80 b0 (by omega)
  have g2 : b0.toUInt32 - 0xC2 < 0xE0 - 0xC2 := by
    rw [UInt32.lt_iff_toNat_lt, sub_c2 b0 hl]; simp only [UInt32.reduceSub, UInt32.reduceToNat]; omega
  have g3 : (b1.toUInt32 ^^^ 0x80 > 0x3F) ↔ ¬ Cont b1 := by
    rw [← xor80_cont, gt_iff_lt, UInt32.lt_iff_toNat_lt]; simp only [UInt32.reduceToNat]; omega
  have e : next8 f src stop r = if b1.toUInt32 ^^^ 0x80 > 0x3F then
      some (.invalidString, ((b0.toUInt32 - 0xC2 + 0xC2 - 0xC0) <<< 6) + (b1.toUInt32 ^^^ 0x80), 2, r)
      else some (.success, ((b0.toUInt32 - 0xC2 + 0xC2 - 0xC0) <<< 6) + (b1.toUInt32 ^^^ 0x80), 2,
        ({ r with ptr := r.ptr + 2 } : Reader).bump f 1 0) := by
    unfold next8
    simp only [rd8, h0, Option.map_some, Option.bind_eq_bind, Option.bind_some, g1, if_false, g2, if_true]
    rw [if_neg (by omega)]
    simp only [Nat.add_sub_cancel, h1, Option.map_some, Option.bind_some]
    split <;> rfl
  rw [e]
  constructor
  · intro hc
    refine ⟨_, if_neg (by rw [g3]; simpa using hc), ?_⟩
    rw [UInt32.toNat_add, xor80_val b1 hc, UInt32.toNat_shiftLeft, UInt32.toNat_sub, UInt32.toNat_add, sub_c2 b0 hl]
    simp only [UInt32.reduceToNat, Nat.shiftLeft_eq, Nat.reduceMod, Nat.reducePow]
    unfold Cont at hc
    omega
  · intro hc
    exact ⟨_, _, if_pos (by rw [g3]; exact hc)⟩

theorem next8_3t {b0 : UInt8} (h0 : src[r.ptr]? = some b0) (hl : 0xE0 ≤ b0.toNat) (hh : b0.toNat < 0xF0)
    (hs : stop < r.ptr + 3) :
    ∃ u n, next8 f src stop r = some (.dataTruncated, u, n, r) := by
  have h1 := not_lt_80 b0 (by omega)
  have h2 : ¬ (b0.toUInt32 - 0xC2 < 0xE0 - 0xC2) := by
    rw [UInt32.lt_iff_toNat_lt, sub_c2 b0 (by omega)]; simp only [UInt32.reduceSub, UInt32.reduceToNat]; omega
  have h3 : b0.toUInt32 - 0xC2 < 0xF0 - 0xC2 := by
    rw [UInt32.lt_iff_toNat_lt, sub_c2 b0 (by omega)]; simp only [UInt32.reduceSub, UInt32.reduceToNat]; omega
  refine ⟨b0.toUInt32 - 0xC2, 3, ?_⟩
  unfold next8
  simp only [rd8, h0, Option.map_some, Option.bind_eq_bind, Option.bind_some, h1, if_false, h2, h3, if_true]
  rw [if_pos (by omega)]; rfl

theorem next8_3 {b0 b1 b2 : UInt8} (h0 : src[r.ptr]? = some b0) (h1 : src[r.ptr + 1]? = some b1)
    (h2 : src[r.ptr + 2]? = some b2)
    (hl : 0xE0 ≤ b0.toNat) (hh : b0.toNat < 0xF0) (hs : r.ptr + 3 ≤ stop) :
    (Cont b1 ∧ Cont b2 ∧ 0x800 ≤ (b0.toNat - 0xE0) * 4096 + (b1.toNat - 0x80) * 64 + (b2.toNat - 0x80) →
      ∃ u : UInt32, next8 f src stop r = some (.success, u, 3, ({ r with ptr := r.ptr + 3 } : Reader).bump f 2 0) ∧
      u.toNat = (b0.toNat - 0xE0) * 4096 + (b1.toNat - 0x80) * 64 + (b2.toNat - 0x80)) ∧
    (¬ (Cont b1 ∧ Cont b2 ∧ 0x800 ≤ (b0.toNat - 0xE0) * 4096 + (b1.toNat - 0x80) * 64 + (b2.toNat - 0x80)) →
      ∃ u n, next8 f src stop r = some (.invalidString, u, n, r)) := by
  have g1 := not_lt_80 b0 (by omega)
  have g2 : ¬ (b0.toUInt32 - 0xC2 < 0xE0 - 0xC2) := by
    rw [UInt32.lt_iff_toNat_lt, sub_c2 b0 (by omega)]; simp only [UInt32.reduceSub, UInt32.reduceToNat]; omega
  have g2' : b0.toUInt32 - 0xC2 < 0xF0 - 0xC2 := by
    rw [UInt32.lt_iff_toNat_lt, sub_c2 b0 (by omega)]; simp only [UInt32.reduceSub, UInt32.reduceToNat]; omega
  have x1 := xor80_lt b1
  have x2 := xor80_lt b2
  have n0 := b0.toNat_lt
  obtain ⟨u, hu⟩ : ∃ u : UInt32, u = ((b0.toUInt32 - 0xC2 + 0xC2 - 0xE0) <<< 12) +
    ((b1.toUInt32 ^^^ 0x80) <<< 6) + (b2.toUInt32 ^^^ 0x80) := ⟨_, rfl⟩
  have hv : u.toNat = (b0.toNat - 0xE0) * 4096 + (b1.toUInt32 ^^^ 0x80).toNat * 64 + (b2.toUInt32 ^^^ 0x80).toNat := by
    rw [hu, UInt32.toNat_add, UInt32.toNat_add, UInt32.toNat_shiftLeft, UInt32.toNat_shiftLeft, UInt32.toNat_sub,
      UInt32.toNat_add, sub_c2 b0 (by omega)]
    simp only [UInt32.reduceToNat, Nat.shiftLeft_eq, Nat.reduceMod, Nat.reducePow]
    omega
  have e : next8 f src stop r =
      if (decide ((b1.toUInt32 ^^^ 0x80 ||| b2.toUInt32 ^^^ 0x80) > 0x3F) || decide (u < 0x800)) = true then
        some (.invalidString, u, 3, r)
      else some (.success, u, 3, ({ r with ptr := r.ptr + 3 } : Reader).bump f 2 0) := by
    unfold next8
    simp only [rd8, h0, Option.map_some, Option.bind_eq_bind, Option.bind_some, g1, if_false, g2, g2', if_true]
    rw [if_neg (by omega)]
    simp only [show r.ptr + 1 + 2 - 2 = r.ptr + 1 by omega, show r.ptr + 1 + 2 - 1 = r.ptr + 2 by omega,
      h1, h2, Option.map_some, Option.bind_some, ← hu]
    split <;> rfl
  have g3 : ((decide ((b1.toUInt32 ^^^ 0x80 ||| b2.toUInt32 ^^^ 0x80) > 0x3F) || decide (u < 0x800)) = true) ↔
      ¬ (Cont b1 ∧ Cont b2 ∧ 0x800 ≤ (b0.toNat - 0xE0) * 4096 + (b1.toNat - 0x80) * 64 + (b2.toNat - 0x80)) := by
    simp only [Bool.or_eq_true, decide_eq_true_eq, gt_iff_lt, UInt32.lt_iff_toNat_lt, UInt32.toNat_or, UInt32.reduceToNat]
    have o := or_le_63 (b1.toUInt32 ^^^ 0x80).toNat (b2.toUInt32 ^^^ 0x80).toNat
    rw [xor80_cont, xor80_cont] at o
    by_cases c1 : Cont b1
    · by_cases c2 : Cont b2
      · have v1 := xor80_val b1 c1
        have v2 := xor80_val b2 c2
        simp only [c1, c2, true_and, and_self, iff_true] at o ⊢
        omega
      · simp only [c2, and_false, false_and, not_false_eq_true, iff_true, iff_false] at o ⊢
        omega
    · simp only [c1, false_and, not_false_eq_true, iff_true, iff_false] at o ⊢
      omega
  rw [e]
  constructor
  · intro hc
    refine ⟨_, if_neg (by rw [g3]; exact not_not_intro hc), ?_⟩
    rw [hv, xor80_val b1 hc.1, xor80_val b2 hc.2.1]
  · intro hc
    exact ⟨_, _, if_pos (by rw [g3]; exact hc)⟩

theorem next8_4t {b0 : UInt8} (h0 : src[r.ptr]? = some b0) (hl : 0xF0 ≤ b0.toNat) (hh : b0.toNat < 0xF5)
    (hs : stop < r.ptr + 4) :
    ∃ u n, next8 f src stop r = some (.dataTruncated, u, n, r) := by
  have h1 := not_lt_80 b0 (by omega)
  have h2 : ¬ (b0.toUInt32 - 0xC2 < 0xE0 - 0xC2) := by
    rw [UInt32.lt_iff_toNat_lt, sub_c2 b0 (by omega)]; simp only [UInt32.reduceSub, UInt32.reduceToNat]; omega
  have h3 : ¬ (b0.toUInt32 - 0xC2 < 0xF0 - 0xC2) := by
    rw [UInt32.lt_iff_toNat_lt, sub_c2 b0 (by omega)]; simp only [UInt32.reduceSub, UInt32.reduceToNat]; omega
  have h4 : ¬ (b0.toUInt32 - 0xC2 ≥ 0xF5 - 0xC2) := by
    rw [ge_iff_le, UInt32.le_iff_toNat_le, sub_c2 b0 (by omega)]; simp only [UInt32.reduceSub, UInt32.reduceToNat]; omega
  refine ⟨b0.toUInt32 - 0xC2, 4, ?_⟩
  unfold next8
  simp only [rd8, h0, Option.map_some, Option.bind_eq_bind, Option.bind_some, h1, if_false, h2, h3, h4]
  rw [if_pos (by omega)]; rfl

/-- Lead bytes that can start no sequence are rejected, whatever follows. -/
theorem next8_bad {b0 : UInt8} (h0 : src[r.ptr]? = some b0)
    (hb : (0x80 ≤ b0.toNat ∧ b0.toNat < 0xC2) ∨ 0xF5 ≤ b0.toNat) (hsrc : stop ≤ src.length) :
    ∃ u n, next8 f src stop r = some (.invalidString, u, n, r) := by
  have h1 := not_lt_80 b0 (by omega)
  have n0 := b0.toNat_lt
  have hc : 0xF5 - 0xC2 ≤ (b0.toUInt32 - 0xC2).toNat := by
    rcases hb with ⟨a, b⟩ | h
    · have := sub_c2_bad b0 a b; omega
    · rw [sub_c2 b0 (by omega)]; omega
  have h2 : ¬ (b0.toUInt32 - 0xC2 < 0xE0 - 0xC2) := by
    rw [UInt32.lt_iff_toNat_lt]; simp only [UInt32.reduceSub, UInt32.reduceToNat]; omega
  have h3 : ¬ (b0.toUInt32 - 0xC2 < 0xF0 - 0xC2) := by
    rw [UInt32.lt_iff_toNat_lt]; simp only [UInt32.reduceSub, UInt32.reduceToNat]; omega
  have h4 : (b0.toUInt32 - 0xC2 ≥ 0xF5 - 0xC2) := by
    rw [ge_iff_le, UInt32.le_iff_toNat_le]; simp only [UInt32.reduceSub, UInt32.reduceToNat]; omega
  by_cases hs : r.ptr + 4 ≤ stop
  · obtain ⟨b1, e1⟩ : ∃ b, src[r.ptr + 1]? = some b := ⟨_, List.getElem?_eq_getElem (by omega)⟩
    obtain ⟨b2, e2⟩ : ∃ b, src[r.ptr + 2]? = some b := ⟨_, List.getElem?_eq_getElem (by omega)⟩
    obtain ⟨b3, e3⟩ : ∃ b, src[r.ptr + 3]? = some b := ⟨_, List.getElem?_eq_getElem (by omega)⟩
    have x1 := xor80_lt b1
    have x2 := xor80_lt b2
    have x3 := xor80_lt b3
    obtain ⟨u, hu⟩ : ∃ u : UInt32, u = ((b0.toUInt32 - 0xC2 + 0xC2 - 0xF0) <<< 18) +
      ((b1.toUInt32 ^^^ 0x80) <<< 12) + ((b2.toUInt32 ^^^ 0x80) <<< 6) + (b3.toUInt32 ^^^ 0x80) := ⟨_, rfl⟩
    have hv : u > 0x10FFFF := by
      rw [gt_iff_lt, UInt32.lt_iff_toNat_lt, hu, UInt32.toNat_add, UInt32.toNat_add, UInt32.toNat_add,
        UInt32.toNat_shiftLeft, UInt32.toNat_shiftLeft, UInt32.toNat_shiftLeft, UInt32.toNat_sub,
        UInt32.toNat_add, UInt32.toNat_sub]
      simp only [UInt32.reduceToNat, Nat.shiftLeft_eq, Nat.reduceMod, Nat.reducePow, toUInt32_toNat]
      omega
    refine ⟨u, 4, ?_⟩
    unfold next8
    simp only [rd8, h0, Option.map_some, Option.bind_eq_bind, Option.bind_some, h1, if_false, h2, h3]
    rw [if_neg (by omega)]
    simp only [show r.ptr + 1 + 3 - 3 = r.ptr + 1 by omega, show r.ptr + 1 + 3 - 2 = r.ptr + 2 by omega,
      show r.ptr + 1 + 3 - 1 = r.ptr + 3 by omega, e1, e2, e3, Option.map_some, Option.bind_some, ← hu, hv]
    simp
  · refine ⟨b0.toUInt32 - 0xC2, 4, ?_⟩
    unfold next8
    simp only [rd8, h0, Option.map_some, Option.bind_eq_bind, Option.bind_some, h1, if_false, h2, h3, h4]
    rw [if_pos (by omega)]; rfl

theorem next8_4 {b0 b1 b2 b3 : UInt8} (h0 : src[r.ptr]? = some b0) (h1 : src[r.ptr + 1]? = some b1)
    (h2 : src[r.ptr + 2]? = some b2) (h3 : src[r.ptr + 3]? = some b3)
    (hl : 0xF0 ≤ b0.toNat) (hh : b0.toNat < 0xF5) (hs : r.ptr + 4 ≤ stop) :
    (∀ v, v = (b0.toNat - 0xF0) * 262144 + (b1.toNat - 0x80) * 4096 + (b2.toNat - 0x80) * 64 + (b3.toNat - 0x80) →
    (Cont b1 ∧ Cont b2 ∧ Cont b3 ∧ 0x10000 ≤ v ∧ v ≤ 0x10FFFF →
      ∃ u : UInt32, next8 f src stop r = some (.success, u, 4, ({ r with ptr := r.ptr + 4 } : Reader).bump f 3 1) ∧
      u.toNat = v) ∧
    (¬ (Cont b1 ∧ Cont b2 ∧ Cont b3 ∧ 0x10000 ≤ v ∧ v ≤ 0x10FFFF) →
      ∃ u n, next8 f src stop r = some (.invalidString, u, n, r))) := by
  intro v hvv
  have g1 := not_lt_80 b0 (by omega)
  have g2 : ¬ (b0.toUInt32 - 0xC2 < 0xE0 - 0xC2) := by
    rw [UInt32.lt_iff_toNat_lt, sub_c2 b0 (by omega)]; simp only [UInt32.reduceSub, UInt32.reduceToNat]; omega
  have g2' : ¬ (b0.toUInt32 - 0xC2 < 0xF0 - 0xC2) := by
    rw [UInt32.lt_iff_toNat_lt, sub_c2 b0 (by omega)]; simp only [UInt32.reduceSub, UInt32.reduceToNat]; omega
  have x1 := xor80_lt b1
  have x2 := xor80_lt b2
  have x3 := xor80_lt b3
  have n0 := b0.toNat_lt
  obtain ⟨u, hu⟩ : ∃ u : UInt32, u = ((b0.toUInt32 - 0xC2 + 0xC2 - 0xF0) <<< 18) +
    ((b1.toUInt32 ^^^ 0x80) <<< 12) + ((b2.toUInt32 ^^^ 0x80) <<< 6) + (b3.toUInt32 ^^^ 0x80) := ⟨_, rfl⟩
  have hv : u.toNat = (b0.toNat - 0xF0) * 262144 + (b1.toUInt32 ^^^ 0x80).toNat * 4096 +
      (b2.toUInt32 ^^^ 0x80).toNat * 64 + (b3.toUInt32 ^^^ 0x80).toNat := by
    rw [hu, UInt32.toNat_add, UInt32.toNat_add, UInt32.toNat_add, UInt32.toNat_shiftLeft, UInt32.toNat_shiftLeft,
      UInt32.toNat_shiftLeft, UInt32.toNat_sub, UInt32.toNat_add, sub_c2 b0 (by omega)]
    simp only [UInt32.reduceToNat, Nat.shiftLeft_eq, Nat.reduceMod, Nat.reducePow]
    omega
  have e : next8 f src stop r =
      if (decide ((b1.toUInt32 ^^^ 0x80 ||| b2.toUInt32 ^^^ 0x80 ||| b3.toUInt32 ^^^ 0x80) > 0x3F) ||
          decide (u < 0x10000) || decide (u > 0x10FFFF)) = true then
        some (.invalidString, u, 4, r)
      else some (.success, u, 4, ({ r with ptr := r.ptr + 4 } : Reader).bump f 3 1) := by
    unfold next8
    simp only [rd8, h0, Option.map_some, Option.bind_eq_bind, Option.bind_some, g1, if_false, g2, g2']
    rw [if_neg (by omega)]
    simp only [show r.ptr + 1 + 3 - 3 = r.ptr + 1 by omega, show r.ptr + 1 + 3 - 2 = r.ptr + 2 by omega,
      show r.ptr + 1 + 3 - 1 = r.ptr + 3 by omega, h1, h2, h3, Option.map_some, Option.bind_some, ← hu]
    split <;> rfl
  have g3 : ((decide ((b1.toUInt32 ^^^ 0x80 ||| b2.toUInt32 ^^^ 0x80 ||| b3.toUInt32 ^^^ 0x80) > 0x3F) ||
          decide (u < 0x10000) || decide (u > 0x10FFFF)) = true) ↔
      ¬ (Cont b1 ∧ Cont b2 ∧ Cont b3 ∧ 0x10000 ≤ v ∧ v ≤ 0x10FFFF) := by
    simp only [Bool.or_eq_true, decide_eq_true_eq, gt_iff_lt, UInt32.lt_iff_toNat_lt, UInt32.toNat_or, UInt32.reduceToNat]
    have o := (or_le_63 ((b1.toUInt32 ^^^ 0x80).toNat ||| (b2.toUInt32 ^^^ 0x80).toNat) (b3.toUInt32 ^^^ 0x80).toNat).trans
      (and_congr (or_le_63 (b1.toUInt32 ^^^ 0x80).toNat (b2.toUInt32 ^^^ 0x80).toNat) Iff.rfl)
    rw [xor80_cont, xor80_cont, xor80_cont] at o
    by_cases c1 : Cont b1
    · by_cases c2 : Cont b2
      · by_cases c3 : Cont b3
        · have v1 := xor80_val b1 c1
          have v2 := xor80_val b2 c2
          have v3 := xor80_val b3 c3
          simp only [c1, c2, c3, true_and, and_self, iff_true] at o ⊢
          omega
        · simp only [c3, and_false, false_and, not_false_eq_true, iff_true, iff_false] at o ⊢
          omega
      · simp only [c2, and_false, false_and, not_false_eq_true, iff_true, iff_false] at o ⊢
        omega
    · simp only [c1, false_and, not_false_eq_true, iff_true, iff_false] at o ⊢
      omega
  rw [e]
  constructor
  · intro hc
    refine ⟨_, if_neg (by rw [g3]; exact not_not_intro hc), ?_⟩
    rw [hv, xor80_val b1 hc.1, xor80_val b2 hc.2.1, xor80_val b3 hc.2.2.1, hvv]
  · intro hc
    exact ⟨_, _, if_pos (by rw [g3]; exact hc)⟩


/-! ### Putting the cases together -/

/-- The unread part of the text. -/
abbrev win (src : List UInt8) (stop p : Nat) : List UInt8 := (src.take stop).drop p

theorem win_get (src : List UInt8) (stop p k : Nat) (h : p + k < stop) : src[p + k]? = (win src stop p)[k]? := by
  rw [List.getElem?_drop, List.getElem?_take, if_pos h]

theorem win_length (src : List UInt8) (stop p : Nat) (h : stop ≤ src.length) : (win src stop p).length = stop - p := by
  simp [Nat.min_eq_left h]

theorem get_of_prefix {src : List UInt8} {stop p : Nat} {bs : List UInt8} (hstop : stop ≤ src.length)
    (h : bs <+: win src stop p) (k : Nat) (hk : k < bs.length) : src[p + k]? = some bs[k] := by
  have hl := h.length_le
  rw [win_length _ _ _ hstop] at hl
  rw [win_get src stop p k (by omega)]
  obtain ⟨t, ht⟩ := h
  rw [← ht, List.getElem?_append_left hk, List.getElem?_eq_getElem hk]

theorem prefix_le {src : List UInt8} {stop p : Nat} {bs : List UInt8} (hstop : stop ≤ src.length)
    (h : bs <+: win src stop p) (h0 : 0 < bs.length) : p + bs.length ≤ stop := by
  have hl := h.length_le
  rw [win_length _ _ _ hstop] at hl
  omega

/-- Establish a prefix from the individual bytes. -/
theorem prefix_of_get {src : List UInt8} {stop p : Nat} {bs : List UInt8} (hle : p + bs.length ≤ stop)
    (h : ∀ k (hk : k < bs.length), src[p + k]? = some bs[k]) : bs <+: win src stop p := by
  rw [List.prefix_iff_getElem?]
  intro i hi
  rw [← win_get src stop p i (by omega), h i hi]

theorem ofNat8 (n : Nat) : (UInt8.ofNat n).toNat = n % 256 := by simp

theorem utf8_bytes (be : Bool) (c : Nat) : Spec.codePoint be .utf8 c = (Spec.utf8 c).map UInt8.ofNat := rfl

/-- Completeness: if the text continues with the UTF-8 form of a code point, `next` returns it. -/
theorem next8_complete (hstop : stop ≤ src.length) (c : Nat) (hc : c ≤ 0x10FFFF)
    (hp : Spec.codePoint f.swap .utf8 c <+: win src stop r.ptr) :
    ∃ u : UInt32, next8 f src stop r = some (.success, u, (Spec.utf8 c).length,
      ({ r with ptr := r.ptr + (Spec.utf8 c).length } : Reader).bump f
        ((Spec.utf8 c).length - 1) ((Spec.utf16 c).length - 1)) ∧ u.toNat = c := by
  have hg := get_of_prefix hstop hp
  have hle := prefix_le hstop hp
  rw [utf8_bytes] at hg hle
  unfold Spec.utf8 at hg hle ⊢
  unfold Spec.utf16
  split at hg
  · rename_i h1
    rw [if_pos h1, if_pos (by omega)]
    have h0 := hg 0 (by simp)
    simp only [List.map_cons, List.getElem_cons_zero, Nat.add_zero] at h0
    refine ⟨(UInt8.ofNat c).toUInt32, ?_, ?_⟩
    · rw [next8_1 f src stop r h0 (by rw [ofNat8]; omega)]; simp [Reader.bump]
    · rw [toUInt32_toNat, ofNat8]; omega
  · rename_i h1
    rw [if_neg h1] at hle ⊢
    split at hg
    · rename_i h2
      rw [if_pos h2] at hle ⊢
      rw [if_pos (by omega)]
      have h0 := hg 0 (by simp)
      have h1 := hg 1 (by simp)
      simp only [List.map_cons, List.map_nil, List.getElem_cons_zero, List.getElem_cons_succ, List.length_cons, List.length_nil, Nat.add_zero] at h0 h1 hle
      obtain ⟨u, a, b⟩ := (next8_2 f src stop r h0 h1 (by rw [ofNat8]; omega) (by rw [ofNat8]; omega) (by omega)).1
        (by unfold Cont; rw [ofNat8]; omega)
      refine ⟨u, a, ?_⟩
      rw [b, ofNat8, ofNat8]; omega
    · rename_i h2
      rw [if_neg h2] at hle ⊢
      split at hg
      · rename_i h3
        rw [if_pos h3] at hle ⊢
        rw [if_pos h3]
        have h0 := hg 0 (by simp)
        have h1 := hg 1 (by simp)
        have h2 := hg 2 (by simp)
        simp only [List.map_cons, List.map_nil, List.getElem_cons_zero, List.getElem_cons_succ, List.length_cons, List.length_nil, Nat.add_zero] at h0 h1 h2 hle
        obtain ⟨u, a, b⟩ := (next8_3 f src stop r h0 h1 h2 (by rw [ofNat8]; omega) (by rw [ofNat8]; omega) (by omega)).1
          (by unfold Cont; rw [ofNat8, ofNat8, ofNat8]; omega)
        refine ⟨u, a, ?_⟩
        rw [b, ofNat8, ofNat8, ofNat8]; omega
      · rename_i h3
        rw [if_neg h3] at hle ⊢
        rw [if_neg h3]
        have h0 := hg 0 (by simp)
        have h1 := hg 1 (by simp)
        have h2 := hg 2 (by simp)
        have h3 := hg 3 (by simp)
        simp only [List.map_cons, List.map_nil, List.getElem_cons_zero, List.getElem_cons_succ, List.length_cons, List.length_nil, Nat.add_zero] at h0 h1 h2 h3 hle
        obtain ⟨u, a, b⟩ := (next8_4 f src stop r h0 h1 h2 h3 (by rw [ofNat8]; omega) (by rw [ofNat8]; omega) (by omega)
          c (by rw [ofNat8, ofNat8, ofNat8, ofNat8]; omega)).1
          (by unfold Cont; rw [ofNat8, ofNat8, ofNat8]; omega)
        exact ⟨u, a, b⟩

theorem prefix1 {src : List UInt8} {stop p : Nat} {b0 : UInt8} (h0 : src[p]? = some b0) (hle : p + 1 ≤ stop) :
    [b0] <+: win src stop p := by
  refine prefix_of_get (by simpa using hle) ?_
  intro k hk
  simp at hk; subst hk
  simpa using h0

theorem prefix2 {src : List UInt8} {stop p : Nat} {b0 b1 : UInt8} (h0 : src[p]? = some b0)
    (h1 : src[p + 1]? = some b1) (hle : p + 2 ≤ stop) : [b0, b1] <+: win src stop p := by
  refine prefix_of_get (by simpa using hle) ?_
  intro k hk
  simp at hk
  rcases (by omega : k = 0 ∨ k = 1) with rfl | rfl
  · simpa using h0
  · simpa using h1

theorem prefix3 {src : List UInt8} {stop p : Nat} {b0 b1 b2 : UInt8} (h0 : src[p]? = some b0)
    (h1 : src[p + 1]? = some b1) (h2 : src[p + 2]? = some b2) (hle : p + 3 ≤ stop) :
    [b0, b1, b2] <+: win src stop p := by
  refine prefix_of_get (by simpa using hle) ?_
  intro k hk
  simp at hk
  rcases (by omega : k = 0 ∨ k = 1 ∨ k = 2) with rfl | rfl | rfl
  · simpa using h0
  · simpa using h1
  · simpa using h2

theorem prefix4 {src : List UInt8} {stop p : Nat} {b0 b1 b2 b3 : UInt8} (h0 : src[p]? = some b0)
    (h1 : src[p + 1]? = some b1) (h2 : src[p + 2]? = some b2) (h3 : src[p + 3]? = some b3) (hle : p + 4 ≤ stop) :
    [b0, b1, b2, b3] <+: win src stop p := by
  refine prefix_of_get (by simpa using hle) ?_
  intro k hk
  simp at hk
  rcases (by omega : k = 0 ∨ k = 1 ∨ k = 2 ∨ k = 3) with rfl | rfl | rfl | rfl
  · simpa using h0
  · simpa using h1
  · simpa using h2
  · simpa using h3

theorem eq_ofNat (b : UInt8) (n : Nat) (h : b.toNat = n) : b = UInt8.ofNat n := by
  subst h; simp

/-- Soundness: `next` either returns a code point whose UTF-8 form is next in the text, or fails leaving the
reader where it was. -/
theorem next8_sound (hstop : stop ≤ src.length) (hlt : r.ptr < stop) :
    (∃ c u n r', c ≤ 0x10FFFF ∧ Spec.codePoint f.swap .utf8 c <+: win src stop r.ptr ∧
      next8 f src stop r = some (.success, u, n, r')) ∨
    (∃ e u n, (e = .invalidString ∨ e = .dataTruncated) ∧ next8 f src stop r = some (e, u, n, r)) := by
  obtain ⟨b0, h0⟩ : ∃ b, src[r.ptr]? = some b := ⟨_, List.getElem?_eq_getElem (by omega)⟩
  have n0 := b0.toNat_lt
  by_cases c1 : b0.toNat < 0x80
  · refine Or.inl ⟨b0.toNat, _, _, _, by omega, ?_, next8_1 f src stop r h0 c1⟩
    rw [utf8_bytes, Spec.utf8, if_pos c1]
    simp only [List.map_cons, List.map_nil]
    rw [← eq_ofNat b0 _ rfl]
    exact prefix1 h0 (by omega)
  by_cases c2 : b0.toNat < 0xC2 ∨ 0xF5 ≤ b0.toNat
  · obtain ⟨u, n, e⟩ := next8_bad f src stop r h0 (by omega) hstop
    exact Or.inr ⟨_, u, n, Or.inl rfl, e⟩
  by_cases c3 : b0.toNat < 0xE0
  · by_cases hs : r.ptr + 2 ≤ stop
    · obtain ⟨b1, h1⟩ : ∃ b, src[r.ptr + 1]? = some b := ⟨_, List.getElem?_eq_getElem (by omega)⟩
      have := next8_2 f src stop r h0 h1 (by omega) c3 hs
      by_cases k1 : Cont b1
      · obtain ⟨u, e, hu⟩ := this.1 k1
        refine Or.inl ⟨(b0.toNat - 0xC0) * 64 + (b1.toNat - 0x80), _, _, _, ?_, ?_, e⟩
        · unfold Cont at k1; omega
        · unfold Cont at k1
          rw [utf8_bytes, Spec.utf8, if_neg (by omega), if_pos (by omega)]
          simp only [List.map_cons, List.map_nil]
          rw [← eq_ofNat b0 _ (by omega), ← eq_ofNat b1 _ (by omega)]
          exact prefix2 h0 h1 hs
      · obtain ⟨u, n, e⟩ := this.2 k1
        exact Or.inr ⟨_, u, n, Or.inl rfl, e⟩
    · obtain ⟨u, n, e⟩ := next8_2t f src stop r h0 (by omega) c3 (by omega)
      exact Or.inr ⟨_, u, n, Or.inr rfl, e⟩
  by_cases c4 : b0.toNat < 0xF0
  · by_cases hs : r.ptr + 3 ≤ stop
    · obtain ⟨b1, h1⟩ : ∃ b, src[r.ptr + 1]? = some b := ⟨_, List.getElem?_eq_getElem (by omega)⟩
      obtain ⟨b2, h2⟩ : ∃ b, src[r.ptr + 2]? = some b := ⟨_, List.getElem?_eq_getElem (by omega)⟩
      have := next8_3 f src stop r h0 h1 h2 (by omega) c4 hs
      by_cases k1 : Cont b1 ∧ Cont b2 ∧ 0x800 ≤ (b0.toNat - 0xE0) * 4096 + (b1.toNat - 0x80) * 64 + (b2.toNat - 0x80)
      · obtain ⟨u, e, hu⟩ := this.1 k1
        unfold Cont at k1
        refine Or.inl ⟨(b0.toNat - 0xE0) * 4096 + (b1.toNat - 0x80) * 64 + (b2.toNat - 0x80), _, _, _, ?_, ?_, e⟩
        · omega
        · rw [utf8_bytes, Spec.utf8, if_neg (by omega), if_neg (by omega), if_pos (by omega)]
          simp only [List.map_cons, List.map_nil]
          rw [← eq_ofNat b0 _ (by omega), ← eq_ofNat b1 _ (by omega), ← eq_ofNat b2 _ (by omega)]
          exact prefix3 h0 h1 h2 hs
      · obtain ⟨u, n, e⟩ := this.2 k1
        exact Or.inr ⟨_, u, n, Or.inl rfl, e⟩
    · obtain ⟨u, n, e⟩ := next8_3t f src stop r h0 (by omega) c4 (by omega)
      exact Or.inr ⟨_, u, n, Or.inr rfl, e⟩
  · by_cases hs : r.ptr + 4 ≤ stop
    · obtain ⟨b1, h1⟩ : ∃ b, src[r.ptr + 1]? = some b := ⟨_, List.getElem?_eq_getElem (by omega)⟩
      obtain ⟨b2, h2⟩ : ∃ b, src[r.ptr + 2]? = some b := ⟨_, List.getElem?_eq_getElem (by omega)⟩
      obtain ⟨b3, h3⟩ : ∃ b, src[r.ptr + 3]? = some b := ⟨_, List.getElem?_eq_getElem (by omega)⟩
      obtain ⟨v, hv⟩ : ∃ v, v = (b0.toNat - 0xF0) * 262144 + (b1.toNat - 0x80) * 4096 + (b2.toNat - 0x80) * 64 + (b3.toNat - 0x80) := ⟨_, rfl⟩
      have := next8_4 f src stop r h0 h1 h2 h3 (by omega) (by omega) hs v hv
      by_cases k1 : Cont b1 ∧ Cont b2 ∧ Cont b3 ∧ 0x10000 ≤ v ∧ v ≤ 0x10FFFF
      · obtain ⟨u, e, hu⟩ := this.1 k1
        unfold Cont at k1
        have e0 : b0.toNat = 0xF0 + v / 262144 := by clear this e hu h0 h1 h2 h3; omega
        have e1 : b1.toNat = 0x80 + v / 4096 % 64 := by clear this e hu h0 h1 h2 h3; omega
        have e2 : b2.toNat = 0x80 + v / 64 % 64 := by clear this e hu h0 h1 h2 h3; omega
        have e3 : b3.toNat = 0x80 + v % 64 := by clear this e hu h0 h1 h2 h3; omega
        refine Or.inl ⟨v, _, _, _, by omega, ?_, e⟩
        rw [utf8_bytes, Spec.utf8, if_neg (by omega), if_neg (by omega), if_neg (by omega)]
        simp only [List.map_cons, List.map_nil]
        rw [← eq_ofNat b0 _ e0, ← eq_ofNat b1 _ e1, ← eq_ofNat b2 _ e2, ← eq_ofNat b3 _ e3]
        exact prefix4 h0 h1 h2 h3 hs
      · obtain ⟨u, n, e⟩ := this.2 k1
        exact Or.inr ⟨_, u, n, Or.inl rfl, e⟩
    · obtain ⟨u, n, e⟩ := next8_4t f src stop r h0 (by omega) (by omega) (by omega)
      exact Or.inr ⟨_, u, n, Or.inr rfl, e⟩

end Blend2D.Unicode
