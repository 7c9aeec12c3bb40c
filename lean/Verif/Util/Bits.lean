/-! Arithmetic of bit masks over `Nat`, shared by the proofs. -/
namespace Blend2D.Bits

/-- `omega` for equations with large literals (each direction separately). -/
macro "eqomega" : tactic => `(tactic| (apply Nat.le_antisymm <;> omega))

theorem and_split (x m1 m0 k : Nat) (h : m0 < 2 ^ k) :
    x &&& (m1 * 2 ^ k + m0) = ((x / 2 ^ k) &&& m1) * 2 ^ k + ((x % 2 ^ k) &&& m0) := by
  have hx : x = 2 ^ k * (x / 2 ^ k) + x % 2 ^ k := (Nat.div_add_mod x (2 ^ k)).symm
  have hlt : x % 2 ^ k < 2 ^ k := Nat.mod_lt _ (Nat.two_pow_pos k)
  have hand : (x % 2 ^ k) &&& m0 < 2 ^ k := Nat.lt_of_le_of_lt Nat.and_le_right h
  apply Nat.eq_of_testBit_eq
  intro i
  rw [Nat.mul_comm m1, Nat.mul_comm _ (2 ^ k)]
  rw [Nat.testBit_and, Nat.testBit_two_pow_mul_add _ h, Nat.testBit_two_pow_mul_add _ hand]
  by_cases hi : i < k
  · simp [hi, Nat.testBit_mod_two_pow]
  · simp only [hi, if_false, Nat.testBit_and]
    rw [← Nat.shiftRight_eq_div_pow, Nat.testBit_shiftRight]
    congr 2; omega

theorem and_mask (x n : Nat) : x &&& (2 ^ n - 1) = x % 2 ^ n := Nat.and_two_pow_sub_one_eq_mod x n

theorem and_255 (x : Nat) : x &&& 255 = x % 256 := and_mask x 8

theorem and_65535 (x : Nat) : x &&& 65535 = x % 65536 := and_mask x 16

theorem and_63 (x : Nat) : x &&& 63 = x % 64 := and_mask x 6

theorem and_15 (x : Nat) : x &&& 15 = x % 16 := and_mask x 4

theorem and_3 (x : Nat) : x &&& 3 = x % 4 := and_mask x 2

theorem and_1 (x : Nat) : x &&& 1 = x % 2 := and_mask x 1

/-- `x & 0x00FF00FF`. -/
theorem and_00FF00FF (x : Nat) : x &&& 0x00FF00FF = (x / 65536 % 256) * 65536 + x % 256 := by
  have := and_split x 255 255 16 (by omega)
  simp only [and_255] at this
  simp only [Nat.reducePow, Nat.reduceMul, Nat.reduceAdd] at this ⊢
  exact this.trans (by omega)

theorem and_shl (x m k : Nat) : x &&& (m * 2 ^ k) = ((x / 2 ^ k) &&& m) * 2 ^ k := by
  have := and_split x m 0 k (Nat.two_pow_pos k)
  simpa using this

/-- `x & 0xFF00FF00`. -/
theorem and_FF00FF00 (x : Nat) :
    x &&& 0xFF00FF00 = (x / 16777216 % 256) * 16777216 + (x / 256 % 256) * 256 := by
  have := and_shl x 0x00FF00FF 8
  rw [and_00FF00FF] at this
  simp only [Nat.reducePow, Nat.reduceMul] at this ⊢
  exact this.trans (by omega)

/-- `x & 0x00FF00FF00FF00FF`. -/
theorem and_00FF00FF00FF00FF (x : Nat) :
    x &&& 0x00FF00FF00FF00FF =
      (x / 2 ^ 48 % 256) * 2 ^ 48 + (x / 2 ^ 32 % 256) * 2 ^ 32 + (x / 2 ^ 16 % 256) * 2 ^ 16 + x % 256 := by
  have := and_split x 0x00FF00FF 0x00FF00FF 32 (by omega)
  rw [and_00FF00FF, and_00FF00FF] at this
  simp only [Nat.reducePow, Nat.reduceMul, Nat.reduceAdd] at this ⊢
  exact this.trans (by omega)

/-- `x & 0x0000FFFF0000FFFF`. -/
theorem and_0000FFFF0000FFFF (x : Nat) :
    x &&& 0x0000FFFF0000FFFF = (x / 4294967296 % 65536) * 4294967296 + x % 65536 := by
  have := and_split x 0xFFFF 0xFFFF 32 (by omega)
  simp only [and_65535] at this
  simp only [Nat.reducePow, Nat.reduceMul, Nat.reduceAdd] at this ⊢
  exact this.trans (by omega)

theorem or_disjoint (a b k : Nat) (ha : a % 2 ^ k = 0) (hb : b < 2 ^ k) : a ||| b = a + b := by
  have : a = 2 ^ k * (a / 2 ^ k) := by
    have := Nat.div_add_mod a (2 ^ k)
    omega
  rw [this, ← Nat.two_pow_add_eq_or_of_lt hb]

theorem or_disjoint' (a b k : Nat) (ha : a % 2 ^ k = 0) (hb : b < 2 ^ k) : b ||| a = a + b := by
  rw [Nat.or_comm]; exact or_disjoint a b k ha hb

theorem or_split (a1 a0 b1 b0 k : Nat) (ha : a0 < 2 ^ k) (hb : b0 < 2 ^ k) :
    (a1 * 2 ^ k + a0) ||| (b1 * 2 ^ k + b0) = (a1 ||| b1) * 2 ^ k + (a0 ||| b0) := by
  have hor : a0 ||| b0 < 2 ^ k := Nat.or_lt_two_pow ha hb
  apply Nat.eq_of_testBit_eq
  intro i
  rw [Nat.mul_comm a1, Nat.mul_comm b1, Nat.mul_comm _ (2 ^ k)]
  rw [Nat.testBit_or, Nat.testBit_two_pow_mul_add _ ha, Nat.testBit_two_pow_mul_add _ hb,
    Nat.testBit_two_pow_mul_add _ hor]
  by_cases hi : i < k
  · simp [hi]
  · simp [hi]

theorem or_split16 (a1 a0 b1 b0 : Nat) (ha : a0 < 65536) (hb : b0 < 65536) :
    (a1 * 65536 + a0) ||| (b1 * 65536 + b0) = (a1 ||| b1) * 65536 + (a0 ||| b0) :=
  or_split a1 a0 b1 b0 16 ha hb

theorem or_disjoint8 (a b : Nat) (hb : b < 256) : (a * 256) ||| b = a * 256 + b :=
  or_disjoint (a * 256) b 8 (Nat.mul_mod_left a 256) hb

theorem or_disjoint16 (a b : Nat) (hb : b < 65536) : (a * 65536) ||| b = a * 65536 + b :=
  or_disjoint (a * 65536) b 16 (Nat.mul_mod_left a 65536) hb

theorem or_disjoint24 (a b : Nat) (hb : b < 16777216) : (a * 16777216) ||| b = a * 16777216 + b :=
  or_disjoint (a * 16777216) b 24 (Nat.mul_mod_left a 16777216) hb

/-- `x ^ 0xFF` on a byte. -/
theorem xor_255 (x : Nat) (h : x < 256) : x ^^^ 255 = 255 - x := by
  have : ∀ y : Fin 256, y.val ^^^ 255 = 255 - y.val := by decide +kernel
  exact this ⟨x, h⟩

/-- Bounded check used for kernel evaluation of *whole* finite tables. -/
def allBelow (p : Nat → Bool) : Nat → Bool
  | 0 => true
  | n + 1 => p n && allBelow p n

theorem allBelow_spec (p : Nat → Bool) (n : Nat) (h : allBelow p n = true) :
    ∀ k < n, p k = true := by
  induction n with
  | zero => intro k hk; omega
  | succ n ih =>
    simp only [allBelow, Bool.and_eq_true] at h
    intro k hk
    rcases Nat.lt_succ_iff_lt_or_eq.mp hk with h1 | h1
    · exact ih h.2 k h1
    · subst h1; exact h.1

end Blend2D.Bits
