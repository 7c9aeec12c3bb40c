import Verif.Deflate.Table

/-!
# Bit reversal

Codewords are read from the most significant bit, and the decoder keeps them reversed.
-/

namespace Blend2D.Deflate

/-- The number whose `n` bits are the `n` low bits of `c` in reverse order. -/
def rev : Nat → Nat → Nat
  | 0, _ => 0
  | n + 1, c => rev n (c / 2) + 2 ^ n * (c % 2)

theorem rev_lt : ∀ n c, rev n c < 2 ^ n
  | 0, _ => by simp [rev]
  | n + 1, c => by
    have h := rev_lt n (c / 2)
    have h2 := Nat.mod_lt c (show 0 < 2 by omega)
    simp only [rev]
    rw [Nat.pow_succ]
    have : 2 ^ n * (c % 2) ≤ 2 ^ n * 1 := Nat.mul_le_mul_left _ (by omega)
    omega

theorem rev_testBit : ∀ n c i, (rev n c).testBit i = (decide (i < n) && c.testBit (n - 1 - i))
  | 0, c, i => by simp [rev]
  | n + 1, c, i => by
    simp only [rev]
    rw [Nat.add_comm, Nat.testBit_two_pow_mul_add _ (rev_lt n _)]
    by_cases h : i < n
    · have e : n + 1 - 1 - i = (n - 1 - i) + 1 := by omega
      simp only [h, if_true, rev_testBit n, show i < n + 1 by omega, e, Nat.testBit_succ]
    · rw [if_neg h]
      by_cases h2 : i = n
      · subst h2
        simp [Nat.testBit_zero]
      · have h3 : ¬ i < n + 1 := by omega
        simp only [h3, decide_false, Bool.false_and]
        apply Nat.testBit_lt_two_pow
        have : c % 2 < 2 := Nat.mod_lt _ (by omega)
        have : 2 ^ 1 ≤ 2 ^ (i - n) := Nat.pow_le_pow_right (by omega) (by omega)
        omega

/-- Reversing twice. -/
theorem rev_rev {n c : Nat} (h : c < 2 ^ n) : rev n (rev n c) = c := by
  apply Nat.eq_of_testBit_eq
  intro i
  rw [rev_testBit, rev_testBit]
  by_cases hi : i < n
  · have e : n - 1 - (n - 1 - i) = i := by omega
    simp [hi, show n - 1 - i < n by omega, e]
  · simp only [hi, decide_false, Bool.false_and]
    symm
    exact Nat.testBit_lt_two_pow (Nat.lt_of_lt_of_le h (Nat.pow_le_pow_right (by omega) (by omega)))

theorem rev_inj {n a b : Nat} (ha : a < 2 ^ n) (hb : b < 2 ^ n) (h : rev n a = rev n b) : a = b := by
  rw [← rev_rev ha, ← rev_rev hb, h]

/-- Appending zeros does nothing to a reversed codeword. -/
theorem rev_shift (n k c : Nat) : rev (n + k) (c * 2 ^ k) = rev n c := by
  induction k with
  | zero => simp
  | succ k ih =>
    rw [← Nat.add_assoc, rev, Nat.pow_succ, ← Nat.mul_assoc, Nat.mul_div_cancel _ (by omega), ih]
    simp

/-- The low bits of a reversed number are its high bits. -/
theorem rev_mod {n l c : Nat} (h : l ≤ n) : rev n c % 2 ^ l = rev l (c / 2 ^ (n - l)) := by
  apply Nat.eq_of_testBit_eq
  intro i
  rw [Nat.testBit_mod_two_pow, rev_testBit, rev_testBit, Nat.testBit_div_two_pow]
  by_cases hi : i < l
  · have e : n - 1 - i = l - 1 - i + (n - l) := by omega
    simp [hi, show i < n by omega, e]
  · simp [hi]

/-- The next codeword. -/
theorem nextCodeword_rev : ∀ n c, c + 1 < 2 ^ n → nextCodeword (rev n c) (2 ^ n - 1) = rev n (c + 1)
  | 0, c, h => by simp at h
  | n + 1, c, h => by
    have hpow : 2 ^ (n + 1) = 2 * 2 ^ n := by rw [Nat.pow_succ]; omega
    have hrl := rev_lt n (c / 2)
    by_cases hc : c % 2 = 0
    · -- The highest bit of the reversed codeword is zero.
      have e1 : rev (n + 1) c = rev n (c / 2) := by simp [rev, hc]
      have e2 : rev (n + 1) (c + 1) = rev n (c / 2) + 2 ^ n := by
        have a : (c + 1) / 2 = c / 2 := by omega
        have b : (c + 1) % 2 = 1 := by omega
        simp [rev, a, b]
      have hx : Nat.log2 (rev n (c / 2) ^^^ (2 ^ (n + 1) - 1)) = n := by
        have hb : (rev n (c / 2) ^^^ (2 ^ (n + 1) - 1)).testBit n = true := by
          rw [Nat.testBit_xor, Nat.testBit_lt_two_pow hrl, Nat.testBit_two_pow_sub_one]
          simp
        have h0 : rev n (c / 2) ^^^ (2 ^ (n + 1) - 1) ≠ 0 := by
          intro h0
          rw [h0] at hb
          simp at hb
        rw [Nat.log2_eq_iff h0]
        refine ⟨Nat.ge_two_pow_of_testBit hb, ?_⟩
        apply Nat.xor_lt_two_pow
        · omega
        · omega
      simp only [nextCodeword, topBit, e1, e2, hx]
      rw [Nat.and_two_pow_sub_one_eq_mod, Nat.mod_eq_of_lt hrl, Nat.or_comm]
      have := Nat.two_pow_add_eq_or_of_lt hrl 1
      simp only [Nat.mul_one] at this
      omega
    · have hc1 : c % 2 = 1 := by omega
      have e1 : rev (n + 1) c = 2 ^ n + rev n (c / 2) := by simp [rev, hc1]; omega
      have hc2 : c / 2 + 1 < 2 ^ n := by omega
      have e2 : rev (n + 1) (c + 1) = rev n (c / 2 + 1) := by
        have a : (c + 1) / 2 = c / 2 + 1 := by omega
        have b : (c + 1) % 2 = 0 := by omega
        simp [rev, a, b]
      have hxor : rev (n + 1) c ^^^ (2 ^ (n + 1) - 1) = rev n (c / 2) ^^^ (2 ^ n - 1) := by
        apply Nat.eq_of_testBit_eq
        intro i
        rw [Nat.testBit_xor, Nat.testBit_xor, Nat.testBit_two_pow_sub_one, Nat.testBit_two_pow_sub_one, rev_testBit, rev_testBit]
        by_cases hi : i < n
        · have e : n + 1 - 1 - i = (n - 1 - i) + 1 := by omega
          rw [e, Nat.testBit_succ]
          simp [hi, show i < n + 1 by omega]
        · by_cases h2 : i = n
          · subst h2
            simp [Nat.testBit_zero, hc1]
          · simp [hi, show ¬ i < n + 1 by omega]
      have ih := nextCodeword_rev n (c / 2) hc2
      rw [e2, ← ih]
      simp only [nextCodeword, topBit, hxor]
      congr 1
      have hne : rev n (c / 2) ^^^ (2 ^ n - 1) ≠ 0 := by
        intro h0
        have : rev n (c / 2) = 2 ^ n - 1 := by
          apply Nat.eq_of_testBit_eq
          intro i
          have := congrArg (fun x => x.testBit i) h0
          simp only [Nat.testBit_xor, Nat.zero_testBit] at this
          revert this
          cases (rev n (c / 2)).testBit i <;> cases (2 ^ n - 1).testBit i <;> simp
        have h3 := rev_rev (n := n) (c := c / 2) (by omega)
        have h4 : rev n (2 ^ n - 1) = 2 ^ n - 1 := by
          apply Nat.eq_of_testBit_eq
          intro i
          rw [rev_testBit, Nat.testBit_two_pow_sub_one, Nat.testBit_two_pow_sub_one]
          by_cases hi : i < n
          · simp [hi, show n - 1 - i < n by omega]
          · simp [hi]
        rw [this, h4] at h3
        omega
      have hlt : rev n (c / 2) ^^^ (2 ^ n - 1) < 2 ^ n := Nat.xor_lt_two_pow hrl (by have := Nat.two_pow_pos n; omega)
      have hlog : Nat.log2 (rev n (c / 2) ^^^ (2 ^ n - 1)) < n := (Nat.log2_lt hne).2 hlt
      rw [Nat.and_two_pow_sub_one_eq_mod, Nat.and_two_pow_sub_one_eq_mod, e1]
      generalize Nat.log2 (rev n (c / 2) ^^^ (2 ^ n - 1)) = k at hlog
      have : 2 ^ n = 2 ^ k * 2 ^ (n - k) := by rw [← Nat.pow_add]; congr 1; omega
      rw [this, Nat.mul_add_mod]

theorem pow_split {l n : Nat} (h : l ≤ n) : 2 ^ n = 2 ^ l * 2 ^ (n - l) := by
  rw [← Nat.pow_add]; congr 1; omega

/-! Codewords of at most 15 bits with zeros appended to 15 bits: `P` is a multiple of `2 ^ (15 - l)`. -/

theorem rev15_cut {l P : Nat} (h : l ≤ 15) : rev 15 P % 2 ^ l = rev l (P / 2 ^ (15 - l)) := rev_mod h

theorem rev15_code {l c : Nat} (h : l ≤ 15) : rev 15 (c * 2 ^ (15 - l)) = rev l c := by
  have e : 15 = l + (15 - l) := by omega
  conv => lhs; rw [e]
  have := rev_shift l (15 - l) c
  rwa [show l + (15 - l) - l = 15 - l by omega]

theorem rev15_lt {l P : Nat} (h : l ≤ 15) (hd : 2 ^ (15 - l) ∣ P) : rev 15 P < 2 ^ l := by
  obtain ⟨c, rfl⟩ := hd
  rw [Nat.mul_comm, rev15_code h]
  exact rev_lt _ _

theorem rev15_noclash {l P P' : Nat} (h : l ≤ 15) (hd : 2 ^ (15 - l) ∣ P') (hle : P' + 2 ^ (15 - l) ≤ P) (hP : P < 2 ^ 15) :
    rev 15 P % 2 ^ l ≠ rev 15 P' := by
  obtain ⟨c, rfl⟩ := hd
  rw [rev15_cut h, Nat.mul_comm, rev15_code h]
  have hpos := Nat.two_pow_pos (15 - l)
  have h15 := pow_split h
  intro he
  have h1 : P / 2 ^ (15 - l) < 2 ^ l := (Nat.div_lt_iff_lt_mul hpos).2 (by rw [← h15]; exact hP)
  have h2 : c + 1 ≤ P / 2 ^ (15 - l) := (Nat.le_div_iff_mul_le hpos).2 (by rw [Nat.add_mul, Nat.mul_comm c]; omega)
  have := rev_inj h1 (by omega) he
  omega

theorem rev15_next {l P : Nat} (h : l ≤ 15) (hd : 2 ^ (15 - l) ∣ P) (hP : P + 2 ^ (15 - l) < 2 ^ 15) :
    nextCodeword (rev 15 P) (2 ^ l - 1) = rev 15 (P + 2 ^ (15 - l)) := by
  obtain ⟨c, rfl⟩ := hd
  have h15 := pow_split h
  have e : 2 ^ (15 - l) * c + 2 ^ (15 - l) = (c + 1) * 2 ^ (15 - l) := by rw [Nat.add_mul, Nat.mul_comm]; omega
  rw [e, Nat.mul_comm _ c, rev15_code h, rev15_code h]
  apply nextCodeword_rev
  rw [e, h15] at hP
  exact Nat.lt_of_mul_lt_mul_right hP

theorem rev_ones (n : Nat) : rev n (2 ^ n - 1) = 2 ^ n - 1 := by
  apply Nat.eq_of_testBit_eq
  intro i
  rw [rev_testBit, Nat.testBit_two_pow_sub_one, Nat.testBit_two_pow_sub_one]
  by_cases hi : i < n
  · simp [hi, show n - 1 - i < n by omega]
  · simp [hi]

theorem rev15_last {l P : Nat} (h : l ≤ 15) (hd : 2 ^ (15 - l) ∣ P) (hP : P < 2 ^ 15) :
    rev 15 P = 2 ^ l - 1 ↔ P + 2 ^ (15 - l) = 2 ^ 15 := by
  obtain ⟨c, rfl⟩ := hd
  have h15 := pow_split h
  have hpos := Nat.two_pow_pos (15 - l)
  have hposl := Nat.two_pow_pos l
  rw [h15, Nat.mul_comm, Nat.mul_lt_mul_right hpos] at hP
  rw [h15, Nat.mul_comm _ c, rev15_code h]
  have e : c * 2 ^ (15 - l) + 2 ^ (15 - l) = (c + 1) * 2 ^ (15 - l) := by rw [Nat.add_mul]; omega
  rw [e]
  constructor
  · intro he
    have : c = 2 ^ l - 1 := by
      rw [← rev_ones l] at he
      exact rev_inj hP (by omega) he
    congr 1
    omega
  · intro he
    have := Nat.eq_of_mul_eq_mul_right hpos he
    have : c = 2 ^ l - 1 := by omega
    rw [this, rev_ones]

end Blend2D.Deflate
