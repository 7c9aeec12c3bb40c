import Verif.Bmp.Model
import Verif.Util.Bits
import Mathlib.Tactic.Ring
import Mathlib.Tactic.NormNum

/-!
# Masks of components
-/
namespace Blend2D.Bmp
open PixConv

theorem ctz_spec (n : Nat) (x : UInt32) (h : x.toNat < 2 ^ n) (h0 : x.toNat ≠ 0) : ∃ o, x.toNat = 2 ^ ctz n x * (2 * o + 1) := by
  induction n generalizing x with
  | zero => simp at h; omega
  | succ n ih =>
    unfold ctz
    have e : x &&& 1 = 0 ↔ x.toNat % 2 = 0 := by
      rw [← UInt32.toNat_inj, UInt32.toNat_and]
      show x.toNat &&& 1 = 0 ↔ _
      rw [Bits.and_1]
    have hs : (x >>> 1).toNat = x.toNat / 2 := by
      rw [UInt32.toNat_shiftRight]
      show x.toNat >>> 1 = _
      rw [Nat.shiftRight_eq_div_pow]
    by_cases hx : x &&& 1 = 0
    · rw [if_pos hx]
      rw [e] at hx
      obtain ⟨o, ho⟩ := ih (x >>> 1) (by rw [hs]; rw [Nat.pow_succ] at h; omega) (by rw [hs]; omega)
      refine ⟨o, ?_⟩
      rw [hs] at ho
      rw [Nat.pow_succ, Nat.mul_right_comm]
      omega
    · rw [if_neg hx]
      rw [e] at hx
      exact ⟨x.toNat / 2, by simp; omega⟩

/-- The lowest bit of a number. -/
theorem lowest (x : UInt32) (s o : Nat) (h : x.toNat = 2 ^ s * (2 * o + 1)) : (x &&& (~~~x + 1)).toNat = 2 ^ s := by
  have hlt := x.toNat_lt
  have hs : s < 32 := by
    by_contra hc
    have : 2 ^ 32 ≤ 2 ^ s := Nat.pow_le_pow_right (by omega) (by omega)
    have : 2 ^ s * 1 ≤ 2 ^ s * (2 * o + 1) := Nat.mul_le_mul_left _ (by omega)
    omega
  have e32 : 2 ^ 32 = 2 ^ s * (2 * 2 ^ (31 - s)) := by
    rw [Nat.mul_left_comm, ← Nat.pow_add, show s + (31 - s) = 31 by omega]; norm_num
  have ho : o < 2 ^ (31 - s) := by
    have : 2 ^ s * (2 * o + 1) < 2 ^ s * (2 * 2 ^ (31 - s)) := by omega
    have := Nat.lt_of_mul_lt_mul_left this
    omega
  have hneg : (~~~x + 1).toNat = 2 ^ s * (2 * (2 ^ (31 - s) - 1 - o) + 1) := by
    rw [UInt32.toNat_add, UInt32.toNat_not]
    have : 1 ≤ x.toNat := by rw [h]; exact Nat.mul_pos (Nat.two_pow_pos _) (by omega)
    have hm : (UInt32.size - 1 - x.toNat + (1 : UInt32).toNat) % 2 ^ 32 = 2 ^ 32 - x.toNat := by
      show (2 ^ 32 - 1 - x.toNat + 1) % 2 ^ 32 = _
      omega
    rw [hm, h, e32, ← Nat.mul_sub]
    congr 1
    omega
  rw [UInt32.toNat_and, h, hneg]
  apply Nat.eq_of_testBit_eq
  intro i
  rw [Nat.testBit_and, Nat.mul_comm, Nat.testBit_mul_two_pow, Nat.mul_comm (2 ^ s), Nat.testBit_mul_two_pow, Nat.testBit_two_pow]
  by_cases hi : s ≤ i
  · simp only [hi, decide_true, Bool.true_and]
    obtain ⟨j, rfl⟩ : ∃ j, i = s + j := ⟨i - s, by omega⟩
    rw [Nat.add_sub_cancel_left]
    cases j with
    | zero => simp [Nat.testBit_zero]
    | succ j =>
      rw [Nat.testBit_succ, Nat.testBit_succ, show (2 * o + 1) / 2 = o by omega,
        show (2 * (2 ^ (31 - s) - 1 - o) + 1) / 2 = 2 ^ (31 - s) - (o + 1) by omega, Nat.testBit_two_pow_sub_succ ho]
      cases o.testBit j <;> simp
  · simp only [hi, decide_false, Bool.false_and]
    rw [eq_comm, decide_eq_false_iff_not]
    omega

/-- The mask of a component. -/
theorem maskCh_spec (m : UInt32) (hc : consecutive m = true) :
    m.toNat = (2 ^ (maskCh m).size - 1) * 2 ^ (maskCh m).shift ∧ 1 ≤ (maskCh m).size ∧ (maskCh m).shift + (maskCh m).size ≤ 32 := by
  unfold consecutive at hc
  rw [decide_eq_true_iff] at hc
  obtain ⟨h0, hge⟩ := hc
  have hlt := m.toNat_lt
  have h0' : m.toNat ≠ 0 := fun e => h0 (UInt32.toNat_inj.1 e)
  obtain ⟨o, ho⟩ := ctz_spec 32 m hlt h0'
  unfold maskCh
  rw [if_neg h0]
  simp only
  generalize hs : ctz 32 m = s at *
  have hs32 : s < 32 := by
    by_contra hc
    have : 2 ^ 32 ≤ 2 ^ s := Nat.pow_le_pow_right (by omega) (by omega)
    have : 2 ^ s * 1 ≤ 2 ^ s * (2 * o + 1) := Nat.mul_le_mul_left _ (by omega)
    omega
  have hsh : (m >>> UInt32.ofNat s).toNat = 2 * o + 1 := by
    rw [UInt32.toNat_shiftRight, UInt32.toNat_ofNat', Nat.shiftRight_eq_div_pow, Nat.mod_eq_of_lt (show s < 2 ^ 32 by omega),
      Nat.mod_eq_of_lt hs32, ho, Nat.mul_div_cancel_left _ (Nat.two_pow_pos _)]
  by_cases hf : m >>> UInt32.ofNat s = 0xFFFFFFFF
  · rw [if_pos hf]
    rw [hf] at hsh
    have hsh : 4294967295 = 2 * o + 1 := hsh
    have : s = 0 := by
      by_contra hc
      have : 2 ^ 1 ≤ 2 ^ s := Nat.pow_le_pow_right (by omega) (by omega)
      have : 2 ^ 1 * (2 * o + 1) ≤ 2 ^ s * (2 * o + 1) := Nat.mul_le_mul_right _ this
      omega
    subst this
    omega
  · rw [if_neg hf]
    have hne : (~~~(m >>> UInt32.ofNat s)).toNat ≠ 0 := by
      rw [UInt32.toNat_not, hsh]
      intro e
      apply hf
      apply UInt32.toNat_inj.1
      rw [hsh]
      have := UInt32.toNat_lt (m >>> UInt32.ofNat s)
      rw [hsh] at this
      change 4294967296 - 1 - (2 * o + 1) = 0 at e
      show _ = 4294967295
      omega
    obtain ⟨q, hq⟩ := ctz_spec 32 _ (UInt32.toNat_lt _) hne
    generalize hk : ctz 32 (~~~(m >>> UInt32.ofNat s)) = k at *
    rw [UInt32.toNat_not, hsh] at hq
    change 4294967296 - 1 - (2 * o + 1) = _ at hq
    have hu := UInt32.toNat_lt (m >>> UInt32.ofNat s)
    rw [hsh] at hu
    have hq' : 2 * o + 2 + 2 ^ k * (2 * q + 1) = 2 ^ 32 := by omega
    have hk1 : 1 ≤ k := by
      by_contra hc
      have : k = 0 := by omega
      subst this
      omega
    have hk32 : k < 32 := by
      by_contra hc
      have : 2 ^ 32 ≤ 2 ^ k := Nat.pow_le_pow_right (by omega) (by omega)
      have : 2 ^ k * 1 ≤ 2 ^ k * (2 * q + 1) := Nat.mul_le_mul_left _ (by omega)
      omega
    -- the number is `2 ^ k - 1` with something above
    obtain ⟨r, hr⟩ : ∃ r, 2 * o + 2 = 2 ^ k * (2 * r + 1) := by
      have e32 : 2 ^ 32 = 2 ^ k * (2 * 2 ^ (31 - k)) := by
        rw [Nat.mul_left_comm, ← Nat.pow_add, show k + (31 - k) = 31 by omega]; norm_num
      have hlt' : 2 ^ k * (2 * q + 1) < 2 ^ k * (2 * 2 ^ (31 - k)) := by omega
      have hlt' := Nat.lt_of_mul_lt_mul_left hlt'
      refine ⟨2 ^ (31 - k) - 1 - q, ?_⟩
      rw [show 2 * (2 ^ (31 - k) - 1 - q) + 1 = 2 * 2 ^ (31 - k) - (2 * q + 1) by omega, Nat.mul_sub, ← e32]
      omega
    have hm : m.toNat = 2 ^ s * (2 ^ k - 1 + 2 ^ (k + 1) * r) := by
      rw [ho]
      congr 1
      have : 2 ^ (k + 1) * r = 2 ^ k * (2 * r) := by rw [Nat.pow_succ]; ring
      have h2 : 2 ^ k * (2 * r + 1) = 2 ^ k * (2 * r) + 2 ^ k := by ring
      have := Nat.two_pow_pos k
      omega
    have hsum : m.toNat + 2 ^ s = 2 ^ s * (2 ^ k + 2 ^ (k + 1) * r) := by
      rw [hm]
      have := Nat.two_pow_pos k
      rw [show 2 ^ k + 2 ^ (k + 1) * r = (2 ^ k - 1 + 2 ^ (k + 1) * r) + 1 by omega]
      ring
    have hr0 : r = 0 ∧ s + k ≤ 32 := by
      by_cases hsk : s + k < 32
      · refine ⟨?_, by omega⟩
        by_contra hr0
        have hsum32 : m.toNat + 2 ^ s < 2 ^ 32 := by
          have e32 : 2 ^ 32 = 2 ^ (s + k) * (2 * 2 ^ (31 - (s + k))) := by
            rw [Nat.mul_left_comm, ← Nat.pow_add, show s + k + (31 - (s + k)) = 31 by omega]; norm_num
          have e : m.toNat + 2 ^ s = 2 ^ (s + k) * (2 * r + 1) := by
            rw [hsum, Nat.pow_add, Nat.pow_succ]; ring
          have hle : 2 ^ (s + k) * (2 * r + 1) < 2 ^ (s + k) * (2 * 2 ^ (31 - (s + k)) + 1) := by
            have : 2 ^ s ≤ 2 ^ (s + k) := Nat.pow_le_pow_right (by omega) (by omega)
            rw [Nat.mul_add _ (2 * 2 ^ (31 - (s + k))) 1, Nat.mul_one, ← e32]
            omega
          have := Nat.lt_of_mul_lt_mul_left hle
          have : 2 * r + 1 < 2 * 2 ^ (31 - (s + k)) := by omega
          rw [e, e32]
          exact Nat.mul_lt_mul_of_pos_left this (Nat.two_pow_pos _)
        have hx : (m ^^^ (m + (m &&& (~~~m + 1)))).toNat = 2 ^ s * (2 ^ (k + 1) - 1) := by
          rw [UInt32.toNat_xor, UInt32.toNat_add, lowest m s o ho, Nat.mod_eq_of_lt hsum32, hsum, hm]
          have hp := Nat.two_pow_pos k
          apply Nat.eq_of_testBit_eq
          intro i
          rw [Nat.testBit_xor, Nat.testBit_two_pow_mul, Nat.testBit_two_pow_mul, Nat.testBit_two_pow_mul]
          by_cases hi : s ≤ i
          · simp only [ge_iff_le, hi, decide_true, Bool.true_and]
            generalize i - s = j
            rw [Nat.add_comm (2 ^ k - 1), Nat.add_comm (2 ^ k), Nat.testBit_two_pow_mul_add _ (by rw [Nat.pow_succ]; omega),
              Nat.testBit_two_pow_mul_add _ (by rw [Nat.pow_succ]; omega), Nat.testBit_two_pow_sub_one]
            by_cases hj : j < k + 1
            · rw [if_pos hj, if_pos hj, Nat.testBit_two_pow_sub_one, Nat.testBit_two_pow]
              by_cases hjk : j < k
              · simp [hjk, hj]; omega
              · have : j = k := by omega
                simp [this]
            · rw [if_neg hj, if_neg hj]
              simp [hj]
          · simp [hi]
        have hge' : (m ^^^ (m + (m &&& (~~~m + 1)))).toNat ≥ m.toNat := hge
        rw [hx, hm] at hge'
        have := Nat.le_of_mul_le_mul_left hge' (Nat.two_pow_pos s)
        have h1 : 2 ^ (k + 1) * 1 ≤ 2 ^ (k + 1) * r := Nat.mul_le_mul_left _ (by omega)
        have := Nat.two_pow_pos k
        omega
      · -- the mask reaches the most significant bit
        have h1 : 2 ^ 32 ≤ 2 ^ (s + k) := Nat.pow_le_pow_right (by omega) (by omega)
        have e : m.toNat + 2 ^ s = 2 ^ (s + k) * (2 * r + 1) := by
          rw [hsum, Nat.pow_add, Nat.pow_succ]; ring
        have hle : 2 ^ s ≤ 2 ^ 31 := Nat.pow_le_pow_right (by omega) (by omega)
        have hr0 : r = 0 := by
          by_contra hr0
          have : 2 ^ (s + k) * 2 ≤ 2 ^ (s + k) * (2 * r + 1) := Nat.mul_le_mul_left _ (by omega)
          omega
        refine ⟨hr0, ?_⟩
        by_contra hc
        subst hr0
        have : 2 ^ 33 ≤ 2 ^ (s + k) := Nat.pow_le_pow_right (by omega) (by omega)
        omega
    obtain ⟨rfl, hsk⟩ := hr0
    refine ⟨?_, hk1, hsk⟩
    rw [hm]
    simp [Nat.mul_comm]

/-- Every component of checked masks. -/
theorem checkMasks_spec (l : List (UInt32 × Bool)) (combined : UInt32) (h : checkMasks l combined = true) :
    ∀ mc ∈ l, (mc.2 = true → mc.1 ≠ 0) ∧ (mc.1 ≠ 0 → consecutive mc.1 = true) := by
  induction l generalizing combined with
  | nil => simp
  | cons x l ih =>
    obtain ⟨m, colour⟩ := x
    unfold checkMasks at h
    split at h
    · simp at h
    · rename_i h1
      split at h
      · simp at h
      · rename_i h2
        split at h
        · simp at h
        · intro mc hmc
          rcases List.mem_cons.1 hmc with rfl | hmc
          · refine ⟨fun hc e => h1 ⟨e, hc⟩, fun hm => ?_⟩
            by_contra hn
            exact h2 ⟨hm, by simpa using hn⟩
          · exact ih _ h mc hmc

end Blend2D.Bmp
