import Verif.VarNum.Spec
import Mathlib.Tactic.Linarith
import Mathlib.Tactic.Ring
import Mathlib.Tactic.NormNum
import Mathlib.Tactic.Positivity
/-! Numbers in variants: rounding of integers to doubles. -/
namespace Blend2D.VarNum

/-- Large doubles are integers. -/
theorem big_double {x : Rat} (h : Spec.Double x) (hx : (2 : Rat) ^ 53 ≤ |x|) :
    ∃ (m : Int) (e : Nat), |m| < 2 ^ 53 ∧ e ≤ 971 ∧ x = m * 2 ^ e := by
  obtain ⟨m, a, b, hm, ha, hb, he⟩ := h
  have hm' : (|m| : Rat) < 2 ^ 53 := by exact_mod_cast hm
  by_cases hab : a ≤ b
  · exfalso
    obtain ⟨c, rfl⟩ := Nat.exists_eq_add_of_le hab
    have h1 : |x| * 2 ^ c = |(m : Rat)| := by
      have h2 : x * 2 ^ c = m := by
        have h3 : (x * 2 ^ c) * 2 ^ a = m * 2 ^ a := by rw [← he, pow_add]; ring
        exact mul_right_cancel₀ (by positivity) h3
      rw [← h2, abs_mul, abs_of_pos (show (0 : Rat) < 2 ^ c by positivity)]
    have h4 : (1 : Rat) ≤ 2 ^ c := one_le_pow₀ (by norm_num)
    have h5 : |x| ≤ |x| * 2 ^ c := le_mul_of_one_le_right (abs_nonneg x) h4
    linarith
  · obtain ⟨c, rfl⟩ := Nat.exists_eq_add_of_le (show b ≤ a by omega)
    refine ⟨m, c, hm, by omega, ?_⟩
    have h3 : x * 2 ^ b = (m * 2 ^ c) * 2 ^ b := by rw [he, pow_add]; ring
    exact mul_right_cancel₀ (by positivity) h3

theorem big_int {x : Rat} (h : Spec.Double x) (hx : (2 : Rat) ^ 53 ≤ |x|) : ∃ k : Int, x = k := by
  obtain ⟨m, e, -, -, rfl⟩ := big_double h hx
  exact ⟨m * 2 ^ e, by push_cast; rfl⟩

/-- The parts of a large number: the shift, and 53 bits. -/
theorem parts {n : Nat} (h : 2 ^ 53 ≤ n) :
    1 ≤ n.log2 - 52 ∧ 2 ^ 52 ≤ n / 2 ^ (n.log2 - 52) ∧ n / 2 ^ (n.log2 - 52) < 2 ^ 53 := by
  have hne : n ≠ 0 := by omega
  have h1 : 53 ≤ n.log2 := (Nat.le_log2 hne).2 h
  have h2 : 2 ^ n.log2 ≤ n := Nat.log2_self_le hne
  have h3 : n < 2 ^ (n.log2 + 1) := Nat.lt_log2_self
  obtain ⟨s, hs⟩ := Nat.exists_eq_add_of_le (show 52 ≤ n.log2 by omega)
  rw [hs] at h2 h3 ⊢
  rw [Nat.add_sub_cancel_left]
  refine ⟨by omega, ?_, ?_⟩
  · rw [Nat.le_div_iff_mul_le (by positivity), ← pow_add]; exact h2
  · rw [Nat.div_lt_iff_lt_mul (by positivity), ← pow_add, show 53 + s = 52 + s + 1 by omega]; exact h3

theorem rndNat_small {n : Nat} (h : n < 2 ^ 53) : rndNat n = n := if_pos h

/-- Multiples of the shift are not rounded. -/
theorem rndNat_exact {n : Nat} (h : 2 ^ (n.log2 - 52) ∣ n) : rndNat n = n := by
  unfold rndNat
  split
  · rfl
  · have hp : 0 < 2 ^ (n.log2 - 52 - 1) := by positivity
    simp only [Nat.mod_eq_zero_of_dvd h]
    rw [if_neg (by omega)]
    exact Nat.div_mul_cancel h

theorem rndNat_double {n : Nat} (h : Spec.Double (n : Rat)) : rndNat n = n := by
  by_cases hn : n < 2 ^ 53
  · exact rndNat_small hn
  · have hn' : 2 ^ 53 ≤ n := by omega
    obtain ⟨m, e, hm, -, he⟩ := big_double h (by rw [abs_of_nonneg (by positivity)]; exact_mod_cast hn')
    have he' : (n : Int) = m * 2 ^ e := by exact_mod_cast he
    have hpos : (0 : Int) < 2 ^ e := by positivity
    have hm0 : 0 ≤ m := by
      by_contra hc
      have : m * 2 ^ e < 0 := mul_neg_of_neg_of_pos (by omega) hpos
      omega
    obtain ⟨k, rfl⟩ := Int.eq_ofNat_of_zero_le hm0
    have hk : k < 2 ^ 53 := by
      rw [abs_of_nonneg hm0] at hm
      exact_mod_cast hm
    have hnk : n = k * 2 ^ e := by exact_mod_cast he'
    have hlt : n < 2 ^ (53 + e) := by
      rw [hnk, pow_add]
      exact Nat.mul_lt_mul_of_pos_right hk (by positivity)
    have hlog : n.log2 < 53 + e := (Nat.log2_lt (by omega)).2 hlt
    apply rndNat_exact
    exact Nat.dvd_trans (Nat.pow_dvd_pow 2 (show n.log2 - 52 ≤ e by omega)) ⟨k, by rw [hnk, Nat.mul_comm]⟩

theorem rndNat_le {n k : Nat} (hk : 53 ≤ k) (h : n ≤ 2 ^ k) : rndNat n ≤ 2 ^ k := by
  by_cases hn : n < 2 ^ 53
  · rw [rndNat_small hn]; exact h
  · obtain ⟨h1, -, h3⟩ := parts (by omega : 2 ^ 53 ≤ n)
    rcases Nat.lt_or_eq_of_le h with hlt | rfl
    · have hlog : n.log2 < k := (Nat.log2_lt (by omega)).2 hlt
      have hb : (n / 2 ^ (n.log2 - 52) + 1) * 2 ^ (n.log2 - 52) ≤ 2 ^ k := by
        calc (n / 2 ^ (n.log2 - 52) + 1) * 2 ^ (n.log2 - 52) ≤ 2 ^ 53 * 2 ^ (n.log2 - 52) := Nat.mul_le_mul_right _ h3
          _ = 2 ^ (53 + (n.log2 - 52)) := (pow_add _ _ _).symm
          _ ≤ 2 ^ k := Nat.pow_le_pow_right (by decide) (by omega)
      unfold rndNat
      rw [if_neg hn]
      refine Nat.le_trans ?_ hb
      apply Nat.mul_le_mul_right
      split <;> omega
    · rw [rndNat_exact]
      rw [Nat.log2_two_pow]
      exact Nat.pow_dvd_pow 2 (by omega)

/-- What is rounded is a double. -/
theorem rndNat_isDouble {n : Nat} (h : n < 2 ^ 64) : Spec.Double (rndNat n : Rat) := by
  by_cases hn : n < 2 ^ 53
  · refine ⟨n, 0, 0, ?_, by decide, by decide, by rw [rndNat_small hn]; push_cast; rfl⟩
    rw [abs_of_nonneg (by positivity)]
    exact_mod_cast hn
  · obtain ⟨h1, h2, h3⟩ := parts (by omega : 2 ^ 53 ≤ n)
    have hlog : n.log2 < 64 := (Nat.log2_lt (by omega)).2 h
    have key : ∀ q, q ≤ 2 ^ 53 → Spec.Double ((q * 2 ^ (n.log2 - 52) : Nat) : Rat) := by
      intro q hq
      rcases Nat.lt_or_eq_of_le hq with hlt | rfl
      · refine ⟨q, n.log2 - 52, 0, ?_, by omega, by decide, by push_cast; ring⟩
        rw [abs_of_nonneg (by positivity)]
        exact_mod_cast hlt
      · refine ⟨1, n.log2 - 52 + 53, 0, by decide, by omega, by decide, by push_cast; rw [pow_add]; ring⟩
    unfold rndNat
    rw [if_neg hn]
    apply key
    split <;> omega

/-- No double is nearer than the rounded number. -/
theorem rndNat_nearest (n : Nat) {y : Rat} (hy : Spec.Double y) : |(rndNat n : Rat) - n| ≤ |y - n| := by
  by_cases hn : n < 2 ^ 53
  · rw [rndNat_small hn, sub_self, abs_zero]
    exact abs_nonneg _
  · obtain ⟨h1, h2, h3⟩ := parts (by omega : 2 ^ 53 ≤ n)
    have hdm := Nat.div_add_mod n (2 ^ (n.log2 - 52))
    have hr := Nat.mod_lt n (show 0 < 2 ^ (n.log2 - 52) by positivity)
    have hhalf : 2 ^ (n.log2 - 52) = 2 * 2 ^ (n.log2 - 52 - 1) := by
      rw [← Nat.pow_succ']; congr 1; omega
    have hrnd : rndNat n = (if n % 2 ^ (n.log2 - 52) > 2 ^ (n.log2 - 52 - 1) ∨
        n % 2 ^ (n.log2 - 52) = 2 ^ (n.log2 - 52 - 1) ∧ n / 2 ^ (n.log2 - 52) % 2 = 1 then
        n / 2 ^ (n.log2 - 52) + 1 else n / 2 ^ (n.log2 - 52)) * 2 ^ (n.log2 - 52) := by
      unfold rndNat
      rw [if_neg hn]
    generalize n / 2 ^ (n.log2 - 52) = q at *
    generalize n % 2 ^ (n.log2 - 52) = r at *
    generalize n.log2 - 52 = s at *
    have hP : (0 : Rat) < 2 ^ s := by positivity
    have hdm' : (n : Rat) = q * 2 ^ s + r := by
      rw [← hdm]; push_cast; ring
    have hr' : (r : Rat) < 2 ^ s := by exact_mod_cast hr
    have hr0 : (0 : Rat) ≤ r := by positivity
    have hhalf' : (2 : Rat) ^ s = 2 * 2 ^ (s - 1) := by exact_mod_cast hhalf
    have hq : (2 : Rat) ^ 52 ≤ q := by exact_mod_cast h2
    have hout : y ≤ q * 2 ^ s ∨ (q + 1) * 2 ^ s ≤ y := by
      by_contra hc
      obtain ⟨c1, c2⟩ := not_or.1 hc
      have c1 := not_le.1 c1
      have c2 := not_le.1 c2
      have hL : (2 : Rat) ^ 52 * 2 ^ s ≤ q * 2 ^ s := mul_le_mul_of_nonneg_right hq (le_of_lt hP)
      have h2s : (2 : Rat) ≤ 2 ^ s := by
        have := pow_le_pow_right₀ (show (1 : Rat) ≤ 2 by norm_num) h1
        simpa using this
      have hbig : (2 : Rat) ^ 53 ≤ |y| := by
        have : (2 : Rat) ^ 52 * 2 ≤ 2 ^ 52 * 2 ^ s := mul_le_mul_of_nonneg_left h2s (by positivity)
        have h53 : (2 : Rat) ^ 53 = 2 ^ 52 * 2 := by norm_num
        exact le_trans (by linarith) (le_abs_self y)
      obtain ⟨m, e, hm, -, rfl⟩ := big_double hy hbig
      have hm' : (m : Rat) < 2 ^ 53 := lt_of_le_of_lt (le_abs_self _) (by exact_mod_cast hm)
      by_cases hes : s ≤ e
      · obtain ⟨c, rfl⟩ := Nat.exists_eq_add_of_le hes
        rw [pow_add, mul_comm ((2 : Rat) ^ s), ← mul_assoc] at c1 c2
        have d1 : (q : Rat) < m * 2 ^ c := lt_of_mul_lt_mul_right c1 (le_of_lt hP)
        have d2 : (m : Rat) * 2 ^ c < q + 1 := lt_of_mul_lt_mul_right c2 (le_of_lt hP)
        have e1 : (q : Int) < m * 2 ^ c := by exact_mod_cast d1
        have e2 : m * 2 ^ c < (q : Int) + 1 := by exact_mod_cast d2
        omega
      · have hpe : (2 : Rat) ^ (e + 1) ≤ 2 ^ s := pow_le_pow_right₀ (by norm_num) (by omega)
        have hE : (0 : Rat) < 2 ^ e := by positivity
        have k1 : (2 : Rat) ^ 52 * 2 ^ (e + 1) ≤ 2 ^ 52 * 2 ^ s := mul_le_mul_of_nonneg_left hpe (by positivity)
        have k2 : (2 : Rat) ^ 53 * 2 ^ e = 2 ^ 52 * 2 ^ (e + 1) := by rw [pow_succ 2 e]; ring
        have k3 : (m : Rat) * 2 ^ e < 2 ^ 53 * 2 ^ e := mul_lt_mul_of_pos_right hm' hE
        linarith
    rw [hrnd]
    split
    · rename_i hup
      have hge : (2 : Rat) ^ (s - 1) ≤ r := by
        have : 2 ^ (s - 1) ≤ r := by omega
        exact_mod_cast this
      push_cast
      have e1 : ((q : Rat) + 1) * 2 ^ s - n = 2 ^ s - r := by rw [hdm']; ring
      rw [e1, abs_of_nonneg (by linarith)]
      have hU : ((q : Rat) + 1) * 2 ^ s = q * 2 ^ s + 2 ^ s := by ring
      rcases hout with ho | ho
      · exact le_trans (by linarith) (neg_le_abs _)
      · exact le_trans (by linarith) (le_abs_self _)
    · rename_i hup
      have hle : (r : Rat) ≤ 2 ^ (s - 1) := by
        have : r ≤ 2 ^ (s - 1) := by omega
        exact_mod_cast this
      push_cast
      have e1 : (q : Rat) * 2 ^ s - n = -r := by rw [hdm']; ring
      rw [e1, abs_neg, abs_of_nonneg hr0]
      have hU : ((q : Rat) + 1) * 2 ^ s = q * 2 ^ s + 2 ^ s := by ring
      rcases hout with ho | ho
      · exact le_trans (by linarith) (neg_le_abs _)
      · exact le_trans (by linarith) (le_abs_self _)

theorem double_neg {x : Rat} : Spec.Double (-x) ↔ Spec.Double x := by
  constructor
  · rintro ⟨m, a, b, h1, h2, h3, h4⟩
    exact ⟨-m, a, b, by rwa [abs_neg], h2, h3, by push_cast; linarith⟩
  · rintro ⟨m, a, b, h1, h2, h3, h4⟩
    exact ⟨-m, a, b, by rwa [abs_neg], h2, h3, by push_cast; linarith⟩

theorem toDbl_exact {v : Int} (h : Spec.Double (v : Rat)) : toDbl v = v := by
  unfold toDbl
  split
  · have hv : (v.natAbs : Int) = -v := by omega
    rw [rndNat_double (n := v.natAbs) (by
      have : ((v.natAbs : Nat) : Rat) = -(v : Rat) := by rw [← Int.cast_natCast, hv, Int.cast_neg]
      rw [this]; exact double_neg.2 h)]
    omega
  · have hv : (v.natAbs : Int) = v := by omega
    rw [rndNat_double (n := v.natAbs) (by
      have : ((v.natAbs : Nat) : Rat) = (v : Rat) := by rw [← Int.cast_natCast, hv]
      rw [this]; exact h)]
    exact hv

theorem toDbl_small {v : Int} (h : |v| < 2 ^ 53) : toDbl v = v := by
  have h' : v.natAbs < 2 ^ 53 := by
    rw [Int.abs_eq_natAbs] at h
    exact_mod_cast h
  unfold toDbl
  rw [rndNat_small h']
  split <;> omega

theorem toDbl_isDouble {v : Int} (h : v.natAbs < 2 ^ 64) : Spec.Double (toDbl v : Rat) := by
  unfold toDbl
  split
  · push_cast; exact double_neg.2 (rndNat_isDouble h)
  · push_cast; exact rndNat_isDouble h

theorem toDbl_nearest (v : Int) {y : Rat} (hy : Spec.Double y) : |(toDbl v : Rat) - v| ≤ |y - v| := by
  unfold toDbl
  split
  · have hv : (v.natAbs : Int) = -v := by omega
    have hv' : ((v.natAbs : Nat) : Rat) = -(v : Rat) := by rw [← Int.cast_natCast, hv, Int.cast_neg]
    have h := rndNat_nearest v.natAbs (double_neg.2 hy)
    rw [hv'] at h
    push_cast
    rw [show -(rndNat v.natAbs : Rat) - v = -((rndNat v.natAbs : Rat) - -v) by ring, abs_neg,
      show y - v = -(-y - -v) by ring, abs_neg]
    exact h
  · have hv : (v.natAbs : Int) = v := by omega
    have hv' : ((v.natAbs : Nat) : Rat) = (v : Rat) := by rw [← Int.cast_natCast, hv]
    have h := rndNat_nearest v.natAbs hy
    rw [hv'] at h
    exact_mod_cast h

theorem toDbl_bounds {v : Int} {k : Nat} (hk : 53 ≤ k) (h : v.natAbs ≤ 2 ^ k) : -2 ^ k ≤ toDbl v ∧ toDbl v ≤ 2 ^ k := by
  have h1 : (rndNat v.natAbs : Int) ≤ 2 ^ k := by exact_mod_cast rndNat_le hk h
  unfold toDbl
  split <;> omega

theorem toDbl_nonneg {v : Int} (h : 0 ≤ v) : 0 ≤ toDbl v := by
  unfold toDbl
  rw [if_neg (by omega)]
  omega

theorem cast_int {lo hi v : Int} : cast lo hi (v : Rat) = if lo ≤ v ∧ v ≤ hi then some v else none := by
  unfold cast
  simp only [Int.ceil_intCast, Int.floor_intCast, ite_self]

theorem toDbl_inj_eq {v : Int} (h : v.natAbs < 2 ^ 64) : toDbl v = v ↔ Spec.Double (v : Rat) :=
  ⟨fun e => e ▸ toDbl_isDouble h, toDbl_exact⟩

end Blend2D.VarNum
