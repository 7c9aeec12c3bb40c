import Verif.Util.Bits
import Verif.IntOps.Model
import Verif.IntOps.Spec
/-! # C33: overflow-checked, saturating and alignment arithmetic. -/
namespace Blend2D.IntOps
open Spec Bits

theorem pow_cast (w : Nat) : ((2 ^ w : Nat) : Int) = (2 : Int) ^ w := by simp

/-- C33 (unsigned add): exact, and the flag is set exactly on overflow. -/
theorem C33_add_unsigned (x y : BitVec w) (of : Bool) :
    Checked (FitsU w) (x.toNat + y.toNat) (addOverflowU x y of).1.toNat of (addOverflowU x y of).2 := by
  have hx := x.isLt
  have hy := y.isLt
  simp only [addOverflowU, Checked, FitsU, BitVec.lt_def, BitVec.toNat_add, Bool.or_eq_true, decide_eq_true_eq]
  have hPI := pow_cast w
  obtain ⟨P, hP⟩ : ∃ P : Nat, P = 2 ^ w := ⟨_, rfl⟩
  rw [← hP] at hx hy hPI ⊢
  rw [← hPI]
  by_cases h : x.toNat + y.toNat < P
  · rw [Nat.mod_eq_of_lt h]
    refine ⟨?_, by omega⟩
    cases of
    · simp only [Bool.false_eq_true, false_or]; omega
    · simp
  · have : (x.toNat + y.toNat) % P = x.toNat + y.toNat - P := by
      rw [Nat.mod_eq_sub_mod (by omega), Nat.mod_eq_of_lt (by omega)]
    rw [this]
    refine ⟨?_, by omega⟩
    cases of
    · simp only [Bool.false_eq_true, false_or]; omega
    · simp

/-- C33 (unsigned subtract). -/
theorem C33_sub_unsigned (x y : BitVec w) (of : Bool) :
    Checked (FitsU w) (x.toNat - y.toNat) (subOverflowU x y of).1.toNat of (subOverflowU x y of).2 := by
  have hx := x.isLt
  have hy := y.isLt
  simp only [subOverflowU, Checked, FitsU, BitVec.lt_def, BitVec.toNat_sub, Bool.or_eq_true, decide_eq_true_eq]
  have hPI := pow_cast w
  obtain ⟨P, hP⟩ : ∃ P : Nat, P = 2 ^ w := ⟨_, rfl⟩
  rw [← hP] at hx hy hPI ⊢
  rw [← hPI]
  by_cases h : y.toNat ≤ x.toNat
  · have : (P - y.toNat + x.toNat) % P = x.toNat - y.toNat := by
      rw [Nat.mod_eq_sub_mod (by omega), Nat.mod_eq_of_lt (by omega)]; omega
    rw [this]
    refine ⟨?_, by omega⟩
    cases of
    · simp only [Bool.false_eq_true, false_or]; omega
    · simp
  · rw [Nat.mod_eq_of_lt (by omega)]
    refine ⟨?_, by omega⟩
    cases of
    · simp only [Bool.false_eq_true, false_or]; omega
    · simp

theorem fitsS_of_sadd (x y : BitVec w) : BitVec.saddOverflow x y = true ↔ ¬ FitsS w (x.toInt + y.toInt) := by
  simp only [BitVec.saddOverflow, FitsS, Bool.or_eq_true, decide_eq_true_eq]
  omega

theorem fitsS_of_ssub (x y : BitVec w) : BitVec.ssubOverflow x y = true ↔ ¬ FitsS w (x.toInt - y.toInt) := by
  simp only [BitVec.ssubOverflow, FitsS, Bool.or_eq_true, decide_eq_true_eq]
  omega

theorem fitsS_of_smul (x y : BitVec w) : BitVec.smulOverflow x y = true ↔ ¬ FitsS w (x.toInt * y.toInt) := by
  simp only [BitVec.smulOverflow, FitsS, Bool.or_eq_true, decide_eq_true_eq]
  omega

/-- C33 (signed add). -/
theorem C33_add_signed (hw : 0 < w) (x y : BitVec w) (of : Bool) :
    Checked (FitsS w) (x.toInt + y.toInt) (addOverflowS x y of).1.toInt of (addOverflowS x y of).2 := by
  have hflag : ((x ^^^ ~~~y) &&& (x ^^^ (x + y))).msb = BitVec.saddOverflow x y := by
    rw [BitVec.saddOverflow_eq, BitVec.msb_and, BitVec.msb_xor, BitVec.msb_xor, BitVec.msb_not]
    simp only [hw, decide_true, Bool.true_and]
    cases x.msb <;> cases y.msb <;> cases (x + y).msb <;> rfl
  refine ⟨?_, ?_⟩
  · simp only [addOverflowS, hflag, Bool.or_eq_true, fitsS_of_sadd]
  · intro h
    exact BitVec.toInt_add_of_not_saddOverflow (fun hh => (fitsS_of_sadd x y).1 hh h)

/-- C33 (signed subtract). -/
theorem C33_sub_signed (x y : BitVec w) (of : Bool) :
    Checked (FitsS w) (x.toInt - y.toInt) (subOverflowS x y of).1.toInt of (subOverflowS x y of).2 := by
  have hflag : ((x ^^^ y) &&& (x ^^^ (x - y))).msb = BitVec.ssubOverflow x y := by
    rw [BitVec.ssubOverflow_eq, BitVec.msb_and, BitVec.msb_xor, BitVec.msb_xor]
    cases x.msb <;> cases y.msb <;> cases (x - y).msb <;> rfl
  refine ⟨?_, ?_⟩
  · simp only [subOverflowS, hflag, Bool.or_eq_true, fitsS_of_ssub]
  · intro h
    exact BitVec.toInt_sub_of_not_ssubOverflow (fun hh => (fitsS_of_ssub x y).1 hh h)

/-- C33 (unsigned multiply, double-width path). -/
theorem C33_mul_unsigned (x y : BitVec w) (of : Bool) :
    Checked (FitsU w) (x.toNat * y.toNat) (mulOverflowU x y of).1.toNat of (mulOverflowU x y of).2 := by
  have hx := x.isLt
  have hy := y.isLt
  have hPI := pow_cast w
  have hP0 : 0 < 2 ^ w := Nat.two_pow_pos w
  have hsq : 2 ^ (w * 2) = 2 ^ w * 2 ^ w := by rw [Nat.mul_two, Nat.pow_add]
  have hxy : x.toNat * y.toNat < 2 ^ (w * 2) := by
    rw [hsq]; exact Nat.mul_lt_mul'' hx hy
  have hle : 2 ^ w ≤ 2 ^ (w * 2) := Nat.pow_le_pow_right (by omega) (by omega)
  have hprod : (x.zeroExtend (w * 2) * y.zeroExtend (w * 2)).toNat = x.toNat * y.toNat := by
    rw [BitVec.toNat_mul, BitVec.toNat_setWidth, BitVec.toNat_setWidth, Nat.mod_eq_of_lt (a := x.toNat) (by omega),
      Nat.mod_eq_of_lt (a := y.toNat) (by omega), Nat.mod_eq_of_lt hxy]
  have hmask : (BitVec.ofNat (w * 2) (2 ^ w - 1)).toNat = 2 ^ w - 1 := by
    rw [BitVec.toNat_ofNat, Nat.mod_eq_of_lt (by omega)]
  have hlow : ((x.zeroExtend (w * 2) * y.zeroExtend (w * 2)) &&& BitVec.ofNat (w * 2) (2 ^ w - 1)).toNat
      = x.toNat * y.toNat % 2 ^ w := by
    rw [BitVec.toNat_and, hprod, hmask, and_mask]
  have hhigh : ((x.zeroExtend (w * 2) * y.zeroExtend (w * 2)) &&& ~~~ BitVec.ofNat (w * 2) (2 ^ w - 1)) = 0#(w * 2)
      ↔ x.toNat * y.toNat < 2 ^ w := by
    constructor
    · intro h
      have h2 : (x.zeroExtend (w * 2) * y.zeroExtend (w * 2)) &&& BitVec.ofNat (w * 2) (2 ^ w - 1)
          = x.zeroExtend (w * 2) * y.zeroExtend (w * 2) := by
        generalize x.zeroExtend (w * 2) * y.zeroExtend (w * 2) = p at *
        generalize BitVec.ofNat (w * 2) (2 ^ w - 1) = m at *
        ext i hi
        have := congrArg (fun v => v.getLsbD i) h
        simp at this ⊢
        by_cases hp : p[i] <;> simp_all
      have h3 := congrArg BitVec.toNat h2
      rw [hlow, hprod] at h3
      have := Nat.mod_lt (x.toNat * y.toNat) hP0
      omega
    · intro h
      have h2 : (x.zeroExtend (w * 2) * y.zeroExtend (w * 2)) &&& BitVec.ofNat (w * 2) (2 ^ w - 1)
          = x.zeroExtend (w * 2) * y.zeroExtend (w * 2) := by
        apply BitVec.eq_of_toNat_eq
        rw [hlow, hprod, Nat.mod_eq_of_lt h]
      rw [← h2, BitVec.and_assoc, BitVec.and_not_self]
      simp
  refine ⟨?_, ?_⟩
  · simp only [mulOverflowU, Bool.or_eq_true, bne_iff_ne, ne_eq, hhigh, FitsU, ← Int.natCast_mul, ← hPI]
    generalize x.toNat * y.toNat = q
    cases of
    · simp only [Bool.false_eq_true, false_or]; omega
    · simp
  · simp only [FitsU, ← Int.natCast_mul, ← hPI]
    intro h
    simp only [mulOverflowU, BitVec.truncate_eq_setWidth, BitVec.toNat_setWidth, hlow]
    rw [Nat.mod_mod, Nat.mod_eq_of_lt (by omega)]

/-- C33 (unsigned multiply, division path used for 64-bit operands). -/
theorem C33_mul_unsigned_wide (x y : BitVec w) (of : Bool) :
    Checked (FitsU w) (x.toNat * y.toNat) (mulOverflowU64 x y of).1.toNat of (mulOverflowU64 x y of).2 := by
  have hx := x.isLt
  have hy := y.isLt
  have hPI := pow_cast w
  have hP0 : 0 < 2 ^ w := Nat.two_pow_pos w
  have key : (y != 0#w && decide (BitVec.allOnes w / y < x)) = true ↔ ¬ x.toNat * y.toNat < 2 ^ w := by
    simp only [Bool.and_eq_true, bne_iff_ne, ne_eq, decide_eq_true_eq, BitVec.lt_def, BitVec.toNat_udiv,
      BitVec.toNat_allOnes, ← BitVec.toNat_inj (y := 0#w), BitVec.toNat_ofNat, Nat.zero_mod]
    by_cases h0 : y.toNat = 0
    · simp [h0]
    · rw [Nat.div_lt_iff_lt_mul (by omega)]
      omega
  refine ⟨?_, ?_⟩
  · simp only [mulOverflowU64, Bool.or_eq_true, key, FitsU, ← Int.natCast_mul, ← hPI]
    generalize x.toNat * y.toNat = q
    cases of
    · simp only [Bool.false_eq_true, false_or]; omega
    · simp
  · simp only [FitsU, ← Int.natCast_mul, ← hPI, mulOverflowU64, BitVec.toNat_mul]
    intro h
    rw [Nat.mod_eq_of_lt (by omega)]

/-- C33 (signed multiply, double-width path). -/
theorem C33_mul_signed (hw : 0 < w) (x y : BitVec w) (of : Bool) :
    Checked (FitsS w) (x.toInt * y.toInt) (mulOverflowS x y of).1.toInt of (mulOverflowS x y of).2 := by
  have hfl := BitVec.smulOverflow_eq x y
  simp only [hw, decide_true, Bool.true_and] at hfl
  refine ⟨?_, ?_⟩
  · rw [← fitsS_of_smul, hfl]
    simp only [mulOverflowS, Bool.or_eq_true]
    cases of <;> simp [or_comm]
  · intro h
    rw [← BitVec.toInt_mul_of_not_smulOverflow (fun hh => (fitsS_of_smul x y).1 hh h)]
    congr 1
    simp only [mulOverflowS]
    have hP0 : 0 < 2 ^ w := Nat.two_pow_pos w
    have hle : 2 ^ w ≤ 2 ^ (w * 2) := Nat.pow_le_pow_right (by omega) (by omega)
    have hmask : (BitVec.ofNat (w * 2) (2 ^ w - 1)).toNat = 2 ^ w - 1 := by
      rw [BitVec.toNat_ofNat, Nat.mod_eq_of_lt (by omega)]
    have h1 : BitVec.truncate w (x.signExtend (w * 2) * y.signExtend (w * 2) &&& BitVec.ofNat (w * 2) (2 ^ w - 1))
        = BitVec.truncate w (x.signExtend (w * 2) * y.signExtend (w * 2)) := by
      apply BitVec.eq_of_toNat_eq
      simp only [BitVec.truncate_eq_setWidth, BitVec.toNat_setWidth, BitVec.toNat_and, hmask, and_mask, Nat.mod_mod]
    rw [h1]
    simp only [BitVec.truncate_eq_setWidth]
    rw [BitVec.setWidth_mul _ _ (by omega)]
    congr 1
    · ext i hi; simp [BitVec.getElem_signExtend, hi, show i < w * 2 by omega]
    · ext i hi; simp [BitVec.getElem_signExtend, hi, show i < w * 2 by omega]

theorem sdiv_toInt (r x : BitVec w) (h : ¬ (r = BitVec.intMin w ∧ x = -1#w)) :
    (r.sdiv x).toInt = r.toInt.tdiv x.toInt :=
  BitVec.toInt_sdiv_of_ne_or_ne r x (by
    by_cases h1 : r = BitVec.intMin w
    · exact Or.inr (fun h2 => h ⟨h1, h2⟩)
    · exact Or.inl h1)

/-- C33 (signed multiply, 64-bit division path): correct for all operands except `-1 * INT64_MIN`. -/
theorem C33_mul_signed64_partial (x y : BitVec 64) (of : Bool) (hub : ¬ (x = -1#64 ∧ y = BitVec.intMin 64)) :
    ∃ r f, mulOverflowS64 x y of = some (r, f) ∧ Checked (FitsS 64) (x.toInt * y.toInt) r.toInt of f := by
  unfold mulOverflowS64
  by_cases hx0 : x = 0#64
  · subst hx0
    refine ⟨_, _, rfl, ?_, ?_⟩
    · simp [FitsS]
    · intro _; simp
  · have hne : ¬ (x * y = BitVec.intMin 64 ∧ x = -1#64) := by
      rintro ⟨h1, h2⟩
      apply hub
      refine ⟨h2, ?_⟩
      subst h2
      have h3 : -(-1#64 * y) = - BitVec.intMin 64 := by rw [h1]
      have h4 : -(-1#64 * y) = y := by
        rw [BitVec.neg_mul, BitVec.neg_neg, BitVec.one_mul]
      rw [h4] at h3
      rw [h3]; decide
    have hx0' : (x != 0#64) = true := by simpa using hx0
    simp only [hx0', if_true, if_neg hne]
    refine ⟨_, _, rfl, ?_⟩
    have hdiv := sdiv_toInt (x * y) x hne
    have hxi : x.toInt ≠ 0 := by
      intro h; apply hx0; apply BitVec.eq_of_toInt_eq; simpa using h
    have hlo := BitVec.le_toInt x
    have hhi := BitVec.toInt_lt (x := x)
    have hlo2 := BitVec.le_toInt (x * y)
    have hhi2 := BitVec.toInt_lt (x := x * y)
    have hmul : (x * y).toInt = (x.toInt * y.toInt).bmod (2 ^ 64) := BitVec.toInt_mul x y
    have hcong : ∃ k, x.toInt * y.toInt = (x * y).toInt + 2 ^ 64 * k := by
      refine ⟨(x.toInt * y.toInt - (x * y).toInt) / 2 ^ 64, ?_⟩
      have : (2 ^ 64 : Int) ∣ x.toInt * y.toInt - (x * y).toInt := by
        rw [hmul]
        have := Int.dvd_self_sub_bmod (x := x.toInt * y.toInt) (m := 2 ^ 64)
        exact_mod_cast this
      have := Int.mul_ediv_cancel' this
      omega
    have key : ((x * y).sdiv x = y) ↔ FitsS 64 (x.toInt * y.toInt) := by
      constructor
      · intro h
        rw [h] at hdiv
        obtain ⟨k, hk⟩ := hcong
        have hm := Int.mul_tdiv_add_tmod (x * y).toInt x.toInt
        rw [← hdiv] at hm
        have hr1 := Int.natAbs_tmod (x * y).toInt x.toInt
        have hr2 := Nat.mod_lt (x * y).toInt.natAbs (y := x.toInt.natAbs) (by omega)
        rw [← hr1] at hr2
        have hr0 : (x * y).toInt.tmod x.toInt = 0 := by omega
        simp only [FitsS]
        omega
      · intro h
        have hno := fun hh => (fitsS_of_smul x y).1 hh h
        have he := BitVec.toInt_mul_of_not_smulOverflow hno
        apply BitVec.eq_of_toInt_eq
        rw [hdiv, he, Int.mul_tdiv_cancel_left _ hxi]
    refine ⟨?_, ?_⟩
    · rw [← key]; cases of <;> simp
    · intro h
      exact BitVec.toInt_mul_of_not_smulOverflow (fun hh => (fitsS_of_smul x y).1 hh h)

/-- C33 fails for the remaining operand pair: the 64-bit path divides `INT64_MIN` by `-1`. -/
theorem C33_mul_signed64_counterexample (of : Bool) :
    mulOverflowS64 (-1#64) (BitVec.intMin 64) of = none := by
  cases of <;> decide

/-! ## Saturation -/

theorem mask_true (w : Nat) : boolAsMask w true = BitVec.allOnes w := by
  apply BitVec.eq_of_toNat_eq
  rcases w with _ | w
  · simp [boolAsMask, negate]
  · have : 2 ≤ 2 ^ (w + 1) := by
      have := Nat.two_pow_pos w
      rw [Nat.pow_succ]; omega
    simp only [boolAsMask, negate, if_true, BitVec.toNat_sub, BitVec.toNat_ofNat, BitVec.toNat_allOnes, Nat.zero_mod]
    rw [Nat.mod_eq_of_lt (a := 1) (by omega), Nat.add_zero, Nat.mod_eq_of_lt (by omega)]

theorem mask_false (w : Nat) : boolAsMask w false = 0#w := by
  simp [boolAsMask, negate]

theorem sat_aux (r : BitVec w) (f : Bool) (v : Nat)
    (h : Checked (FitsU w) (v : Int) r.toNat false f) :
    (r ||| boolAsMask w f).toNat = min v (2 ^ w - 1) := by
  have hb := r.isLt
  have hPI := pow_cast w
  obtain ⟨h1, h2⟩ := h
  simp only [FitsU, ← hPI, Bool.false_eq_true, false_or] at h1 h2
  cases f
  · simp only [Bool.false_eq_true, false_iff] at h1
    rw [mask_false, BitVec.or_zero]
    omega
  · simp only [true_iff] at h1
    rw [mask_true, BitVec.or_allOnes, BitVec.toNat_allOnes]
    omega

/-- C33: saturating unsigned addition clamps to the largest value. -/
theorem C33_add_saturate (x y : BitVec w) :
    (uaddSaturate x y).toNat = min (x.toNat + y.toNat) (2 ^ w - 1) :=
  sat_aux _ _ _ (by exact_mod_cast C33_add_unsigned x y false)

/-- C33: saturating unsigned multiplication (division path). -/
theorem C33_mul_saturate_wide (x y : BitVec w) :
    (umulSaturate64 x y).toNat = min (x.toNat * y.toNat) (2 ^ w - 1) :=
  sat_aux _ _ _ (by exact_mod_cast C33_mul_unsigned_wide x y false)

/-- C33: saturating unsigned multiplication (double-width path). -/
theorem C33_mul_saturate (x y : BitVec w) :
    (umulSaturate x y).toNat = min (x.toNat * y.toNat) (2 ^ w - 1) :=
  sat_aux _ _ _ (by exact_mod_cast C33_mul_unsigned x y false)

/-- C33: saturating unsigned subtraction clamps to zero. -/
theorem C33_sub_saturate (x y : BitVec w) : (usubSaturate x y).toNat = x.toNat - y.toNat := by
  have hb := (subOverflowU x y false).1.isLt
  have hx := x.isLt
  have hPI := pow_cast w
  obtain ⟨h1, h2⟩ := C33_sub_unsigned x y false
  simp only [FitsU, ← hPI, Bool.false_eq_true, false_or] at h1 h2
  show ((subOverflowU x y false).1 &&& boolAsMask w (! (subOverflowU x y false).2)).toNat = _
  cases hf : (subOverflowU x y false).2
  · simp only [hf, Bool.false_eq_true, false_iff] at h1
    rw [Bool.not_false, mask_true, BitVec.and_allOnes]
    omega
  · simp only [hf, true_iff] at h1
    rw [Bool.not_true, mask_false, BitVec.and_zero]
    simp only [BitVec.toNat_ofNat, Nat.zero_mod]
    omega

example : (uaddSaturate 0xF0#8 0x20#8).toNat = 255 ∧ (usubSaturate 3#8 4#8).toNat = 0
    ∧ (umulSaturate 100#8 2#8).toNat = 200 := by decide

/-! ## Alignment -/

theorem sub_one_toNat (a : BitVec w) (k : Nat) (ha : a.toNat = 2 ^ k) : (a - 1#w).toNat = 2 ^ k - 1 := by
  have hlt := a.isLt
  have hp := Nat.two_pow_pos k
  rcases w with _ | w
  · simp at hlt; omega
  · have : 2 ≤ 2 ^ (w + 1) := by
      have := Nat.two_pow_pos w
      rw [Nat.pow_succ]; omega
    rw [BitVec.toNat_sub, BitVec.toNat_ofNat, Nat.mod_eq_of_lt (a := 1) (by omega), ha,
      show 2 ^ (w + 1) - 1 + 2 ^ k = 2 ^ k - 1 + 2 ^ (w + 1) by omega, Nat.add_mod_right, Nat.mod_eq_of_lt (by omega)]

theorem and_not_low (v a : BitVec w) (k : Nat) (ha : a.toNat = 2 ^ k) :
    (v &&& ~~~(a - 1#w)).toNat = v.toNat / 2 ^ k * 2 ^ k := by
  have hlt := a.isLt
  have hv := v.isLt
  rw [ha] at hlt
  have hk : k < w := (Nat.pow_lt_pow_iff_right (by omega)).1 hlt
  have hp := Nat.two_pow_pos k
  rw [BitVec.toNat_and, BitVec.toNat_not, sub_one_toNat a k ha]
  have hsplit : 2 ^ w = 2 ^ (w - k) * 2 ^ k := by rw [← Nat.pow_add]; congr 1; omega
  have : 2 ^ w - 1 - (2 ^ k - 1) = (2 ^ (w - k) - 1) * 2 ^ k := by
    rw [Nat.sub_mul, ← hsplit]; omega
  rw [this, and_shl, and_mask, Nat.mod_eq_of_lt]
  exact Nat.div_lt_of_lt_mul (by rw [Nat.mul_comm, ← hsplit]; exact hv)

/-- C33: aligning down by a power of two gives the greatest multiple not above the input. -/
theorem C33_align_down (x a : BitVec w) (k : Nat) (ha : a.toNat = 2 ^ k) :
    GreatestMultipleLE x.toNat a.toNat (alignDown x a).toNat := by
  rw [alignDown, and_not_low x a k ha, ha]
  refine ⟨⟨_, Nat.mul_comm _ _⟩, Nat.div_mul_le_self _ _, ?_⟩
  rintro m ⟨c, rfl⟩ hm
  rw [Nat.mul_comm]
  exact Nat.mul_le_mul_right _ ((Nat.le_div_iff_mul_le (Nat.two_pow_pos k)).2 (by rw [Nat.mul_comm]; exact hm))

/-- C33: aligning up by a power of two gives the least multiple not below the input, whenever the code's intermediate
sum does not wrap (otherwise no such multiple fits the type, see `C33_align_up_wraps`). -/
theorem C33_align_up (x a : BitVec w) (k : Nat) (ha : a.toNat = 2 ^ k) (hfit : x.toNat + (a.toNat - 1) < 2 ^ w) :
    LeastMultipleGE x.toNat a.toNat (alignUp x a).toNat := by
  have hp := Nat.two_pow_pos k
  rw [ha] at hfit
  have hsum : (x + (a - 1#w)).toNat = x.toNat + (2 ^ k - 1) := by
    rw [BitVec.toNat_add, sub_one_toNat a k ha, Nat.mod_eq_of_lt hfit]
  rw [alignUp, and_not_low _ a k ha, ha, hsum]
  have hdm := Nat.div_add_mod (x.toNat + (2 ^ k - 1)) (2 ^ k)
  have hml := Nat.mod_lt (x.toNat + (2 ^ k - 1)) hp
  rw [Nat.mul_comm] at hdm
  refine ⟨⟨_, Nat.mul_comm _ _⟩, by omega, ?_⟩
  rintro m ⟨c, rfl⟩ hm
  rw [Nat.mul_comm (2 ^ k)]
  apply Nat.mul_le_mul_right
  apply Nat.le_of_lt_succ
  rw [Nat.div_lt_iff_lt_mul hp, Nat.succ_mul, Nat.mul_comm c]
  omega

/-- When the sum wraps, no multiple of the alignment at or above the input fits the type. -/
theorem C33_align_up_wraps (x a : BitVec w) (k : Nat) (ha : a.toNat = 2 ^ k) (hno : ¬ x.toNat + (a.toNat - 1) < 2 ^ w) :
    ∀ m, a.toNat ∣ m → x.toNat ≤ m → 2 ^ w ≤ m := by
  have hlt := a.isLt
  rw [ha] at hlt hno ⊢
  have hk : k < w := (Nat.pow_lt_pow_iff_right (by omega)).1 hlt
  have hp := Nat.two_pow_pos k
  have hsplit : 2 ^ w = 2 ^ k * 2 ^ (w - k) := by rw [← Nat.pow_add]; congr 1; omega
  rintro m ⟨c, rfl⟩ hm
  rw [hsplit]
  apply Nat.mul_le_mul_left
  apply Nat.le_of_lt_succ
  rw [← Nat.mul_lt_mul_left hp, Nat.mul_succ, ← hsplit]
  omega

/-- C33: the distance to the next aligned value is in `[0, a)` and reaches a multiple of `a` (modulo the type). -/
theorem C33_align_up_diff (x a : BitVec w) (k : Nat) (ha : a.toNat = 2 ^ k) :
    (alignUpDiff x a).toNat < a.toNat ∧ a.toNat ∣ x.toNat + (alignUpDiff x a).toNat := by
  have hlt := a.isLt
  have hx := x.isLt
  rw [ha] at hlt
  have hk : k < w := (Nat.pow_lt_pow_iff_right (by omega)).1 hlt
  have hp := Nat.two_pow_pos k
  have hsplit : 2 ^ w = 2 ^ k * 2 ^ (w - k) := by rw [← Nat.pow_add]; congr 1; omega
  have hd : (alignUpDiff x a).toNat = (2 ^ w - x.toNat) % 2 ^ k := by
    rw [alignUpDiff, BitVec.toNat_and, sub_one_toNat a k ha, and_mask, BitVec.toNat_sub]
    simp only [BitVec.toNat_ofNat, Nat.zero_mod, Nat.add_zero]
    rw [hsplit, Nat.mod_mul_right_mod]
  rw [hd, ha]
  refine ⟨Nat.mod_lt _ hp, ?_⟩
  have h1 : 2 ^ k ∣ x.toNat + (2 ^ w - x.toNat) := by
    rw [Nat.add_sub_cancel' (by omega)]; exact ⟨_, hsplit⟩
  rw [Nat.dvd_iff_mod_eq_zero] at h1 ⊢
  rw [Nat.add_mod, Nat.mod_mod, ← Nat.add_mod]; exact h1

/-- C33: the power-of-two test. -/
theorem C33_is_power_of_2 (x : BitVec w) : isPowerOf2 x = true ↔ ∃ k, x.toNat = 2 ^ k := by
  have hx := x.isLt
  rcases w with _ | w
  · have : x = 0#0 := BitVec.of_length_zero
    subst this
    simp only [isPowerOf2]
    constructor
    · intro h; exact absurd h (by decide)
    · rintro ⟨k, hk⟩
      have := Nat.two_pow_pos k
      simp at hk; omega
  have h2 : 2 ≤ 2 ^ (w + 1) := by
    have := Nat.two_pow_pos w
    rw [Nat.pow_succ]; omega
  have h1 : (1#(w + 1)).toNat = 1 := by rw [BitVec.toNat_ofNat, Nat.mod_eq_of_lt (by omega)]
  unfold isPowerOf2
  rw [decide_eq_true_iff, gt_iff_lt, BitVec.lt_def, BitVec.toNat_xor]
  by_cases h0 : x.toNat = 0
  · have : x = 0#(w + 1) := by apply BitVec.eq_of_toNat_eq; simpa using h0
    subst this
    simp only [BitVec.toNat_ofNat, Nat.zero_mod, Nat.zero_xor, Nat.lt_irrefl, false_iff, not_exists]
    intro k hk
    have := Nat.two_pow_pos k
    omega
  · have hm : (x - 1#(w + 1)).toNat = x.toNat - 1 := by
      rw [BitVec.toNat_sub, h1, show 2 ^ (w + 1) - 1 + x.toNat = x.toNat - 1 + 2 ^ (w + 1) by omega,
        Nat.add_mod_right, Nat.mod_eq_of_lt (by omega)]
    rw [hm]
    generalize x.toNat = n at *
    constructor
    · intro h
      refine ⟨n.log2, ?_⟩
      have hlo : 2 ^ n.log2 ≤ n := Nat.log2_self_le h0
      have hhi : n < 2 ^ (n.log2 + 1) := Nat.lt_log2_self
      by_cases he : n = 2 ^ n.log2
      · exact he
      · exfalso
        have hx : n ^^^ (n - 1) < 2 ^ n.log2 := by
          apply Nat.lt_pow_two_of_testBit
          intro i hi
          rw [Nat.testBit_xor]
          by_cases hi2 : i = n.log2
          · subst hi2
            have t1 : n.testBit n.log2 = true := by
              rw [Nat.testBit_eq_decide_div_mod_eq, Nat.div_eq_of_lt_le (k := 1) (by omega) (by rw [Nat.pow_succ] at hhi; omega)]
              simp
            have t2 : (n - 1).testBit n.log2 = true := by
              rw [Nat.testBit_eq_decide_div_mod_eq, Nat.div_eq_of_lt_le (k := 1) (by omega) (by rw [Nat.pow_succ] at hhi; omega)]
              simp
            rw [t1, t2]; rfl
          · have hp : 2 ^ (n.log2 + 1) ≤ 2 ^ i := Nat.pow_le_pow_right (by omega) (by omega)
            rw [Nat.testBit_lt_two_pow (by omega), Nat.testBit_lt_two_pow (by omega)]; rfl
        omega
    · rintro ⟨k, rfl⟩
      have hp := Nat.two_pow_pos k
      have := Nat.two_pow_add_eq_or_of_lt (i := k) (b := 2 ^ k - 1) (by omega) 1
      have hxor : 2 ^ k ^^^ (2 ^ k - 1) = 2 ^ k + (2 ^ k - 1) := by
        have h3 : 2 ^ k ^^^ (2 ^ k - 1) = 2 ^ k ||| (2 ^ k - 1) := by
          apply Nat.eq_of_testBit_eq
          intro i
          rw [Nat.testBit_xor, Nat.testBit_or, Nat.testBit_two_pow, Nat.testBit_two_pow_sub_one]
          by_cases hik : k = i
          · subst hik; simp
          · simp [hik]
        rw [h3]; simpa using this.symm
      omega

/-! ## Clamping and modulo -/

theorem sar_all (v : BitVec w) : v.sshiftRight (w - 1) = if v.msb then BitVec.allOnes w else 0#w := by
  ext i hi
  rw [BitVec.getElem_sshiftRight]
  have hm : v.msb = v.getLsbD (w - 1) := BitVec.msb_eq_getLsbD_last v
  split
  · have : w - 1 + i = w - 1 := by omega
    have h2 : v[w - 1 + i] = v.msb := by
      rw [hm, ← BitVec.getLsbD_eq_getElem]; congr 1
    rw [h2]
    cases v.msb <;> simp
  · cases v.msb <;> simp

/-- C33 (clamp to byte / word): the exact clamp, for every signed value except the most negative one. -/
theorem C33_clamp_signed_partial (hw : 0 < w) (x y : BitVec w) (hy : y.msb = false) (hx : x ≠ BitVec.intMin w) :
    (clampToS x y).toInt = min (max x.toInt 0) y.toInt := by
  have hyi : y.toInt = y.toNat := BitVec.toInt_eq_toNat_of_msb hy
  have hylt : 2 * y.toNat < 2 ^ w := by
    have := BitVec.msb_eq_false_iff_two_mul_lt.1 hy; omega
  unfold clampToS
  by_cases h : x ≤ y
  · rw [if_pos h]
    rw [BitVec.le_def] at h
    have hxm : x.msb = false := BitVec.msb_eq_false_iff_two_mul_lt.2 (by omega)
    have hxi : x.toInt = x.toNat := BitVec.toInt_eq_toNat_of_msb hxm
    omega
  · rw [if_neg h, sar_all]
    rw [BitVec.le_def] at h
    have hneg : (negate x).msb = ((x != 0#w && x != BitVec.intMin w) ^^ x.msb) := by
      unfold negate; rw [BitVec.zero_sub, BitVec.msb_neg]
    have hx0 : x ≠ 0#w := by
      rintro rfl; simp at h
    rw [hneg]
    have e1 : (x != 0#w) = true := by simpa using hx0
    have e2 : (x != BitVec.intMin w) = true := by simpa using hx
    rw [e1, e2]
    cases hm : x.msb
    · have hxi : x.toInt = x.toNat := BitVec.toInt_eq_toNat_of_msb hm
      simp
      omega
    · have hxn : x.toInt < 0 := BitVec.toInt_neg_of_msb_true hm
      simp
      omega

example : (clampToS 300#32 255#32).toInt = 255 ∧ (clampToS (-5#32) 255#32).toInt = 0 := by decide

/-- The most negative value clamps to the upper bound instead of zero. -/
theorem C33_clamp_signed_counterexample : (clampToS (BitVec.intMin 32) 255#32).toInt = 255 := by decide

/-- C33 (clamp, unsigned source). -/
theorem C33_clamp_unsigned (x y : BitVec w) : (clampToU x y).toNat = min x.toNat y.toNat := by
  unfold clampToU
  split <;> rename_i h <;> rw [BitVec.le_def] at h <;> omega

/-- C33: the unsigned positive modulo (the only instance the library uses) is in range and congruent to the input. -/
theorem C33_pmod_unsigned (x y : BitVec w) (hy : y ≠ 0#w) :
    (pmodU x y).toNat < y.toNat ∧ ∃ q, x.toNat = y.toNat * q + (pmodU x y).toNat := by
  have h0 : 0 < y.toNat := by
    rcases Nat.eq_zero_or_pos y.toNat with h | h
    · exact absurd (BitVec.eq_of_toNat_eq (by simpa using h)) hy
    · exact h
  unfold pmodU
  rw [BitVec.toNat_umod]
  exact ⟨Nat.mod_lt _ h0, _, (Nat.div_add_mod _ _).symm⟩

/-- The signed positive modulo does not do what its documentation says: `pmod(-4, 3)` is 1 instead of 2, and
`pmod(4, 3)` is 4. -/
theorem C33_pmod_signed_counterexample :
    (pmodS (-4#32) 3#32).toInt = 1 ∧ (pmodS 4#32 3#32).toInt = 4 := by decide

/-! ## Power-of-two rounding -/

/-- Bit `i` of `z` tells whether `y` has a bit set in `[i, i + s)`. -/
def Smeared (y z : BitVec w) (s : Nat) : Prop :=
  ∀ i, z.getLsbD i = true ↔ ∃ j, i ≤ j ∧ j < i + s ∧ y.getLsbD j = true

theorem Smeared.step {y z : BitVec w} {s : Nat} (h : Smeared y z s) : Smeared y (z ||| (z >>> s)) (s + s) := by
  intro i
  rw [BitVec.getLsbD_or, Bool.or_eq_true, BitVec.getLsbD_ushiftRight, h i, h (s + i)]
  constructor
  · rintro (⟨j, h1, h2, h3⟩ | ⟨j, h1, h2, h3⟩)
    · exact ⟨j, by omega, by omega, h3⟩
    · exact ⟨j, by omega, by omega, h3⟩
  · rintro ⟨j, h1, h2, h3⟩
    by_cases hj : j < i + s
    · exact Or.inl ⟨j, h1, hj, h3⟩
    · exact Or.inr ⟨j, by omega, by omega, h3⟩

theorem Smeared.refl (y : BitVec w) : Smeared y y 1 := by
  intro i
  constructor
  · intro h; exact ⟨i, by omega, by omega, h⟩
  · rintro ⟨j, h1, h2, h3⟩
    have : j = i := by omega
    subst this; exact h3

/-- The shift lists of the four widths double until they cover the type. -/
theorem smeared_fill (y : BitVec w) (shifts : List Nat) (s : Nat)
    (hs : shifts = [1, 2, 4] ∧ s = 8 ∨ shifts = [1, 2, 4, 8] ∧ s = 16 ∨ shifts = [1, 2, 4, 8, 16] ∧ s = 32 ∨
      shifts = [1, 2, 4, 8, 16, 32] ∧ s = 64) :
    Smeared y (fillTrailing y shifts) s := by
  have h1 := (Smeared.refl y).step
  have h2 := h1.step
  have h3 := h2.step
  have h4 := h3.step
  have h5 := h4.step
  have h6 := h5.step
  rcases hs with ⟨rfl, rfl⟩ | ⟨rfl, rfl⟩ | ⟨rfl, rfl⟩ | ⟨rfl, rfl⟩
  · exact h3
  · exact h4
  · exact h5
  · exact h6

theorem smeared_value (y z : BitVec w) (h : Smeared y z w) (h0 : y ≠ 0#w) : z.toNat = 2 ^ (y.toNat.log2 + 1) - 1 := by
  have hn : y.toNat ≠ 0 := fun h => h0 (BitVec.eq_of_toNat_eq (by simpa using h))
  have hlo : 2 ^ y.toNat.log2 ≤ y.toNat := Nat.log2_self_le hn
  have hhi : y.toNat < 2 ^ (y.toNat.log2 + 1) := Nat.lt_log2_self
  have hy := y.isLt
  have hlw : y.toNat.log2 < w := (Nat.pow_lt_pow_iff_right (a := 2) (by omega)).1 (by omega)
  have htop : y.getLsbD y.toNat.log2 = true := by
    show y.toNat.testBit _ = true
    rw [Nat.testBit_eq_decide_div_mod_eq, Nat.div_eq_of_lt_le (k := 1) (by omega) (by rw [Nat.pow_succ] at hhi; omega)]
    simp
  apply Nat.eq_of_testBit_eq
  intro i
  rw [Nat.testBit_two_pow_sub_one]
  rw [Bool.eq_iff_iff]
  show z.getLsbD i = true ↔ _
  rw [h i, decide_eq_true_iff]
  constructor
  · rintro ⟨j, h1, h2, h3⟩
    have : y.toNat.testBit j = true := h3
    have := Nat.ge_two_pow_of_testBit this
    have := (Nat.pow_lt_pow_iff_right (a := 2) (by omega)).1 (Nat.lt_of_le_of_lt this hhi)
    omega
  · intro hi
    exact ⟨_, by omega, by omega, htop⟩

/-- C33: rounding up to a power of two returns the least power of two that is not below the input (8, 16, 32 and
64-bit versions; the input must not exceed the largest power of two of the type). -/
theorem C33_align_up_power_of_2 (x : BitVec w) (shifts : List Nat)
    (hs : shifts = [1, 2, 4] ∧ w = 8 ∨ shifts = [1, 2, 4, 8] ∧ w = 16 ∨ shifts = [1, 2, 4, 8, 16] ∧ w = 32 ∨
      shifts = [1, 2, 4, 8, 16, 32] ∧ w = 64)
    (hx0 : 0 < x.toNat) (hx : x.toNat ≤ 2 ^ (w - 1)) :
    ∃ k, (alignUpPowerOf2 x shifts).toNat = 2 ^ k ∧ x.toNat ≤ 2 ^ k ∧ ∀ m, x.toNat ≤ 2 ^ m → k ≤ m := by
  have hw : 8 ≤ w := by omega
  have hW : 2 ^ w = 2 * 2 ^ (w - 1) := by rw [Nat.mul_comm, ← Nat.pow_succ]; congr 1; omega
  have hp : 2 ^ 7 ≤ 2 ^ (w - 1) := Nat.pow_le_pow_right (by omega) (by omega)
  have h1 : (1#w).toNat = 1 := by rw [BitVec.toNat_ofNat, Nat.mod_eq_of_lt (by omega)]
  have hm : (x - 1#w).toNat = x.toNat - 1 := by
    rw [BitVec.toNat_sub, h1, show 2 ^ w - 1 + x.toNat = x.toNat - 1 + 2 ^ w by omega, Nat.add_mod_right,
      Nat.mod_eq_of_lt (by omega)]
  have hf := smeared_fill (x - 1#w) shifts w (by
    rcases hs with h | h | h | h
    · exact Or.inl ⟨h.1, h.2⟩
    · exact Or.inr (Or.inl ⟨h.1, h.2⟩)
    · exact Or.inr (Or.inr (Or.inl ⟨h.1, h.2⟩))
    · exact Or.inr (Or.inr (Or.inr ⟨h.1, h.2⟩)))
  unfold alignUpPowerOf2
  by_cases hz : x - 1#w = 0#w
  · have hx1 : x.toNat = 1 := by
      rw [hz] at hm; simp at hm; omega
    refine ⟨0, ?_, by omega, by omega⟩
    have : fillTrailing (x - 1#w) shifts = 0#w := by
      apply BitVec.eq_of_getLsbD_eq
      intro i hi
      rw [BitVec.getLsbD_zero, Bool.eq_false_iff, Ne, hf i]
      rintro ⟨j, _, _, h⟩
      rw [hz] at h; simp at h
    rw [this]; simp [h1]
  · have hv := smeared_value _ _ hf hz
    rw [hm] at hv
    have hn : x.toNat - 1 ≠ 0 := by
      intro h; apply hz; apply BitVec.eq_of_toNat_eq; rw [hm, h]; simp
    have hlo : 2 ^ (x.toNat - 1).log2 ≤ x.toNat - 1 := Nat.log2_self_le hn
    have hhi : x.toNat - 1 < 2 ^ ((x.toNat - 1).log2 + 1) := Nat.lt_log2_self
    refine ⟨(x.toNat - 1).log2 + 1, ?_, by omega, ?_⟩
    · have hlt : 2 ^ ((x.toNat - 1).log2 + 1) ≤ 2 ^ (w - 1) := by
        apply Nat.pow_le_pow_right (by omega)
        exact (Nat.pow_lt_pow_iff_right (a := 2) (by omega)).1 (by omega)
      have := Nat.two_pow_pos ((x.toNat - 1).log2 + 1)
      rw [BitVec.toNat_add, hv, h1, Nat.mod_eq_of_lt (by omega)]
      omega
    · intro m hmle
      have : 2 ^ (x.toNat - 1).log2 < 2 ^ m := by omega
      exact (Nat.pow_lt_pow_iff_right (a := 2) (by omega)).1 this

example : (alignUpPowerOf2 100#32 [1, 2, 4, 8, 16]).toNat = 128 := by decide

end Blend2D.IntOps
