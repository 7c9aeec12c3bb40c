import Verif.VarNum.Lemmas
/-! **C59.**  Numbers in variants convert to and compare with each other by their values. -/
namespace Blend2D.VarNum

/-- A finite double between the bounds. -/
theorem cast_spec {lo hi : Int} {x : Rat} (h0 : lo ≤ 0) (h1 : 0 ≤ hi) (hd : Spec.Double x) (hlo : (lo : Rat) ≤ x)
    (hhi : x ≤ hi) :
    ((cast lo hi x).map fun v => (if (toDbl v : Rat) ≠ x then Res.overflow else .success, v)) =
      some (Spec.integer lo hi (.num x)) := by
  rw [Spec.integer, if_neg (not_lt.2 hlo), if_neg (not_lt.2 hhi)]
  by_cases hi' : x = ⌊x⌋
  · rw [if_pos hi']
    have hk : ∃ k : Int, x = k := ⟨_, hi'⟩
    obtain ⟨k, rfl⟩ := hk
    rw [cast_int, if_pos ⟨by exact_mod_cast hlo, by exact_mod_cast hhi⟩, Option.map_some, Int.floor_intCast, toDbl_exact hd]
    simp
  · rw [if_neg hi']
    have hsmall : |x| < 2 ^ 53 := by
      by_contra hc
      obtain ⟨k, rfl⟩ := big_int hd (not_lt.1 hc)
      exact hi' (by rw [Int.floor_intCast])
    have hfl : (⌊x⌋ : Rat) ≤ x := Int.floor_le x
    have hfu : x < ⌊x⌋ + 1 := Int.lt_floor_add_one x
    have hb := abs_lt.1 hsmall
    have main : ∀ t : Int, lo ≤ t → t ≤ hi → |(t : Rat)| ≤ |x| →
        (if (toDbl t : Rat) ≠ x then Res.overflow else Res.success, t) = (.overflow, t) := by
      intro t _ _ h3
      have h4 : |t| < 2 ^ 53 := by
        have : |(t : Rat)| < 2 ^ 53 := lt_of_le_of_lt h3 hsmall
        exact_mod_cast this
      rw [toDbl_small h4, if_pos]
      rintro rfl
      exact hi' (by rw [Int.floor_intCast])
    by_cases hx : x < 0
    · have hce : ⌈x⌉ = ⌊x⌋ + 1 := by
        rw [Int.ceil_eq_iff]
        push_cast
        exact ⟨by rw [add_sub_cancel_right]; exact lt_of_le_of_ne hfl (Ne.symm hi'), le_of_lt hfu⟩
      have hcl : ⌈x⌉ ≤ 0 := Int.ceil_le.2 (by push_cast; exact le_of_lt hx)
      have hll : lo ≤ ⌈x⌉ := by
        have : (lo : Rat) ≤ ⌈x⌉ := le_trans hlo (Int.le_ceil x)
        exact_mod_cast this
      unfold cast
      simp only [if_pos hx]
      rw [if_pos ⟨hll, by omega⟩, Option.map_some, main ⌈x⌉ hll (by omega), if_neg (not_le.2 hx), hce]
      rw [abs_of_neg hx, abs_of_nonpos (by exact_mod_cast hcl)]
      exact neg_le_neg (Int.le_ceil x)
    · have hx0 : 0 ≤ x := not_lt.1 hx
      have hf0 : 0 ≤ ⌊x⌋ := Int.floor_nonneg.2 hx0
      have hh : ⌊x⌋ ≤ hi := by
        have : (⌊x⌋ : Rat) ≤ hi := le_trans hfl hhi
        exact_mod_cast this
      unfold cast
      simp only [if_neg hx]
      rw [if_pos ⟨by omega, hh⟩, Option.map_some, main ⌊x⌋ (by omega) hh, if_pos hx0]
      rw [abs_of_nonneg hx0, abs_of_nonneg (by exact_mod_cast hf0)]
      exact hfl

/-- Integers between bounds. -/
theorem integer_int {lo hi v : Int} : Spec.integer lo hi (.num v) =
    if v < lo then (.overflow, lo) else if hi < v then (.overflow, hi) else (.success, v) := by
  rw [Spec.integer, Int.floor_intCast]
  simp only [Int.cast_lt, if_true]

/-- No double lies between a large integer and the one before. -/
theorem gap {x : Rat} (hd : Spec.Double x) {k : Int} (hk : 2 ^ 53 < k) (h1 : x ≤ k) (h2 : x ≠ k) : x ≤ ((k - 1 : Int) : Rat) := by
  by_contra hc
  have hc := not_le.1 hc
  have hk' : (2 : Rat) ^ 53 ≤ ((k - 1 : Int) : Rat) := by
    have : (2 : Int) ^ 53 ≤ k - 1 := by omega
    exact_mod_cast this
  obtain ⟨j, rfl⟩ := big_int hd (le_trans (le_trans hk' (le_of_lt hc)) (le_abs_self x))
  have a1 : k - 1 < j := by exact_mod_cast hc
  have a2 : j ≤ k := by exact_mod_cast h1
  have a3 : j ≠ k := fun h => h2 (by rw [h])
  omega

/-- **C59, booleans.**  A number converts to whether it is not 0 (and not NaN).  Partial: the conversion of a string
does not write its result, see `C59_string_counterexample`. -/
theorem C59_bool_partial {v : Var} (hv : Spec.Valid v) (hs : ∀ s, v ≠ .str s) :
    toBool v = (.success, some (match Spec.value v with
      | some x => decide (x ≠ .num 0 ∧ x ≠ .nan)
      | none => false)) := by
  cases v with
  | null => rfl
  | bool b => cases b <;> simp [toBool, Spec.value]
  | int v =>
    simp only [Spec.Valid] at hv
    have : (asU64 v != 0) = decide (v ≠ 0) := by
      unfold asU64
      rw [Bool.eq_iff_iff]
      simp only [bne_iff_ne, ne_eq, decide_eq_true_eq]
      omega
    simp [toBool, Spec.value, this]
  | uint v => simp [toBool, Spec.value]; rfl
  | dbl f => cases f <;> simp [toBool, Spec.value, Spec.ofDbl]; rfl
  | str s => exact absurd rfl (hs s)

/-- **C59, 32-bit integers.**  Every value converts to `int32_t` as the specification says. -/
theorem C59_int32 {v : Var} (hv : Spec.Valid v) : toInt32 v = some (Spec.convert (-2 ^ 31) (2 ^ 31 - 1) v) := by
  cases v with
  | null => rfl
  | bool b => cases b <;> decide +kernel
  | int v =>
    simp only [toInt32, Spec.convert, Spec.value, integer_int]
    split
    · rfl
    · split <;> simp_all <;> omega
  | uint v =>
    simp only [toInt32, Spec.convert, Spec.value]
    rw [show ((v : Nat) : Rat) = ((v : Int) : Rat) by push_cast; rfl, integer_int]
    by_cases h : v > 2 ^ 31 - 1
    · rw [if_pos h, if_neg (by omega), if_pos (by omega)]
    · rw [if_neg h, if_neg (by omega), if_neg (by omega)]
  | dbl f =>
    cases f with
    | nan b => rfl
    | inf n => cases n <;> rfl
    | fin x =>
      have e1 : toDbl (-2 ^ 31) = -2 ^ 31 := by decide +kernel
      have e2 : toDbl (2 ^ 31 - 1) = 2 ^ 31 - 1 := by decide +kernel
      simp only [toInt32, Spec.convert, Spec.value, Spec.ofDbl, e1, e2]
      by_cases h1 : x < ((-2 ^ 31 : Int) : Rat)
      · rw [if_pos h1, Spec.integer, if_pos h1]
      · rw [if_neg h1]
        by_cases h2 : x > ((2 ^ 31 - 1 : Int) : Rat)
        · rw [if_pos h2, Spec.integer, if_neg h1, if_pos h2]
        · rw [if_neg h2]
          exact cast_spec (by decide) (by decide) hv (not_lt.1 h1) (not_lt.1 h2)
  | str s => rfl

/-- **C59, 32-bit unsigned integers.**  Every value converts to `uint32_t` as the specification says. -/
theorem C59_uint32 {v : Var} (hv : Spec.Valid v) : toUInt32 v = some (Spec.convert 0 (2 ^ 32 - 1) v) := by
  cases v with
  | null => rfl
  | bool b => cases b <;> decide +kernel
  | int v =>
    simp only [toUInt32, Spec.convert, Spec.value, integer_int]
    split
    · rfl
    · split <;> simp_all <;> omega
  | uint v =>
    simp only [toUInt32, Spec.convert, Spec.value]
    rw [show ((v : Nat) : Rat) = ((v : Int) : Rat) by push_cast; rfl, integer_int]
    by_cases h : v > 2 ^ 32 - 1
    · rw [if_pos h, if_neg (by omega), if_pos (by omega)]
    · rw [if_neg h, if_neg (by omega), if_neg (by omega)]
  | dbl f =>
    cases f with
    | nan b => rfl
    | inf n => cases n <;> rfl
    | fin x =>
      have e2 : toDbl (2 ^ 32 - 1) = 2 ^ 32 - 1 := by decide +kernel
      have z : ((0 : Int) : Rat) = 0 := Int.cast_zero
      simp only [toUInt32, Spec.convert, Spec.value, Spec.ofDbl, e2]
      by_cases h1 : x < 0
      · rw [if_pos h1, Spec.integer, z, if_pos h1]
      · rw [if_neg h1]
        by_cases h2 : x > ((2 ^ 32 - 1 : Int) : Rat)
        · rw [if_pos h2, Spec.integer, z, if_neg h1, if_pos h2]
        · rw [if_neg h2]
          exact cast_spec (by decide) (by decide) hv (by rw [z]; exact not_lt.1 h1) (not_lt.1 h2)
  | str s => rfl

/-- **C59, 64-bit integers.**  Every value but one converts to `int64_t` as the specification says.  Partial: not the
double 2^63, see `C59_int64_counterexample`. -/
theorem C59_int64_partial {v : Var} (hv : Spec.Valid v) (hne : v ≠ .dbl (.fin (2 ^ 63))) :
    toInt64 v = some (Spec.convert (-2 ^ 63) (2 ^ 63 - 1) v) := by
  cases v with
  | null => rfl
  | bool b => cases b <;> decide +kernel
  | int v =>
    simp only [Spec.Valid] at hv
    simp only [toInt64, Spec.convert, Spec.value, integer_int]
    rw [if_neg (by omega), if_neg (by omega)]
  | uint v =>
    simp only [toInt64, Spec.convert, Spec.value]
    rw [show ((v : Nat) : Rat) = ((v : Int) : Rat) by push_cast; rfl, integer_int]
    by_cases h : v > 2 ^ 63 - 1
    · rw [if_pos h, if_neg (by omega), if_pos (by omega)]
    · rw [if_neg h, if_neg (by omega), if_neg (by omega), asI64, if_pos (by omega)]
  | dbl f =>
    cases f with
    | nan b => rfl
    | inf n => cases n <;> rfl
    | fin x =>
      have e1 : toDbl (-2 ^ 63) = -2 ^ 63 := by decide +kernel
      have e2 : toDbl (2 ^ 63 - 1) = 2 ^ 63 := by decide +kernel
      have hne' : x ≠ ((2 ^ 63 : Int) : Rat) := fun h => hne (by rw [h]; push_cast; rfl)
      simp only [toInt64, Spec.convert, Spec.value, Spec.ofDbl, e1, e2]
      by_cases h1 : x < ((-2 ^ 63 : Int) : Rat)
      · rw [if_pos h1, Spec.integer, if_pos h1]
      · rw [if_neg h1]
        by_cases h2 : x > ((2 ^ 63 : Int) : Rat)
        · have h3 : ((2 ^ 63 - 1 : Int) : Rat) < x := lt_trans (by exact_mod_cast (by norm_num : (2 ^ 63 - 1 : Int) < 2 ^ 63)) h2
          rw [if_pos h2, Spec.integer, if_neg h1, if_pos h3]
        · rw [if_neg h2]
          exact cast_spec (by decide) (by decide) hv (not_lt.1 h1) (gap hv (by decide) (not_lt.1 h2) hne')
  | str s => rfl

/-- **C59, 64-bit unsigned integers.**  Every value but one converts to `uint64_t` as the specification says.
Partial: not the double 2^64, see `C59_int64_counterexample`. -/
theorem C59_uint64_partial {v : Var} (hv : Spec.Valid v) (hne : v ≠ .dbl (.fin (2 ^ 64))) :
    toUInt64 v = some (Spec.convert 0 (2 ^ 64 - 1) v) := by
  cases v with
  | null => rfl
  | bool b => cases b <;> decide +kernel
  | int v =>
    simp only [Spec.Valid] at hv
    simp only [toUInt64, Spec.convert, Spec.value, integer_int]
    by_cases h : v < 0
    · rw [if_pos h, if_pos h]
    · have : ((asU64 v : Nat) : Int) = v := by unfold asU64; omega
      rw [if_neg h, if_neg h, if_neg (by omega), this]
  | uint v =>
    simp only [Spec.Valid] at hv
    simp only [toUInt64, Spec.convert, Spec.value]
    rw [show ((v : Nat) : Rat) = ((v : Int) : Rat) by push_cast; rfl, integer_int, if_neg (by omega), if_neg (by omega)]
  | dbl f =>
    cases f with
    | nan b => rfl
    | inf n => cases n <;> rfl
    | fin x =>
      have e2 : toDbl (2 ^ 64 - 1) = 2 ^ 64 := by decide +kernel
      have z : ((0 : Int) : Rat) = 0 := Int.cast_zero
      have hne' : x ≠ ((2 ^ 64 : Int) : Rat) := fun h => hne (by rw [h]; push_cast; rfl)
      simp only [toUInt64, Spec.convert, Spec.value, Spec.ofDbl, e2]
      by_cases h1 : x < 0
      · rw [if_pos h1, Spec.integer, z, if_pos h1]
      · rw [if_neg h1]
        by_cases h2 : x > ((2 ^ 64 : Int) : Rat)
        · have h3 : ((2 ^ 64 - 1 : Int) : Rat) < x := lt_trans (by exact_mod_cast (by norm_num : (2 ^ 64 - 1 : Int) < 2 ^ 64)) h2
          rw [if_pos h2, Spec.integer, z, if_neg h1, if_pos h3]
        · rw [if_neg h2]
          exact cast_spec (by decide) (by decide) hv (by rw [z]; exact not_lt.1 h1) (gap hv (by decide) (not_lt.1 h2) hne')
  | str s => rfl

/-- **C59, doubles.**  An integer converts to the nearest double, and to success exactly if it is that double.
Partial: not integers that are rounded to 2^63 or 2^64, see `C59_double_counterexample`. -/
theorem C59_double_partial {v : Var} (hv : Spec.Valid v) (n : Int) (hn : v = .int n ∨ ∃ k : Nat, v = .uint k ∧ n = k)
    (hi : ∀ k, v = .int k → k < 2 ^ 63 - 512) (hu : ∀ k, v = .uint k → k < 2 ^ 64 - 1024) :
    ∃ x, toDouble v = some (if x = (n : Rat) then .success else .overflow, .fin x) ∧ Spec.Double x ∧
      (∀ y, Spec.Double y → |x - n| ≤ |y - n|) ∧ (x = n ↔ Spec.Double (n : Rat)) := by
  have fin : ∀ {r : Option (Res × Dbl)}, n.natAbs < 2 ^ 64 →
      r = some (if toDbl n ≠ n then .overflow else .success, .fin (toDbl n)) →
      ∃ x, r = some (if x = (n : Rat) then .success else .overflow, .fin x) ∧ Spec.Double x ∧
      (∀ y, Spec.Double y → |x - n| ≤ |y - n|) ∧ (x = n ↔ Spec.Double (n : Rat)) := by
    intro r hb hr
    refine ⟨toDbl n, ?_, toDbl_isDouble hb, fun y hy => toDbl_nearest n hy, ?_⟩
    · rw [hr]
      simp only [Int.cast_inj]
      by_cases h : toDbl n = n
      · rw [if_neg (fun hc => hc h), if_pos h]
      · rw [if_pos h, if_neg h]
    · rw [Int.cast_inj]; exact toDbl_inj_eq hb
  rcases hn with rfl | ⟨k, rfl, rfl⟩
  · simp only [Spec.Valid] at hv
    have h1 := hi n rfl
    have hb := toDbl_bounds (v := n) (k := 63) (by decide) (by omega)
    have hlt : toDbl n ≠ 2 ^ 63 := by
      intro hc
      have hd : Spec.Double ((2 ^ 63 - 1024 : Int) : Rat) :=
        ⟨2 ^ 53 - 1, 10, 0, by norm_num, by decide, by decide, by norm_num⟩
      have := toDbl_nearest n hd
      rw [hc, ← Int.cast_sub, ← Int.cast_sub, ← Int.cast_abs, ← Int.cast_abs, Int.cast_le] at this
      rw [abs_of_nonneg (by omega)] at this
      rcases abs_cases ((2 : Int) ^ 63 - 1024 - n) with h | h <;> omega
    apply fin (by omega)
    rw [toDouble, cast_int, if_pos (by omega)]
    rfl
  · simp only [Spec.Valid] at hv
    have h1 := hu k rfl
    have hb := toDbl_bounds (v := (k : Int)) (k := 64) (by decide) (by omega)
    have h0 := toDbl_nonneg (v := (k : Int)) (by omega)
    have hlt : toDbl k ≠ 2 ^ 64 := by
      intro hc
      have hd : Spec.Double ((2 ^ 64 - 2048 : Int) : Rat) :=
        ⟨2 ^ 53 - 1, 11, 0, by norm_num, by decide, by decide, by norm_num⟩
      have := toDbl_nearest k hd
      rw [hc, ← Int.cast_sub, ← Int.cast_sub, ← Int.cast_abs, ← Int.cast_abs, Int.cast_le] at this
      rw [abs_of_nonneg (by omega)] at this
      rcases abs_cases ((2 : Int) ^ 64 - 2048 - k) with h | h <;> omega
    apply fin (by omega)
    rw [toDouble, cast_int, if_pos (by omega)]
    rfl

/-- **C59, doubles.**  Doubles and booleans convert to doubles of the same value, NaN to itself. -/
theorem C59_double_same :
    (∀ f, toDouble (.dbl f) = some (.success, f)) ∧
    (∀ b, toDouble (.bool b) = some (.success, .fin (if b then 1 else 0))) := by
  refine ⟨fun _ => rfl, fun b => ?_⟩
  cases b <;> decide +kernel

end Blend2D.VarNum
