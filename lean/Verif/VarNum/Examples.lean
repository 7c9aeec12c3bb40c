import Verif.VarNum.Equal
/-! Numbers in variants: concrete values, and values that are not converted or compared by their value. -/
namespace Blend2D.VarNum

theorem half_double : Spec.Double (-5 / 2) := ⟨-5, 0, 1, by decide, by decide, by decide, by norm_num⟩
theorem p63_double : Spec.Double (2 ^ 63) := ⟨1, 63, 0, by decide, by decide, by decide, by norm_num⟩
theorem p64_double : Spec.Double (2 ^ 64) := ⟨1, 64, 0, by decide, by decide, by decide, by norm_num⟩
theorem one_double : Spec.Double 1 := ⟨1, 0, 0, by decide, by decide, by decide, by norm_num⟩
theorem two_double : Spec.Double 2 := ⟨2, 0, 0, by decide, by decide, by decide, by norm_num⟩

example : Spec.Valid (.dbl (.fin (-5 / 2))) := half_double
example : toInt32 (.dbl (.fin (-5 / 2))) = some (.overflow, -2) := by decide +kernel
example : toUInt32 (.dbl (.fin (-5 / 2))) = some (.overflow, 0) := by decide +kernel
example : toInt64 (.uint (2 ^ 63)) = some (.overflow, 2 ^ 63 - 1) := by decide +kernel
example : toUInt64 (.int (-1)) = some (.overflow, 0) := by decide +kernel
example : toDouble (.int (2 ^ 53 + 1)) = some (.overflow, .fin (2 ^ 53)) := by decide +kernel
example : toDouble (.uint (2 ^ 53 + 2)) = some (.success, .fin (2 ^ 53 + 2)) := by decide +kernel
example : equals (.int 1) (.dbl (.fin 1)) = some true := by decide +kernel
example : equals (.int (-1)) (.uint (2 ^ 64 - 1)) = some false := by decide +kernel
example : equals (.int (2 ^ 53 + 1)) (.dbl (.fin (2 ^ 53))) = some false := by decide +kernel

/-- **Counterexample.**  Converting a string to a boolean writes nothing, and returns 1 if the string is not empty. -/
theorem C59_string_counterexample : toBool (.str []) = (.success, none) ∧ toBool (.str [116]) = (.one, none) := by
  decide +kernel

/-- **Counterexample.**  The double 2^63 passes the check of `int64_t`, and 2^64 that of `uint64_t`, because the largest
integers are rounded up to them; their conversion is undefined. -/
theorem C59_int64_counterexample :
    Spec.Valid (.dbl (.fin (2 ^ 63))) ∧ toInt64 (.dbl (.fin (2 ^ 63))) = none ∧
    Spec.Valid (.dbl (.fin (2 ^ 64))) ∧ toUInt64 (.dbl (.fin (2 ^ 64))) = none :=
  ⟨p63_double, by decide +kernel, p64_double, by decide +kernel⟩

/-- **Counterexample.**  The check whether a large integer survived its conversion to `double` converts a double back
that is too large; the same in the comparisons. -/
theorem C59_double_counterexample :
    Spec.Valid (.int (2 ^ 63 - 1)) ∧ toDouble (.int (2 ^ 63 - 1)) = none ∧
    Spec.Valid (.uint (2 ^ 64 - 1)) ∧ toDouble (.uint (2 ^ 64 - 1)) = none ∧
    equals (.int (2 ^ 63 - 1)) (.dbl (.fin (2 ^ 63))) = none ∧
    equals (.dbl (.fin (2 ^ 64))) (.uint (2 ^ 64 - 1)) = none := by
  refine ⟨by unfold Spec.Valid; decide, by decide +kernel, by unfold Spec.Valid; decide, by decide +kernel, by decide +kernel,
    by decide +kernel⟩

/-- **Counterexample.**  All doubles in variants are equal: the first one is compared with itself. -/
theorem C59_equals_counterexample :
    Spec.Valid (.dbl (.fin 1)) ∧ Spec.Valid (.dbl (.fin 2)) ∧ equals (.dbl (.fin 1)) (.dbl (.fin 2)) = some true ∧
    Spec.same (.dbl (.fin 1)) (.dbl (.fin 2)) = false ∧
    equalsDouble (.dbl (.fin 1)) (.fin 2) = some false :=
  ⟨one_double, two_double, by decide +kernel, by decide +kernel, by decide +kernel⟩

end Blend2D.VarNum
