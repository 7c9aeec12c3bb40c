import Verif.VarNum.Props
/-! **C59.**  Comparisons of numbers in variants. -/
namespace Blend2D.VarNum

theorem deq_fin (x y : Rat) : deq (.fin x) (.fin y) = decide (x = y) := rfl

/-- A double and an integer. -/
theorem eq_int {lo hi v : Int} {x : Rat} (hx : Spec.Double x) (hb : x = toDbl v → lo ≤ toDbl v ∧ toDbl v ≤ hi) :
    (if x = (toDbl v : Rat) then (cast lo hi (toDbl v)).map (· == v) else some false) = some (decide (x = (v : Rat))) := by
  by_cases h : x = (toDbl v : Rat)
  · rw [if_pos h, cast_int, if_pos (hb h), Option.map_some, h]
    congr 1
    rw [Bool.eq_iff_iff, beq_iff_eq, decide_eq_true_eq, Int.cast_inj]
  · rw [if_neg h]
    congr 1
    rw [eq_comm, decide_eq_false_iff_not]
    rintro rfl
    exact h (by rw [toDbl_exact hx])

theorem eq_int64 {v : Int} {x : Rat} (hx : Spec.Double x) (hv : -2 ^ 63 ≤ v ∧ v < 2 ^ 63) (hne : x ≠ 2 ^ 63) :
    (if x = (toDbl v : Rat) then (cast (-2 ^ 63) (2 ^ 63 - 1) (toDbl v)).map (· == v) else some false) =
      some (decide (x = (v : Rat))) := by
  refine eq_int hx fun h => ?_
  have hb := toDbl_bounds (v := v) (k := 63) (by decide) (by omega)
  have h2 : toDbl v ≠ 2 ^ 63 := fun hc => hne (by rw [h, hc]; push_cast; rfl)
  omega

theorem eq_uint64 {v : Nat} {x : Rat} (hx : Spec.Double x) (hv : v < 2 ^ 64) (hne : x ≠ 2 ^ 64) :
    (if x = (toDbl v : Rat) then (cast 0 (2 ^ 64 - 1) (toDbl v)).map (· == (v : Int)) else some false) =
      some (decide (x = (v : Rat))) := by
  have h := eq_int (lo := 0) (hi := 2 ^ 64 - 1) (v := (v : Int)) hx fun h => by
    have hb := toDbl_bounds (v := (v : Int)) (k := 64) (by decide) (by omega)
    have h0 := toDbl_nonneg (v := (v : Int)) (by omega)
    have h2 : toDbl v ≠ 2 ^ 64 := fun hc => hne (by rw [h, hc]; push_cast; rfl)
    omega
  rw [h, Int.cast_natCast]

/-- **C59, equality with booleans.** -/
theorem C59_equals_bool {v : Var} (hv : Spec.Valid v) (b : Bool) : equalsBool v b = some (Spec.same v (.bool b)) := by
  cases v with
  | null => rfl
  | bool c => cases c <;> cases b <;> decide +kernel
  | int w =>
    simp only [Spec.Valid] at hv
    simp only [equalsBool, Spec.same, Spec.value]
    congr 1
    rw [Bool.eq_iff_iff]
    unfold asU64
    cases b
    · simp
      omega
    · simp
      omega
  | uint w => cases b <;> simp [equalsBool, Spec.same, Spec.value] <;> rfl
  | dbl f =>
    cases f with
    | fin x => cases b <;> simp [equalsBool, Spec.same, Spec.value, Spec.ofDbl, deq]
    | inf n => cases b <;> simp [equalsBool, Spec.same, Spec.value, Spec.ofDbl, deq]
    | nan n => cases b <;> simp [equalsBool, Spec.same, Spec.value, Spec.ofDbl, deq]
  | str s => rfl

/-- **C59, equality with 64-bit integers.**  Partial: not for the double 2^63, see `C59_double_counterexample`. -/
theorem C59_equals_int64_partial {v : Var} (hv : Spec.Valid v) {n : Int} (hn : Spec.Valid (.int n))
    (hne : v ≠ .dbl (.fin (2 ^ 63))) : equalsInt64 v n = some (Spec.same v (.int n)) := by
  simp only [Spec.Valid] at hn
  cases v with
  | null => rfl
  | bool c =>
    simp only [equalsInt64, Spec.same, Spec.value]
    congr 1
    rw [Bool.eq_iff_iff]
    cases c
    · simp
      rw [show ((0 : Rat) = n ↔ (0 : Int) = n) by exact_mod_cast Iff.rfl]
    · simp
      rw [show ((1 : Rat) = n ↔ (1 : Int) = n) by exact_mod_cast Iff.rfl]
  | int w => simp [equalsInt64, Spec.same, Spec.value]; rfl
  | uint w =>
    simp only [Spec.Valid] at hv
    simp only [equalsInt64, Spec.same, Spec.value]
    congr 1
    rw [Bool.eq_iff_iff]
    simp
    rw [show ((w : Rat) = n ↔ (w : Int) = n) by exact_mod_cast Iff.rfl]
    unfold asI64
    split <;> omega
  | dbl f =>
    cases f with
    | fin x =>
      have := eq_int64 hv hn (fun h => hne (by rw [h]))
      simp only [equalsInt64, Spec.same, Spec.value, Spec.ofDbl, deq_fin, decide_eq_true_eq, this]
      simp
    | inf n => simp [equalsInt64, Spec.same, Spec.value, Spec.ofDbl, deq]
    | nan n => simp [equalsInt64, Spec.same, Spec.value, Spec.ofDbl, deq]
  | str s => rfl

/-- **C59, equality with unsigned 64-bit integers.**  Partial: not for the double 2^64, see
`C59_double_counterexample`. -/
theorem C59_equals_uint64_partial {v : Var} (hv : Spec.Valid v) {n : Nat} (hn : Spec.Valid (.uint n))
    (hne : v ≠ .dbl (.fin (2 ^ 64))) : equalsUInt64 v n = some (Spec.same v (.uint n)) := by
  simp only [Spec.Valid] at hn
  cases v with
  | null => rfl
  | bool c =>
    simp only [equalsUInt64, Spec.same, Spec.value]
    congr 1
    rw [Bool.eq_iff_iff]
    cases c
    · simp
      rw [show ((0 : Rat) = n ↔ (0 : Nat) = n) by exact_mod_cast Iff.rfl]
    · simp
      rw [show ((1 : Rat) = n ↔ (1 : Nat) = n) by exact_mod_cast Iff.rfl]
  | uint w => simp [equalsUInt64, Spec.same, Spec.value]; rfl
  | int w =>
    simp only [Spec.Valid] at hv
    simp only [equalsUInt64, Spec.same, Spec.value]
    congr 1
    rw [Bool.eq_iff_iff]
    simp
    rw [show ((w : Rat) = n ↔ w = (n : Int)) by exact_mod_cast Iff.rfl]
    unfold asU64
    omega
  | dbl f =>
    cases f with
    | fin x =>
      have := eq_uint64 hv hn (fun h => hne (by rw [h]))
      simp only [equalsUInt64, Spec.same, Spec.value, Spec.ofDbl, deq_fin, decide_eq_true_eq, this]
      simp
    | inf n => simp [equalsUInt64, Spec.same, Spec.value, Spec.ofDbl, deq]
    | nan n => simp [equalsUInt64, Spec.same, Spec.value, Spec.ofDbl, deq]
  | str s => rfl

/-- **C59, equality with doubles.**  Partial: not for 2^63 and 2^64, see `C59_double_counterexample`. -/
theorem C59_equals_double_partial {v : Var} (hv : Spec.Valid v) {f : Dbl} (hf : Spec.Valid (.dbl f))
    (h1 : f ≠ .fin (2 ^ 63)) (h2 : f ≠ .fin (2 ^ 64)) : equalsDouble v f = some (Spec.same v (.dbl f)) := by
  cases v with
  | null => rfl
  | bool c =>
    cases f with
    | fin x => cases c <;> simp [equalsDouble, Spec.same, Spec.value, Spec.ofDbl, deq]
    | inf n => cases c <;> simp [equalsDouble, Spec.same, Spec.value, Spec.ofDbl, deq]
    | nan n => cases c <;> simp [equalsDouble, Spec.same, Spec.value, Spec.ofDbl, deq]
  | int w =>
    cases f with
    | fin x =>
      have := eq_int64 hf hv (fun h => h1 (by rw [h]))
      simp only [equalsDouble, Spec.same, Spec.value, Spec.ofDbl, deq_fin, decide_eq_true_eq, eq_comm (b := x), this]
      simp [eq_comm]
    | inf n => simp [equalsDouble, Spec.same, Spec.value, Spec.ofDbl, deq]
    | nan n => simp [equalsDouble, Spec.same, Spec.value, Spec.ofDbl, deq]
  | uint w =>
    cases f with
    | fin x =>
      have := eq_uint64 hf hv (fun h => h2 (by rw [h]))
      simp only [equalsDouble, Spec.same, Spec.value, Spec.ofDbl, deq_fin, decide_eq_true_eq, eq_comm (b := x), this]
      simp [eq_comm]
    | inf n => simp [equalsDouble, Spec.same, Spec.value, Spec.ofDbl, deq]
    | nan n => simp [equalsDouble, Spec.same, Spec.value, Spec.ofDbl, deq]
  | dbl g => cases f <;> cases g <;> simp [equalsDouble, Spec.same, Spec.value, Spec.ofDbl, deq]
  | str s => rfl

theorem same_self (a : Var) : Spec.same a a = true := by
  unfold Spec.same
  cases Spec.value a <;> simp

/-- **C59, equality.**  Two variants are equal exactly if they are numbers of the same value, the same strings, or both
null, whatever their types.  Partial: not two different doubles, which are always equal
(`C59_equals_counterexample`), and not the doubles 2^63 and 2^64. -/
theorem C59_equals_partial {a b : Var} (ha : Spec.Valid a) (hb : Spec.Valid b)
    (hd : a = b ∨ ∀ f g, ¬(a = .dbl f ∧ b = .dbl g))
    (h1 : ∀ x : Rat, a = .dbl (.fin x) ∨ b = .dbl (.fin x) → x ≠ 2 ^ 63 ∧ x ≠ 2 ^ 64) :
    equals a b = some (Spec.same a b) := by
  unfold equals
  by_cases hab : a = b
  · rw [if_pos hab, hab, same_self]
  · rw [if_neg hab]
    have hd' := hd.resolve_left hab
    have na : a ≠ .dbl (.fin (2 ^ 63)) := fun h => (h1 _ (.inl h)).1 rfl
    have na' : a ≠ .dbl (.fin (2 ^ 64)) := fun h => (h1 _ (.inl h)).2 rfl
    cases b with
    | null => cases a <;> rfl
    | bool v =>
      have := C59_equals_bool ha v
      cases a <;> first | exact this | skip
      cases v <;> rename_i w <;> cases w <;> first | exact absurd rfl hab | decide +kernel
    | int v =>
      have := C59_equals_int64_partial ha hb na
      cases a <;> first | exact this | skip
      rename_i w
      have hw : w ≠ v := fun h => hab (by rw [h])
      simp [Spec.same, Spec.value, hw]
    | uint v =>
      have := C59_equals_uint64_partial ha hb na'
      cases a <;> first | exact this | skip
      rename_i w
      have hw : w ≠ v := fun h => hab (by rw [h])
      simp [Spec.same, Spec.value, hw]
    | dbl v =>
      have := C59_equals_double_partial ha hb (fun h => (h1 _ (.inr (by rw [h]))).1 rfl) (fun h => (h1 _ (.inr (by rw [h]))).2 rfl)
      cases a <;> first | exact this | skip
      exact absurd ⟨rfl, rfl⟩ (hd' _ _)
    | str s =>
      cases a <;> first | rfl | skip
      rename_i t
      have hw : t ≠ s := fun h => hab (by rw [h])
      simp [Spec.same, Spec.value, hw]

end Blend2D.VarNum
