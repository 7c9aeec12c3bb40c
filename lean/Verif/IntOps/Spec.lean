/-! # What the integer helpers have to compute -/
namespace Blend2D.IntOps.Spec

/-- `v` fits an unsigned type of `w` bits. -/
def FitsU (w : Nat) (v : Int) : Prop := 0 ≤ v ∧ v < 2 ^ w

/-- `v` fits a signed (two's complement) type of `w` bits. -/
def FitsS (w : Nat) (v : Int) : Prop := -2 ^ (w - 1) ≤ v ∧ v < 2 ^ (w - 1)

/-- Result `r` (value of the returned integer) and flag of a checked operation with exact result `exact`:
the flag afterwards is the flag before or-ed with "does not fit", and a fitting result is exact. -/
def Checked (fits : Int → Prop) (exact r : Int) (flagBefore flagAfter : Bool) : Prop :=
  (flagAfter = true ↔ flagBefore = true ∨ ¬ fits exact) ∧ (fits exact → r = exact)

/-- `r` is the least multiple of `a` that is not below `x`. -/
def LeastMultipleGE (x a r : Nat) : Prop := a ∣ r ∧ x ≤ r ∧ ∀ m, a ∣ m → x ≤ m → r ≤ m

/-- `r` is the greatest multiple of `a` that is not above `x`. -/
def GreatestMultipleLE (x a r : Nat) : Prop := a ∣ r ∧ r ≤ x ∧ ∀ m, a ∣ m → m ≤ x → m ≤ r

end Blend2D.IntOps.Spec
