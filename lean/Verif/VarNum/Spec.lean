import Verif.VarNum.Model
/-! What numbers in variants are, independent of their types. -/
namespace Blend2D.VarNum.Spec

/-- The numbers a `double` can represent: 53 bits times a power of two between -1074 and 971. -/
def Double (x : Rat) : Prop :=
  ∃ (m : Int) (a b : Nat), |m| < 2 ^ 53 ∧ a ≤ 971 ∧ b ≤ 1074 ∧ x * 2 ^ b = m * 2 ^ a

/-- Values a variant can store. -/
def Valid : Var → Prop
  | .int v => -2 ^ 63 ≤ v ∧ v < 2 ^ 63
  | .uint v => v < 2 ^ 64
  | .dbl (.fin x) => Double x
  | _ => True

/-- A number, an infinity, or not a number. -/
inductive Val where
  | nan | inf (neg : Bool) | num (x : Rat)
  deriving DecidableEq

/-- The value of a `double`. -/
def ofDbl : Dbl → Val
  | .nan _ => .nan
  | .inf n => .inf n
  | .fin x => .num x

/-- The value of a boolean, integer or floating point variant. -/
def value : Var → Option Val
  | .null => none
  | .bool b => some (.num (if b then 1 else 0))
  | .int v => some (.num v)
  | .uint v => some (.num v)
  | .dbl f => some (ofDbl f)
  | .str _ => none

/-- A value as an integer between `lo` and `hi`: what is outside is clamped, fractions are dropped, and both are
reported as overflow; NaN is 0 and an invalid conversion. -/
def integer (lo hi : Int) : Val → Res × Int
  | .nan => (.invalidConversion, 0)
  | .inf true => (.overflow, lo)
  | .inf false => (.overflow, hi)
  | .num x =>
    if x < lo then (.overflow, lo)
    else if hi < x then (.overflow, hi)
    else if x = ⌊x⌋ then (.success, ⌊x⌋)
    else (.overflow, if 0 ≤ x then ⌊x⌋ else ⌊x⌋ + 1)

/-- A variant as an integer: null is 0, what is not a number is an invalid conversion. -/
def convert (lo hi : Int) (v : Var) : Res × Int :=
  match value v with
  | some x => integer lo hi x
  | none => if v = .null then (.success, 0) else (.invalidConversion, 0)

/-- Variants that are the same: numbers of the same value, the same strings, or null. -/
def same (a b : Var) : Bool :=
  match value a, value b with
  | some x, some y => x = y
  | none, none => a = b
  | _, _ => false

end Blend2D.VarNum.Spec
