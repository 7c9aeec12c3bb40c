import Mathlib.Data.Rat.Floor
/-! Model of the conversions and comparisons of numbers in `BLVar`: `blend2d/core/var.cpp:198-876`.

Conventions: a value is what the object stores (`bool`, `int64_t`, `uint64_t`, `double`, a string, or nothing); other
types behave like strings in the modelled functions, except that strings have their own case in `bl_var_to_bool` and
`bl_var_equals`.  `none` is undefined behaviour: converting a `double` to an integer type that cannot represent it
(`[conv.fpint]`).  Doubles are exact: a finite number, an infinity or a NaN with its bits; both zeros are 0 (no
function tells them apart).  Colours are not modelled. -/
namespace Blend2D.VarNum

/-- `double`. -/
inductive Dbl where
  | nan (bits : Nat)
  | inf (neg : Bool)
  | fin (x : Rat)
  deriving DecidableEq

/-- `BLVar` (`object.h`, `BLObjectDetail`): null, bool, int64, uint64, double, string. -/
inductive Var where
  | null
  | bool (b : Bool)
  | int (v : Int)
  | uint (v : Nat)
  | dbl (f : Dbl)
  | str (s : List UInt8)
  deriving DecidableEq

/-- `BL_SUCCESS`, `BL_ERROR_OVERFLOW`, `BL_ERROR_INVALID_CONVERSION`, `BL_ERROR_INVALID_STATE`, and the number 1 that
is not the code of an error. -/
inductive Res where
  | success | overflow | invalidConversion | invalidState | one
  deriving DecidableEq

/-- Rounding of integers to `double`: to 53 bits, to the nearest, halves to the even one (IEEE 754). -/
def rndNat (n : Nat) : Nat :=
  if n < 2 ^ 53 then n
  else
    let s := n.log2 - 52
    let q := n / 2 ^ s
    let r := n % 2 ^ s
    (if r > 2 ^ (s - 1) ∨ r = 2 ^ (s - 1) ∧ q % 2 = 1 then q + 1 else q) * 2 ^ s

/-- `double(v)` of an integer. -/
def toDbl (v : Int) : Int := if v < 0 then -(rndNat v.natAbs : Int) else rndNat v.natAbs

/-- The C++ conversion of a finite number to an integer type, towards zero; undefined if the type cannot represent it. -/
def cast (lo hi : Int) (x : Rat) : Option Int :=
  let t := if x < 0 then ⌈x⌉ else ⌊x⌋
  if lo ≤ t ∧ t ≤ hi then some t else none

/-- The bits of an `int64_t` as `uint64_t`. -/
def asU64 (v : Int) : Nat := (v % 2 ^ 64).toNat

/-- The bits of a `uint64_t` as `int64_t`. -/
def asI64 (v : Nat) : Int := if v < 2 ^ 63 then v else (v : Int) - 2 ^ 64

/-- `bl_var_to_bool` (`var.cpp:198-228`): the result and what is written to `out`, if anything is written. -/
def toBool : Var → Res × Option Bool
  | .null => (.success, some false)
  | .bool b => (.success, some (b.toNat != 0))
  | .int v => (.success, some (asU64 v != 0))
  | .uint v => (.success, some (v != 0))
  | .dbl (.fin x) => (.success, some (x != 0))
  | .dbl (.inf _) => (.success, some true)
  | .dbl (.nan _) => (.success, some false)
  | .str s => (if s.isEmpty then .success else .one, none)

/-- `bl_var_to_int32` (`var.cpp:230-303`). -/
def toInt32 : Var → Option (Res × Int)
  | .null => some (.success, 0)
  | .bool b => some (.success, b.toNat)
  | .int v =>
    if v < -2 ^ 31 then some (.overflow, -2 ^ 31)
    else if v > 2 ^ 31 - 1 then some (.overflow, 2 ^ 31 - 1)
    else some (.success, v)
  | .uint v => if v > 2 ^ 31 - 1 then some (.overflow, 2 ^ 31 - 1) else some (.success, v)
  | .dbl (.nan _) => some (.invalidConversion, 0)
  | .dbl (.inf true) => some (.overflow, -2 ^ 31)
  | .dbl (.inf false) => some (.overflow, 2 ^ 31 - 1)
  | .dbl (.fin f) =>
    if f < (toDbl (-2 ^ 31) : Rat) then some (.overflow, -2 ^ 31)
    else if f > (toDbl (2 ^ 31 - 1) : Rat) then some (.overflow, 2 ^ 31 - 1)
    else (cast (-2 ^ 31) (2 ^ 31 - 1) f).map fun v => (if (toDbl v : Rat) ≠ f then .overflow else .success, v)
  | .str _ => some (.invalidConversion, 0)

/-- `bl_var_to_int64` (`var.cpp:305-362`). -/
def toInt64 : Var → Option (Res × Int)
  | .null => some (.success, 0)
  | .bool b => some (.success, b.toNat)
  | .int v => some (.success, v)
  | .uint v => if v > 2 ^ 63 - 1 then some (.overflow, 2 ^ 63 - 1) else some (.success, asI64 v)
  | .dbl (.nan _) => some (.invalidConversion, 0)
  | .dbl (.inf true) => some (.overflow, -2 ^ 63)
  | .dbl (.inf false) => some (.overflow, 2 ^ 63 - 1)
  | .dbl (.fin f) =>
    if f < (toDbl (-2 ^ 63) : Rat) then some (.overflow, -2 ^ 63)
    else if f > (toDbl (2 ^ 63 - 1) : Rat) then some (.overflow, 2 ^ 63 - 1)
    else (cast (-2 ^ 63) (2 ^ 63 - 1) f).map fun v => (if (toDbl v : Rat) ≠ f then .overflow else .success, v)
  | .str _ => some (.invalidConversion, 0)

/-- `bl_var_to_uint32` (`var.cpp:364-439`). -/
def toUInt32 : Var → Option (Res × Int)
  | .null => some (.success, 0)
  | .bool b => some (.success, b.toNat)
  | .uint v => if v > 2 ^ 32 - 1 then some (.overflow, 2 ^ 32 - 1) else some (.success, v)
  | .int v =>
    if v < 0 then some (.overflow, 0)
    else if v > 2 ^ 32 - 1 then some (.overflow, 2 ^ 32 - 1)
    else some (.success, v)
  | .dbl (.nan _) => some (.invalidConversion, 0)
  | .dbl (.inf true) => some (.overflow, 0)
  | .dbl (.inf false) => some (.overflow, 2 ^ 32 - 1)
  | .dbl (.fin f) =>
    if f < 0 then some (.overflow, 0)
    else if f > (toDbl (2 ^ 32 - 1) : Rat) then some (.overflow, 2 ^ 32 - 1)
    else (cast 0 (2 ^ 32 - 1) f).map fun v => (if (toDbl v : Rat) ≠ f then .overflow else .success, v)
  | .str _ => some (.invalidConversion, 0)

/-- `bl_var_to_uint64` (`var.cpp:441-500`). -/
def toUInt64 : Var → Option (Res × Int)
  | .null => some (.success, 0)
  | .bool b => some (.success, b.toNat)
  | .uint v => some (.success, v)
  | .int v => if v < 0 then some (.overflow, 0) else some (.success, asU64 v)
  | .dbl (.nan _) => some (.invalidConversion, 0)
  | .dbl (.inf true) => some (.overflow, 0)
  | .dbl (.inf false) => some (.overflow, 2 ^ 64 - 1)
  | .dbl (.fin f) =>
    if f < 0 then some (.overflow, 0)
    else if f > (toDbl (2 ^ 64 - 1) : Rat) then some (.overflow, 2 ^ 64 - 1)
    else (cast 0 (2 ^ 64 - 1) f).map fun v => (if (toDbl v : Rat) ≠ f then .overflow else .success, v)
  | .str _ => some (.invalidConversion, 0)

/-- `bl_var_to_double` (`var.cpp:502-545`). -/
def toDouble : Var → Option (Res × Dbl)
  | .null => some (.success, .fin 0)
  | .bool b => some (.success, .fin (if b.toNat ≠ 0 then 1 else 0))
  | .int v => (cast (-2 ^ 63) (2 ^ 63 - 1) (toDbl v)).map fun w => (if w ≠ v then .overflow else .success, .fin (toDbl v))
  | .uint v => (cast 0 (2 ^ 64 - 1) (toDbl v)).map fun w => (if w ≠ (v : Int) then .overflow else .success, .fin (toDbl v))
  | .dbl f => some (.success, f)
  | .str _ => some (.invalidState, .fin 0)

/-- The comparison `==` of doubles. -/
def deq : Dbl → Dbl → Bool
  | .fin x, .fin y => x = y
  | .inf a, .inf b => a = b
  | _, _ => false

/-- `bl_var_equals_bool` (`var.cpp:723-741`). -/
def equalsBool : Var → Bool → Option Bool
  | .bool b, v => some (b.toNat == v.toNat)
  | .int w, v => some (asU64 w == v.toNat)
  | .uint w, v => some (w == v.toNat)
  | .dbl f, v => some (deq f (.fin v.toNat))
  | _, _ => some false

/-- `bl_var_equals_int64` (`var.cpp:743-764`); `&&` does not evaluate its second operand if the first is false. -/
def equalsInt64 : Var → Int → Option Bool
  | .bool b, v => some ((b.toNat : Int) == v)
  | .int w, v => some (w == v)
  | .uint w, v => some (asI64 w == v && v ≥ 0)
  | .dbl f, v =>
    if deq f (.fin (toDbl v)) then (cast (-2 ^ 63) (2 ^ 63 - 1) (toDbl v)).map (· == v) else some false
  | _, _ => some false

/-- `bl_var_equals_uint64` (`var.cpp:766-786`). -/
def equalsUInt64 : Var → Nat → Option Bool
  | .bool b, v => some (b.toNat == v)
  | .uint w, v => some (w == v)
  | .int w, v => some (asU64 w == v && w ≥ 0)
  | .dbl f, v =>
    if deq f (.fin (toDbl v)) then (cast 0 (2 ^ 64 - 1) (toDbl v)).map (· == (v : Int)) else some false
  | _, _ => some false

/-- `bl_var_equals_double` (`var.cpp:788-810`). -/
def equalsDouble : Var → Dbl → Option Bool
  | .bool b, f => some (deq (.fin b.toNat) f)
  | .int w, f =>
    if deq (.fin (toDbl w)) f then (cast (-2 ^ 63) (2 ^ 63 - 1) (toDbl w)).map (· == w) else some false
  | .uint w, f =>
    if deq (.fin (toDbl w)) f then (cast 0 (2 ^ 64 - 1) (toDbl w)).map (· == (w : Int)) else some false
  | .dbl (.nan _), .nan _ => some true
  | .dbl g, f => some (deq g f)
  | _, _ => some false

/-- `bl_var_equals` (`var.cpp:613-715`): values with the same bits are equal; those of different types are compared by
the functions above, those of the same type by that type. -/
def equals (a b : Var) : Option Bool :=
  if a = b then some true
  else match a, b with
    | .null, .null => some true
    | .bool _, .bool _ => some false
    | .int _, .int _ => some false
    | .uint _, .uint _ => some false
    | .dbl f, .dbl _ => some (deq f f)
    | .str s, .str t => some (s == t)
    | a, .bool v => equalsBool a v
    | a, .int v => equalsInt64 a v
    | a, .uint v => equalsUInt64 a v
    | a, .dbl v => equalsDouble a v
    | _, _ => some false

end Blend2D.VarNum
