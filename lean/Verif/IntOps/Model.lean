/-! # Integer helpers (`blend2d/support/intops_p.h`)

A C++ integer of `w` bits is a `BitVec w`; the same functions serve every width, as the C++ templates do.
`std::is_unsigned_v<T>` selects at compile time, so each template gives a `U` (unsigned) and an `S` (signed) function.
-/
namespace Blend2D.IntOps

/-- `negate` - intops_p.h:150-156. -/
def negate (x : BitVec w) : BitVec w := 0#w - x

/-- `bool_as_mask` - intops_p.h:289-290 (argument 0 or 1). -/
def boolAsMask (w : Nat) (b : Bool) : BitVec w := negate (if b then 1#w else 0#w)

/-- `add_overflow_fallback`, unsigned `T` - intops_p.h:648-655. -/
def addOverflowU (x y : BitVec w) (of : Bool) : BitVec w × Bool :=
  let result := x + y
  (result, of || decide (result < x))

/-- `add_overflow_fallback`, signed `T` - intops_p.h:648-655. `T(v) < 0` is the sign bit of `v`. -/
def addOverflowS (x y : BitVec w) (of : Bool) : BitVec w × Bool :=
  let result := x + y
  (result, of || ((x ^^^ ~~~y) &&& (x ^^^ result)).msb)

/-- `sub_overflow_fallback`, unsigned `T` - intops_p.h:657-664. -/
def subOverflowU (x y : BitVec w) (of : Bool) : BitVec w × Bool :=
  let result := x - y
  (result, of || decide (result > x))

/-- `sub_overflow_fallback`, signed `T` - intops_p.h:657-664. -/
def subOverflowS (x y : BitVec w) (of : Bool) : BitVec w × Bool :=
  let result := x - y
  (result, of || ((x ^^^ y) &&& (x ^^^ result)).msb)

/-- `mul_overflow_fallback`, unsigned `T` of at most 32 bits - intops_p.h:666-682 (product in `w * 2` bits). -/
def mulOverflowU (x y : BitVec w) (of : Bool) : BitVec w × Bool :=
  let mask : BitVec (w * 2) := BitVec.ofNat (w * 2) (2 ^ w - 1)
  let prod := x.zeroExtend (w * 2) * y.zeroExtend (w * 2)
  ((prod &&& mask).truncate w, of || (prod &&& ~~~mask) != 0#(w * 2))

/-- `mul_overflow_fallback`, signed `T` of at most 32 bits - intops_p.h:666-682. -/
def mulOverflowS (x y : BitVec w) (of : Bool) : BitVec w × Bool :=
  let mask : BitVec (w * 2) := BitVec.ofNat (w * 2) (2 ^ w - 1)
  let prod := x.signExtend (w * 2) * y.signExtend (w * 2)
  let lo : BitVec w := BitVec.intMin w
  let hi : BitVec w := BitVec.intMax w
  ((prod &&& mask).truncate w,
   of || prod.slt (lo.signExtend (w * 2)) || (hi.signExtend (w * 2)).slt prod)

/-- `mul_overflow_fallback<int64_t>` - intops_p.h:684-689. `none`: the division overflows (`INT64_MIN / -1`), which is
undefined behaviour. -/
def mulOverflowS64 (x y : BitVec 64) (of : Bool) : Option (BitVec 64 × Bool) :=
  let result := x * y
  if x != 0#64 then
    if result = BitVec.intMin 64 ∧ x = -1#64 then none
    else some (result, of || (result.sdiv x != y))
  else some (result, of)

/-- `mul_overflow_fallback<uint64_t>` - intops_p.h:691-696 (any width; the code uses 64 bits). -/
def mulOverflowU64 (x y : BitVec w) (of : Bool) : BitVec w × Bool :=
  let result := x * y
  (result, of || (y != 0#w && decide (BitVec.allOnes w / y < x)))

/-- `uadd_saturate` - intops_p.h:760-766. -/
def uaddSaturate (x y : BitVec w) : BitVec w :=
  let (result, of) := addOverflowU x y false
  result ||| boolAsMask w of

/-- `usub_saturate` - intops_p.h:768-774. -/
def usubSaturate (x y : BitVec w) : BitVec w :=
  let (result, of) := subOverflowU x y false
  result &&& boolAsMask w (!of)

/-- `umul_saturate` - intops_p.h:776-782 (64-bit path). -/
def umulSaturate64 (x y : BitVec w) : BitVec w :=
  let (result, of) := mulOverflowU64 x y false
  result ||| boolAsMask w of

/-- `umul_saturate` - intops_p.h:776-782 (path through the double-width product). -/
def umulSaturate (x y : BitVec w) : BitVec w :=
  let (result, of) := mulOverflowU x y false
  result ||| boolAsMask w of

/-- `is_aligned` - intops_p.h:598-603. -/
def isAligned (x a : BitVec w) : Bool := x % a == 0#w

/-- `is_power_of_2` - intops_p.h:606-611. -/
def isPowerOf2 (x : BitVec w) : Bool := decide ((x ^^^ (x - 1#w)) > x - 1#w)

/-- `align_up` - intops_p.h:614-619. -/
def alignUp (x a : BitVec w) : BitVec w := (x + (a - 1#w)) &&& ~~~(a - 1#w)

/-- `align_up_diff` - intops_p.h:622-627. -/
def alignUpDiff (x a : BitVec w) : BitVec w := (0#w - x) &&& (a - 1#w)

/-- `align_down` - intops_p.h:636-641. -/
def alignDown (x a : BitVec w) : BitVec w := x &&& ~~~(a - 1#w)

/-- `fill_trailing_bits<uint64_t>` - intops_p.h:236-259 (`shr_or(x, 1, 2, 4, 8, 16, 32)`; the narrower versions use a
prefix of the same list of shifts). -/
def fillTrailing (x : BitVec w) : List Nat → BitVec w
  | [] => x
  | s :: ss => fillTrailing (x ||| (x >>> s)) ss

/-- `align_up_power_of_2` - intops_p.h:629-634, for a type of `w` bits with its list of shifts. -/
def alignUpPowerOf2 (x : BitVec w) (shifts : List Nat) : BitVec w := fillTrailing (x - 1#w) shifts + 1#w

/-- `clamp_to_impl`, signed source of `w` bits, bound `y` (255 or 65535) - intops_p.h:789-795.  The result is the
value of the destination type, kept in `w` bits. -/
def clampToS (x y : BitVec w) : BitVec w :=
  if x ≤ y then x else y &&& (negate x).sshiftRight (w - 1)

/-- `clamp_to_impl`, unsigned source - intops_p.h:789-795. -/
def clampToU (x y : BitVec w) : BitVec w := if x ≤ y then x else y

/-- `pmod`, unsigned - intops_p.h:817-822. -/
def pmodU (x y : BitVec w) : BitVec w := x % y

/-- `pmod`, signed - intops_p.h:817-822 (`%` truncates toward zero; `>>` is arithmetic). -/
def pmodS (x y : BitVec w) : BitVec w :=
  let result := x.srem y
  result + (y + result.sshiftRight (w - 1))

end Blend2D.IntOps
