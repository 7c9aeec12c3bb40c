/-!
# Model of `blend2d/codec/pngops.cpp` / `pngops_p.h` (reference implementation of the PNG inverse filter)

The pixel buffer is a list of bytes; pointers are indices into it.  A read or write outside the buffer, and a
dereference of the null pointer `u` on the first row, is `none` (undefined behaviour).
Not modelled: the SSE2/AVX/ASIMD variants in `pngopssimdimpl_p.h`.
-/
namespace Blend2D.Png

abbrev Mem := List UInt8

/-- load -/
def rd (m : Mem) (i : Nat) : Option UInt8 := m[i]?

/-- store -/
def wr (m : Mem) (i : Nat) (v : UInt8) : Option Mem := if i < m.length then some (m.set i v) else none

/-- `pngops_p.h:36` `apply_sum_filter`. -/
def applySum (a b : UInt32) : UInt8 := ((a + b) &&& 0xFF).toUInt8

/-- `pngops_p.h:39` `apply_avg_filter`. -/
def applyAvg (a b : UInt32) : UInt32 := (a + b) >>> 1

/-- `pngops_p.h:110-120` `apply_paeth_filter`.  `threshold` is a signed 32-bit value; for byte operands the
computation does not overflow, so it is an `Int` here. -/
def applyPaeth (a b c : UInt32) : UInt32 :=
  let threshold : Int := ((c * 3).toNat : Int) - ((a + b).toNat : Int)
  let minAB := if a < b then a else b
  let maxAB := if a < b then b else a
  let t0 := if (maxAB.toNat : Int) > threshold then c else minAB
  if threshold > (minAB.toNat : Int) then t0 else maxAB

/-- Filter identifiers, `pngcodec_p.h` `FilterType` (`kFilterTypeAvg0 = 5` is internal). -/
def kNone : UInt32 := 0
def kSub : UInt32 := 1
def kUp : UInt32 := 2
def kAvg : UInt32 := 3
def kPaeth : UInt32 := 4
def kAvg0 : UInt32 := 5

/-- `pngops_p.h:25-33` `simplify_filter_of_first_row`. -/
def simplifyFirst (filter : UInt32) : UInt32 :=
  let k : UInt32 := (kNone <<< 0) ||| (kSub <<< 4) ||| (kNone <<< 8) ||| (kAvg0 <<< 12) ||| (kSub <<< 16)
  (k >>> (filter * 4)) &&& 0xF

/-- `for (i = n; i != 0; i--, p++, u++) p[off] = val(p, u);` - the shape of every loop of `inverse_filter_impl`. -/
def writeLoop (off : Nat) (val : Mem → Nat → Nat → Option UInt8) : Nat → Nat → Nat → Mem → Option Mem
  | 0, _, _, m => some m
  | n + 1, p, u, m => do
    let v ← val m p u
    let m ← wr m (p + off) v
    writeLoop off val n (p + 1) (u + 1) m

/-- `p[bpp] + p[0]` (`pngops.cpp:41`). -/
def valSub (bpp : Nat) (m : Mem) (p _ : Nat) : Option UInt8 := do
  let a ← rd m (p + bpp); let b ← rd m p
  some (applySum a.toUInt32 b.toUInt32)

/-- `p[0] + u[0]` (`pngops.cpp:50`, `pngops.cpp:70`). -/
def valUp (m : Mem) (p u : Nat) : Option UInt8 := do
  let a ← rd m p; let b ← rd m u
  some (applySum a.toUInt32 b.toUInt32)

/-- `p[i] + (u[i] >> 1)` (`pngops.cpp:57`). -/
def valUpHalf (m : Mem) (p u : Nat) : Option UInt8 := do
  let a ← rd m p; let b ← rd m u
  some (applySum a.toUInt32 (b.toUInt32 >>> 1))

/-- `p[bpp] + avg(p[0], u[0])` (`pngops.cpp:61`). -/
def valAvg (bpp : Nat) (m : Mem) (p u : Nat) : Option UInt8 := do
  let x ← rd m (p + bpp); let a ← rd m p; let b ← rd m u
  some (applySum x.toUInt32 (applyAvg a.toUInt32 b.toUInt32))

/-- `p[bpp] + paeth(p[0], u[bpp], u[0])` (`pngops.cpp:73`). -/
def valPaeth (bpp : Nat) (m : Mem) (p u : Nat) : Option UInt8 := do
  let x ← rd m (p + bpp); let a ← rd m p; let b ← rd m (u + bpp); let c ← rd m u
  some (applySum x.toUInt32 (applyPaeth a.toUInt32 b.toUInt32 c.toUInt32))

/-- `p[bpp] + (p[0] >> 1)` (`pngops.cpp:81`). -/
def valAvg0 (bpp : Nat) (m : Mem) (p _ : Nat) : Option UInt8 := do
  let x ← rd m (p + bpp); let a ← rd m p
  some (applySum x.toUInt32 (a.toUInt32 >>> 1))

/-- The `switch` of `pngops.cpp:37-91`, for one row of `bpl` bytes (without the filter byte) at `p`.  The count
`bpl - bpp` is unsigned in the code; `bpl < bpp` would wrap around and overrun the buffer, so it is `none`. -/
def row (filterType : UInt32) (bpp bpl p : Nat) (u : Option Nat) (m : Mem) : Option Mem :=
  if bpl < bpp then none
  else if filterType = kSub then writeLoop bpp (valSub bpp) (bpl - bpp) p 0 m
  else if filterType = kUp then do
    let u ← u
    writeLoop 0 valUp bpl p u m
  else if filterType = kAvg then do
    let u ← u
    let m ← writeLoop 0 valUpHalf bpp p u m
    writeLoop bpp (valAvg bpp) (bpl - bpp) p (u + bpp) m
  else if filterType = kPaeth then do
    let u ← u
    let m ← writeLoop 0 valUp bpp p u m
    writeLoop bpp (valPaeth bpp) (bpl - bpp) p u m
  else if filterType = kAvg0 then writeLoop bpp (valAvg0 bpp) (bpl - bpp) p 0 m
  else some m

/-- Rows after the first: `pngops.cpp:93-101` and the next iteration of the loop. -/
def rows (bpp bpl : Nat) : Nat → Nat → Mem → Option Mem
  | 0, _, m => some m
  | y + 1, p, m => do
    let f ← rd m p
    let ft := if f.toUInt32 ≥ 5 then kNone else f.toUInt32
    let m ← row ft bpp bpl (p + 1) (some (p - bpl)) m
    rows bpp bpl y (p + 1 + bpl) m

/-- `pngops.cpp:17-104` `inverse_filter_impl(p, bpp, bpl, h)`. -/
def inverseFilter (m : Mem) (bpp bpl h : Nat) : Option Mem :=
  let bpl := bpl - 1
  do
    let f ← rd m 0
    let ft := if f.toUInt32 ≥ 5 then kNone else f.toUInt32
    let m ← row (simplifyFirst ft) bpp bpl 1 none m
    rows bpp bpl (h - 1) (1 + bpl) m

end Blend2D.Png
