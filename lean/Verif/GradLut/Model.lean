import Verif.Pixel.Model
import Mathlib.Algebra.Order.Floor.Defs
import Mathlib.Data.Rat.Floor

/-!
# Colour tables of gradients

Model of `pixelops/interpolation.cpp` (the portable implementations): `interpolate_prgb32` and `interpolate_prgb64` fill a table of
premultiplied pixels from the sorted stops of a gradient.  Both have the same control flow, which is modelled once, over a `Kernel` that holds
what differs: the pixels and the loop that steps from one colour to the next.

The table is a list of entries that are `none` until they are written.  A write outside of the table gives `none`.
-/

namespace Blend2D.GradLut

open Blend2D.Pixel

/-- What the two functions differ in: the premultiplication of a colour, and the state of the inner loops, from one colour to another in
a number of steps. -/
structure Kernel (C P S : Type) where
  prem : C → P
  start : C → C → Nat → S
  step : S → S
  out : S → P

variable {C P S : Type} [DecidableEq C]

/-- `dSpanPtr[0] = cp`. -/
def write (t : List (Option P)) (k : Nat) (p : P) : Option (List (Option P)) :=
  if k < t.length then some (t.set k (some p)) else none

/-- `SolidLoop`, `interpolation.cpp:61-64`, `203-206`: `i` entries from `ptr` on. -/
def solidLoop (t : List (Option P)) (ptr : Nat) (p : P) : Nat → Option (List (Option P) × Nat)
  | 0 => some (t, ptr)
  | i + 1 => do
    let t ← write t ptr p
    solidLoop t (ptr + 1) p i

/-- The loops that step, `interpolation.cpp:93-105`, `115-142`, `234-246`, `256-271`. -/
def rampLoop (K : Kernel C P S) (t : List (Option P)) (ptr : Nat) (s : S) : Nat → Option (List (Option P) × Nat)
  | 0 => some (t, ptr)
  | i + 1 => do
    let t ← write t ptr (K.out (K.step s))
    rampLoop K t (ptr + 1) (K.step s) i

/-- From the label `SolidInit` to the end of the loop body, `interpolation.cpp:57-148`, `198-276`; `i` is never zero there.  Returns the
table, `dSpanPtr` and `c0`. -/
def span (K : Kernel C P S) (t : List (Option P)) (ptr i : Nat) (c0 c1 : C) : Option (List (Option P) × Nat × C) :=
  if c0 = c1 then do
    let (t, ptr) ← solidLoop t ptr (K.prem c0) i
    some (t, ptr, c0)
  else do
    let t ← write t ptr (K.prem c0)
    let (t, ptr) ← rampLoop K t (ptr + 1) (K.start c0 c1 (i - 1)) (i - 1)
    some (t, ptr, c1)

/-- The loop over the stops, `interpolation.cpp:45-149`, `186-277`; stops are positions `p1` (in 1/256 of an entry) and colours.  Positions never decrease, so the difference
`(p1 >> 8) - (p0 >> 8)` does not wrap; it is undefined here when it would. -/
def stopsLoop (K : Kernel C P S) (t : List (Option P)) (ptr : Nat) (c0 c1 : C) (p0 : Nat) : List (Nat × C) → Option (List (Option P) × Nat × C × C)
  | [] => some (t, ptr, c0, c1)
  | (p1, c1) :: stops =>
    if p1 / 256 < p0 / 256 then none
    else do
      let i := p1 / 256 - p0 / 256
      let (t, ptr, c0) ← span K t (p0 / 256) (i + 1) (if i = 0 then c1 else c0) c1
      stopsLoop K t ptr c0 c1 p1 stops

/-- The rest of the table, `interpolation.cpp:151-155`, `279-283`: `ptr` behind the end of the table would make the number of entries wrap. -/
def finish (K : Kernel C P S) (t : List (Option P)) (ptr : Nat) (c0 c1 : C) : Option (List (Option P)) :=
  if t.length < ptr then none
  else if t.length - ptr ≠ 0 then do
    let (t, ptr, _) ← span K t ptr (t.length - ptr) c0 c1
    -- the same test is made again
    if ptr = t.length then some t else none
  else some t

/-- `interpolate_prgb32` and `interpolate_prgb64`, `interpolation.cpp:19-163`, `168-290`, with the positions of the stops. -/
def fillTable (K : Kernel C P S) (n : Nat) (stops : List (Nat × C)) : Option (List (Option P)) :=
  match stops with
  | [] => none
  | [(_, c)] => do
    let (t, _) ← solidLoop (List.replicate n none) 0 (K.prem c) n
    write t 0 (K.prem c)
  | (p, c) :: s :: r => do
    let (t, ptr, c0, c1) ← stopsLoop K (List.replicate n none) 0 c c 0 ((p, c) :: s :: r)
    let t ← finish K t ptr c0 c1
    write t 0 (K.prem c)

/-- `Math::nearby_to_int`, `math_p.h:333-367`: to the nearest integer, halves to the even one (the rounding mode of the processor). -/
def nearbyToInt (x : ℚ) : Int :=
  let y := ⌊x + 1 / 2⌋
  if (y : ℚ) = x + 1 / 2 ∧ y % 2 = 1 then y - 1 else y

/-- `Math::round_to_int`, `math_p.h:370`. -/
def roundToInt (x : ℚ) : Int :=
  let y := nearbyToInt x
  y + (if (y : ℚ) - x = -1 / 2 then 1 else 0)

/-- `p1`, `interpolation.cpp:47`, `188` with `fWidth`: `mul` is the multiplication of `double`s. -/
def position (mul : ℚ → ℚ → ℚ) (n : Nat) (offset : ℚ) : Nat := (roundToInt (mul offset (((n - 1) * 256 : Nat) : ℚ))).toNat

/-- The table of a gradient. -/
def interpolate (K : Kernel C P S) (mul : ℚ → ℚ → ℚ) (n : Nat) (stops : List (ℚ × C)) : Option (List (Option P)) :=
  fillTable K n (stops.map fun s => (position mul n s.1, s.2))

/-! ## 32-bit pixels -/

/-- `uint32_t(int32_t(x) / int32_t(n))`. -/
def sdiv32 (x : UInt32) (n : Nat) : UInt32 :=
  let sx : Int := if x.toNat < 2147483648 then x.toNat else (x.toNat : Int) - 4294967296
  UInt32.ofNat ((sx.tdiv n) % 4294967296).toNat

/-- A component that is stepped: `pos` and `inc`. -/
structure Comp where
  pos : UInt32
  inc : UInt32

/-- `x_pos` and `x_inc` from the components in place, `interpolation.cpp:74-90`, `110-113`, `217-231`, `251-254`. -/
def Comp.start (x0 x1 half : UInt32) (n : Nat) : Comp := ⟨x0 + half, sdiv32 (x1 - x0) n⟩

/-- `x_pos += x_inc`. -/
def Comp.step (c : Comp) : Comp := ⟨c.pos + c.inc, c.inc⟩

/-- The state of the inner loops; `opq` (both colours are opaque) selects the first one. -/
structure Ramp where
  r : Comp
  g : Comp
  b : Comp
  a : Comp
  opq : Bool

/-- `kMask` for 32-bit pixels. -/
def mask32 : UInt32 := (0xFF : UInt32) <<< 23

/-- `interpolation.cpp:71-113`; the alpha component is not used by the first loop. -/
def start32 (c0 c1 : UInt32) (n : Nat) : Ramp :=
  { r := .start ((c0 <<< 7) &&& mask32) ((c1 <<< 7) &&& mask32) ((1 : UInt32) <<< 22) n
    g := .start ((c0 <<< 15) &&& mask32) ((c1 <<< 15) &&& mask32) ((1 : UInt32) <<< 22) n
    b := .start ((c0 <<< 23) &&& mask32) ((c1 <<< 23) &&& mask32) ((1 : UInt32) <<< 22) n
    a := .start ((c0 >>> 1) &&& mask32) ((c1 >>> 1) &&& mask32) ((1 : UInt32) <<< 22) n
    opq := decide (0xFF000000 ≤ c0 &&& c1) }

/-- `x_pos += x_inc` for all components. -/
def Ramp.step (s : Ramp) : Ramp := { s with r := s.r.step, g := s.g.step, b := s.b.step, a := s.a.step }

/-- `interpolation.cpp:98-100`. -/
def outOpaque32 (s : Ramp) : UInt32 :=
  (0xFF000000 : UInt32) + ((s.r.pos &&& mask32) >>> 7) + ((s.g.pos &&& mask32) >>> 15) + ((s.b.pos &&& mask32) >>> 23)

/-- `interpolation.cpp:121-139`. -/
def outAlpha32 (s : Ramp) : UInt32 :=
  let cp := ((s.b.pos &&& mask32) >>> 23) + ((s.r.pos &&& mask32) >>> 7)
  let ca := (s.a.pos &&& mask32) >>> 23
  let cg := (s.g.pos &&& mask32) >>> 23
  let cp := cp * ca + 0x00800080
  let cg := cg * ca + 0x00000080
  let ca := ca <<< 24
  let cp := ((cp + ((cp &&& 0xFF00FF00) >>> 8)) &&& 0xFF00FF00) >>> 8
  let cg := (cg + ((cg &&& 0xFF00FF00) >>> 8)) &&& 0xFF00FF00
  cp + (cg + ca)

/-- `interpolate_prgb32`. -/
def prgb32 : Kernel UInt32 UInt32 Ramp where
  prem := cvtPrgb32FromArgb32
  start := start32
  step := Ramp.step
  out s := if s.opq then outOpaque32 s else outAlpha32 s

/-! ## 64-bit pixels -/

/-- `kMask` for 64-bit pixels. -/
def mask64 : UInt32 := (0xFFFF : UInt32) <<< 15

/-- `interpolation.cpp:214-254`. -/
def start64 (c0 c1 : UInt64) (n : Nat) : Ramp :=
  { r := .start ((c0 >>> 17).toUInt32 &&& mask64) ((c1 >>> 17).toUInt32 &&& mask64) ((1 : UInt32) <<< 14) n
    g := .start ((c0 >>> 1).toUInt32 &&& mask64) ((c1 >>> 1).toUInt32 &&& mask64) ((1 : UInt32) <<< 14) n
    b := .start ((c0 <<< 15).toUInt32 &&& mask64) ((c1 <<< 15).toUInt32 &&& mask64) ((1 : UInt32) <<< 14) n
    a := .start ((c0 >>> 33).toUInt32 &&& mask64) ((c1 >>> 33).toUInt32 &&& mask64) ((1 : UInt32) <<< 14) n
    opq := (c0 &&& c1) &&& 0xFFFF000000000000 == 0xFFFF000000000000 }

/-- `interpolation.cpp:239-242`. -/
def outOpaque64 (s : Ramp) : UInt64 :=
  ((s.r.pos &&& mask64).toUInt64 <<< 17) ||| ((s.g.pos &&& mask64).toUInt64 <<< 1) ||| ((s.b.pos &&& mask64).toUInt64 >>> 15) ||| 0xFFFF000000000000

/-- `interpolation.cpp:262-268`, `packRgba64`, `rgba_p.h`. -/
def outAlpha64 (s : Ramp) : UInt64 :=
  let ca := s.a.pos >>> 15
  let cr := udiv65535 ((s.r.pos >>> 15) * ca)
  let cg := udiv65535 ((s.g.pos >>> 15) * ca)
  let cb := udiv65535 ((s.b.pos >>> 15) * ca)
  (ca.toUInt64 <<< 48) ||| (cr.toUInt64 <<< 32) ||| (cg.toUInt64 <<< 16) ||| cb.toUInt64

/-- `interpolate_prgb64`. -/
def prgb64 : Kernel UInt64 UInt64 Ramp where
  prem := cvtPrgb64FromArgb64
  start := start64
  step := Ramp.step
  out s := if s.opq then outOpaque64 s else outAlpha64 s

/-- `RgbaInternal::rgba32FromRgba64`, `rgba_p.h:67-74` with `BLRgba32::reset(const BLRgba64&)`, `rgba.h:365-370`: the upper bytes of the components. -/
def rgba32FromRgba64 (x : UInt64) : UInt32 :=
  let r := ((x >>> 40) &&& 0xFF).toUInt32
  let g := ((x >>> 24) &&& 0xFF).toUInt32
  let b := ((x >>> 8) &&& 0xFF).toUInt32
  let a := (x >>> 56).toUInt32
  (r <<< 16) ||| (g <<< 8) ||| b ||| (a <<< 24)

/-- `interpolate_prgb32` on the stops of a gradient, whose colours have 16 bits per component. -/
def interpolate32 (mul : ℚ → ℚ → ℚ) (n : Nat) (stops : List (ℚ × UInt64)) : Option (List (Option UInt32)) :=
  interpolate prgb32 mul n (stops.map fun s => (s.1, rgba32FromRgba64 s.2))

/-- `interpolate_prgb64` on the stops of a gradient. -/
def interpolate64 (mul : ℚ → ℚ → ℚ) (n : Nat) (stops : List (ℚ × UInt64)) : Option (List (Option UInt64)) :=
  interpolate prgb64 mul n stops

end Blend2D.GradLut
