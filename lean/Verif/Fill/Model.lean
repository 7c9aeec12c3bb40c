import Verif.BitOps.Model
/-!
# Filling of rasterized shapes (`blend2d/pipeline/reference/fillgeneric_p.h`)

The rasterizer leaves, for every scanline, a row of cells (32-bit numbers, their prefix sums are the coverage) and a row of
bits: one bit for four cells, set if one of them may be non-zero.  `FillAnalytic_Base::fill_func` turns them into pixels and
clears them for the next use.

One scanline is modelled by three rows: the bit words, the cells and the pixels; pointers are positions in a row.  The
source of pixels is a fetcher that has a position; the composition operator is a parameter.  Reading or writing outside
of a row, and a shift by the word size or more, are undefined behaviour, modelled by `none`; running out of `fuel` is also
`none` (it is proved not to happen).
-/
namespace Blend2D.Fill
open BitOps (Order countZerosFromStart shiftToEnd)

variable {P : Type}

/-- `CompOp_Base` (`compopgeneric_p.h:83-180`): what the composition of the pixel at `x` of the source gives, with a mask
(`op_prgb32_prgb32(d, s, m)`) and without (`composite_pixel_opaque`); `optimize` is `kOptimizeOpaque`. -/
structure Comp (P : Type) where
  masked : (x : Nat) → (d : P) → (m : Nat) → P
  full : (x : Nat) → (d : P) → P
  optimize : Bool

/-- One scanline; `pos` is the position of the fetcher. -/
structure Row (P : Type) where
  bits : List (BitVec 64)
  cells : List (BitVec 32)
  dst : List P
  pos : Nat

/-- `composite_pixel_masked` (`compopgeneric_p.h:134-137`) at the position `d`. -/
def pixelMasked (C : Comp P) (r : Row P) (d m : Nat) : Option (Row P) := do
  let p ← r.dst[d]?
  return { r with dst := r.dst.set d (C.masked r.pos p m), pos := r.pos + 1 }

/-- `composite_pixel_opaque` (`compopgeneric_p.h:123-132`). -/
def pixelOpaque (C : Comp P) (r : Row P) (d : Nat) : Option (Row P) := do
  let p ← r.dst[d]?
  return { r with dst := r.dst.set d (C.full r.pos p), pos := r.pos + 1 }

/-- `compositeCSpanMasked` (`compopgeneric_p.h:147-153`) for `n + 1` pixels: `do … while (--i)`. -/
def spanMasked (C : Comp P) (m : Nat) : (n : Nat) → (r : Row P) → (d : Nat) → Option (Row P)
  | 0, r, d => pixelMasked C r d m
  | n + 1, r, d => do
    let r ← pixelMasked C r d m
    spanMasked C m n r (d + 1)

/-- `compositeCSpanOpaque` (`compopgeneric_p.h:139-145`) for `n + 1` pixels. -/
def spanOpaque (C : Comp P) : (n : Nat) → (r : Row P) → (d : Nat) → Option (Row P)
  | 0, r, d => pixelOpaque C r d
  | n + 1, r, d => do
    let r ← pixelOpaque C r d
    spanOpaque C n r (d + 1)

/-- `compositeCSpan` (`compopgeneric_p.h:155-160`) for `w` pixels.  `w = 0` would make the loop run over all of the memory. -/
def span (C : Comp P) (m w : Nat) (r : Row P) (d : Nat) : Option (Row P) :=
  match w with
  | 0 => none
  | n + 1 => if C.optimize ∧ m = 255 then spanOpaque C n r d else spanMasked C m n r d

/-- `calc_mask` (`fillgeneric_p.h:381-387`); `IntOps::sar` of a `uint32_t` is an arithmetic shift. -/
def calcMask (cov rule : BitVec 32) (alpha : Nat) : Nat :=
  let m := (cov.sshiftRight 9 &&& rule) - 256#32
  let a := if m.msb then (-m).toNat else m.toNat
  (min a 256 * alpha) % 2 ^ 32 / 2 ^ 8

/-- The arguments of a fill that do not change: fill rule mask, global alpha, right end. -/
structure Args where
  rule : BitVec 32
  alpha : Nat
  xEnd : Nat

/-- `VLoop` (`fillgeneric_p.h:279-292`): `i` pixels; `c` and `d` are the positions of `cell_ptr` and `dst_ptr`.  The result
has the coverage and the mask at the end. -/
def vloop (A : Args) (C : Comp P) : (i : Nat) → (r : Row P) → (c d : Nat) → (cov : BitVec 32) → Option (Row P × BitVec 32 × Nat)
  | 0, r, c, _, cov => do
    let x ← r.cells[c]?
    let cov := cov + x
    return ({ r with cells := r.cells.set c 0 }, cov, calcMask cov A.rule A.alpha)
  | i + 1, r, c, d, cov => do
    let x ← r.cells[c]?
    let cov := cov + x
    let r := { r with cells := r.cells.set c 0 }
    let r ← pixelMasked C r d (calcMask cov A.rule A.alpha)
    vloop A C i r (c + 1) (d + 1) cov

/-- The variables of the loop over the spans of a scanline: `bit_ptr`, `x_off`, `bit_word`, `x0`, `i`, `cov`. -/
structure Vars where
  p : Nat
  xOff : Nat
  w : BitVec 64
  x0 : Nat
  i : Nat
  cov : BitVec 32

/-- `L_BitScan_Next` (`fillgeneric_p.h:241-252`), at most `n` words: the result is at `L_BitScan_Match` (`true`) or at
`L_BitScan_End` (`false`). -/
def next : (n : Nat) → Row P → Vars → Option (Bool × Row P × Vars)
  | 0, _, _ => none
  | n + 1, r, v => do
    let x ← r.bits[v.p]?
    let w := BitVec.allOnes 64 ^^^ x
    let r := { r with bits := r.bits.set v.p 0 }
    let v := { v with w := w, p := v.p + 1, xOff := v.xOff + 256 }
    if w ≠ 0 then return (true, r, v)
    else if v.p = r.bits.length then return (false, r, v)
    else next n r v

/-- `while (!bit_word)` (`fillgeneric_p.h:309-314`), at most `n` words; `false`: `goto L_Scanline_Done1`. -/
def gap : (n : Nat) → Row P → Vars → Option (Bool × Vars)
  | 0, _, v => if v.w ≠ 0 then some (true, v) else none
  | n + 1, r, v =>
    if v.w ≠ 0 then some (true, v)
    else
      let v := { v with xOff := v.xOff + 256 }
      if v.p = r.bits.length then some (false, v)
      else do
        let x ← r.bits[v.p]?
        gap n r { v with w := x, p := v.p + 1 }

/-- From `L_BitScan_Match` (`m`) or `L_BitScan_End` on (`fillgeneric_p.h:254-341`), until the scanline is done.  In a
`while` loop of the code that jumps back, each round uses one unit of fuel. -/
def spans (o : Order) (A : Args) (C : Comp P) : (fuel : Nat) → (m : Bool) → Row P → Vars → Option (Row P)
  | 0, _, _, _ => none
  | fuel + 1, m, r, v => do
    let i := if m then countZerosFromStart o v.w else v.i
    let t ← shiftToEnd o (BitVec.allOnes 64) i
    let w := v.w ^^^ t
    let i := i * 4 + v.xOff
    let i := if i > A.xEnd then A.xEnd else i
    if i < v.x0 then none
    else do
      let i := i - v.x0
      let (r, cov, msk) ← vloop A C i r v.x0 v.x0 v.cov
      let v := { v with w := w, x0 := v.x0 + i, cov := cov }
      if v.x0 ≥ A.xEnd then return r
      else do
        let (more, v) ← gap (r.bits.length + 1) r v
        if !more then return r
        else do
          let i := countZerosFromStart o v.w
          let t ← shiftToEnd o (BitVec.allOnes 64) i
          let w := v.w ^^^ t
          if v.p - 1 ≥ r.bits.length then none
          else do
            let r := { r with bits := r.bits.set (v.p - 1) 0 }
            if i * 4 + v.xOff < v.x0 then none
            else do
              let i := i * 4 + v.xOff - v.x0
              let r ← if msk = 0 then some { r with pos := r.pos + i } else span C msk i r v.x0
              let v := { v with w := w, x0 := v.x0 + i, i := i }
              if w ≠ 0 then spans o A C fuel true r v
              else do
                let (m, r, v) ← next (r.bits.length + 1) r v
                spans o A C fuel m r v

/-- `L_BitScan_Init` (`fillgeneric_p.h:201-238`): `p` is behind the word `w`. -/
def start (o : Order) (A : Args) (C : Comp P) (r : Row P) (p xOff : Nat) (w : BitVec 64) : Option (Row P) := do
  let x0 := countZerosFromStart o w
  let r := { r with bits := r.bits.set (p - 1) 0 }
  let t ← shiftToEnd o (BitVec.allOnes 64) x0
  let x0 := x0 * 4 + xOff
  let r := { r with pos := x0 }
  if x0 ≥ A.xEnd then do
    let _ ← r.cells[x0]?
    return { r with cells := r.cells.set x0 0 }
  else do
    let v : Vars := { p := p, xOff := xOff, w := w ^^^ t, x0 := x0, i := 64, cov := 256#32 <<< 9 }
    if v.w ≠ 0 then spans o A C (A.xEnd + 2) true r v
    else if p = r.bits.length then spans o A C (A.xEnd + 2) false r v
    else do
      let (m, r, v) ← next (r.bits.length + 1) r v
      spans o A C (A.xEnd + 2) m r v

/-- `L_Scanline_Init` (`fillgeneric_p.h:366-377`): the words from `p` on, `n` of them. -/
def scan (o : Order) (A : Args) (C : Comp P) (r : Row P) : (n : Nat) → (p xOff : Nat) → Option (Row P)
  | 0, _, _ => some r
  | n + 1, p, xOff => do
    let w ← r.bits[p]?
    if w ≠ 0 then start o A C r (p + 1) xOff w else scan o A C r n (p + 1) (xOff + 256)

/-- One scanline. -/
def scanline (o : Order) (A : Args) (C : Comp P) (r : Row P) : Option (Row P) := scan o A C r r.bits.length 0 0

/-- `FillAnalytic_Base::fill_func` (`fillgeneric_p.h:173-379`): the scanlines from top to bottom; the source of the
scanline number `y` is `C y` (`spanInitY`, `advance_y`). -/
def fill (o : Order) (A : Args) (C : Nat → Comp P) : (y : Nat) → List (Row P) → Option (List (Row P))
  | _, [] => some []
  | y, r :: rs => do
    let r ← scanline o A (C y) r
    let rs ← fill o A C (y + 1) rs
    return r :: rs

end Blend2D.Fill
