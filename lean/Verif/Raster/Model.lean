/-!
# The analytic rasterizer

Model of `blend2d/raster/analyticrasterizer_p.h`: how one edge is turned into cells (signed coverage) and marks.

Simplifications, used throughout the file:
* Integers are mathematical integers.  `x >> 8` is `x / 256`, `x & 255` is `x % 256`, both rounding down.  The cells
  and the values that are added to them are `uint32_t` in the code; only ring operations are applied to them, so a cell
  of the code is the residue modulo 2^32 of the cell of the model.
* Cells are only ever added to and marks are only ever set, so `rasterize` returns the additions and settings it makes
  (`Ev`), in order, and the buffers are the sums of them.
* Rows are named by their absolute scanline number instead of a pointer into the band (`kOptionBandOffset` subtracts
  `_band_offset`); `kOptionEasyBitStride` only changes where the words of a row are and is not modelled;
  `kOptionRecordMinXMaxX` is always on, as in both callers.
-/

namespace Blend2D.Raster

/-- `EdgePoint<int>` (edgestorage_p.h:21-29): a point with 8 fractional bits. -/
structure Pt where
  x : Int
  y : Int
deriving DecidableEq, Repr

/-- `AnalyticState` (analyticrasterizer_p.h:105-134); the three flags are separate fields. -/
structure St where
  ex0 : Int
  ey0 : Int
  ex1 : Int
  ey1 : Int
  fx0 : Int
  fy0 : Int
  fx1 : Int
  fy1 : Int
  xErr : Int
  yErr : Int
  xDlt : Int
  yDlt : Int
  xRem : Int
  yRem : Int
  xLift : Int
  yLift : Int
  dx : Int
  dy : Int
  savedFy1 : Int
  initial : Bool
  vertOrSingle : Bool
  rtl : Bool
deriving DecidableEq, Repr

/-- One write of the rasterizer: `cell y x v` adds `v` to cell `x` of row `y`, `mark y a b` sets the bits `a..b` of row
`y`, `minX`/`maxX` update the recorded bounds. -/
inductive Ev where
  | cell (y x v : Int)
  | mark (y a b : Int)
  | minX (x : Int)
  | maxX (x : Int)
deriving DecidableEq, Repr

/-- `acc_err_step` (analyticrasterizer_p.h:62-82), the code in its comment (lines 62-70). -/
def accStep (acc iter step corr : Int) : Int × Int :=
  if iter - step < 0 then (acc + 1, iter - step + corr) else (acc, iter - step)

/-- `acc_err_multi_step` (analyticrasterizer_p.h:84-101). -/
def accMulti (acc iter step corr count : Int) : Int × Int :=
  if iter - step * count < 0 then
    (acc + (-(iter - step * count) + corr - 1) / corr,
     iter - step * count + corr * ((-(iter - step * count) + corr - 1) / corr))
  else (acc, iter - step * count)

/-- `prepare_ref` (analyticrasterizer_p.h:291-358); `none` is `false`. -/
def prepare (p0 p1 : Pt) : Option St :=
  if p0.y = p1.y then none
  else
    let rtl := decide (p1.x - p0.x < 0)
    let dx := if p1.x - p0.x < 0 then -(p1.x - p0.x) else p1.x - p0.x
    let dy := p1.y - p0.y
    let ex0 := p0.x / 256
    let ey0 := p0.y / 256
    let ex1 := p1.x / 256
    let ey1 := (p1.y - 1) / 256
    let fx0 := p0.x % 256
    let fy0 := p0.y % 256
    let fx1 := p1.x % 256
    let fyEnd := (p1.y - 1) % 256 + 1
    let fy1 := if ey0 ≠ ey1 then 256 else fyEnd
    if ex0 = ex1 ∧ (ey0 = ey1 ∨ dx = 0) then
      some { ex0, ey0, ex1, ey1, fx0, fy0, fx1, fy1, xErr := 0, yErr := 0, xDlt := 0, yDlt := 0, xRem := 0, yRem := 0,
             xLift := 0, yLift := 0, dx, dy, savedFy1 := fyEnd, initial := true, vertOrSingle := true, rtl }
    else
      let xLift := dx * 256 / dy
      let xRem := dx * 256 % dy
      let yLift := dy * 256 / dx
      let yRem := dy * 256 % dx
      let px := (256 - fy0) * dx
      let xs := if ey0 ≠ ey1 then accStep (px / dy) (dy / 2 - 1 - px % dy) 0 dy else (dx, dy / 2 - 1)
      let py := (if rtl then fx0 else 256 - fx0) * dy
      let ys := if ex0 ≠ ex1 then accStep (py / dx) (dx / 2 - 1 - py % dx) 0 dx else (dy, dx / 2 - 1)
      some { ex0, ey0, ex1, ey1, fx0, fy0, fx1, fy1, xErr := xs.2, yErr := ys.2, xDlt := xs.1, yDlt := ys.1 + fy0,
             xRem, yRem, xLift, yLift, dx, dy, savedFy1 := fyEnd, initial := true, vertOrSingle := false, rtl }

/-- The step of `_xDlt`/`_xErr` to the next scanline (analyticrasterizer_p.h:412-413 and everywhere `_xDlt = _xLift`). -/
def nextX (s : St) : St :=
  let r := accStep s.xLift s.xErr s.xRem s.dy
  { s with xDlt := r.1, xErr := r.2 }

/-- The step of `_yDlt`/`_yErr` to the next column (`_yDlt += _yLift; acc_err_step(_yDlt, _yErr, _yRem, _dx)`). -/
def nextY (s : St) : St :=
  let r := accStep (s.yDlt + s.yLift) s.yErr s.yRem s.dx
  { s with yDlt := r.1, yErr := r.2 }

/-- `nx` columns at once (analyticrasterizer_p.h:392-393, 424-425). -/
def multiY (s : St) (nx : Int) : St :=
  let r := accMulti s.yDlt s.yErr s.yRem s.dx nx
  { s with yDlt := r.1 + s.yLift * nx, yErr := r.2 }

/-- The end of `advanceToY` for a line that is not vertical (analyticrasterizer_p.h:439-448). -/
def advanceYDlt (s : St) (ny : Int) : St :=
  if s.dy ≥ s.dx then { s with yDlt := s.yDlt % 256 }
  else { s with yDlt := s.yDlt - (if s.initial then ny - 1 else ny) * 256 }

/-- The position after the skipped scanlines of a line that goes left (analyticrasterizer_p.h:385-404). -/
def advLeft (s : St) : St :=
  let fx := s.fx0 - s.xDlt
  let s :=
    if fx < 0 then multiY { s with ex0 := s.ex0 - -(fx / 256), fx0 := fx % 256 } (-(fx / 256))
    else { s with fx0 := fx }
  if ¬ s.dy ≥ s.dx then
    if s.fx0 = 0 then nextY { s with fx0 := 256, ex0 := s.ex0 - 1 } else s
  else s

/-- The next scanline of a line that goes left (analyticrasterizer_p.h:406-414). -/
def advLeftEnd (s : St) (t : Int) : St :=
  if t = s.ey1 ∧ s.dy ≥ s.dx then { s with fy1 := s.savedFy1, xDlt := (s.ex0 - s.ex1) * 256 + s.fx0 - s.fx1 }
  else nextX s

/-- The position after the skipped scanlines of a line that goes right (analyticrasterizer_p.h:417-426). -/
def advRight (s : St) : St :=
  let fx := s.fx0 + s.xDlt
  if fx ≥ 256 then multiY { s with ex0 := s.ex0 + fx / 256, fx0 := fx % 256 } (fx / 256)
  else { s with fx0 := fx }

/-- The next scanline of a line that goes right (analyticrasterizer_p.h:428-436). -/
def advRightEnd (s : St) (t : Int) : St :=
  if t = s.ey1 ∧ s.dy ≥ s.dx then { s with fy1 := s.savedFy1, xDlt := (s.ex1 - s.ex0) * 256 + s.fx1 - s.fx0 }
  else nextX s

/-- The steps of `_xDlt` and `_xErr` over `ny` scanlines (analyticrasterizer_p.h:379-382). -/
def advX (s : St) (ny : Int) : St :=
  let r := accMulti (s.xDlt + s.xLift * (ny - 1)) s.xErr s.xRem s.dy (ny - 1)
  { s with xDlt := r.1, xErr := r.2 }

/-- `advanceToY` (analyticrasterizer_p.h:370-459). -/
def advanceToY (s : St) (t : Int) : St :=
  if t ≤ s.ey0 then s
  else
    let s1 :=
      if !s.vertOrSingle then
        let ny := t - s.ey0
        let s := advX s ny
        advanceYDlt (if s.rtl then advLeftEnd (advLeft s) t else advRightEnd (advRight s) t) ny
      else if t = s.ey1 then { s with fy1 := s.savedFy1 } else s
    { s1 with fy0 := 0, ey0 := t, initial := false }

/-- `apply_sign_mask` (analyticrasterizer_p.h:56-60, 1190-1193). -/
def sg (neg : Bool) (v : Int) : Int := if neg then -v else v

/-- `cell_merge` (analyticrasterizer_p.h:1203-1211). -/
def merge (y x cover area : Int) : List Ev := [.cell y x (cover * 512 - area), .cell y (x + 1) area]

/-- `bit_set` of the group of cell `x` (analyticrasterizer_p.h:1219-1228; `BL_PIPE_PIXELS_PER_ONE_BIT` is 4). -/
def bit (y x : Int) : Ev := .mark y (x / 4) (x / 4)

/-- `bit_fill` from the group of cell `x` to the group of cell `x'` (analyticrasterizer_p.h:1230-1258). -/
def bits (y x x' : Int) : Ev := .mark y (x / 4) (x' / 4)

/-- One scanline of a line that is vertical or stays in a single cell (analyticrasterizer_p.h:504-512, 536-542, 559-562):
`h` is the part of the scanline's height it covers. -/
def vertRow (neg : Bool) (s : St) (y h : Int) : List Ev :=
  merge y s.ex0 (sg neg h) (sg neg h * (s.fx0 + s.fx1)) ++ [bit y s.ex0]

/-- `n` full scanlines from `y` (analyticrasterizer_p.h:535-542). -/
def vertRows (neg : Bool) (s : St) (y : Int) : Nat → List Ev
  | 0 => []
  | n + 1 => vertRow neg s y 256 ++ vertRows neg s (y + 1) n

/-- The branch of `rasterize` for `kFlagVertOrSingle` (analyticrasterizer_p.h:486-566).  `y` is the first scanline, `i`
the number of further ones, `_ey0` is already advanced when banding. -/
def vert (neg banding : Bool) (s : St) (y : Int) (i : Nat) : Bool × St × List Ev :=
  let pre := [Ev.minX s.ex0, .maxX s.ex0] ++ vertRow neg s y (s.fy1 - s.fy0)
  let s' := { s with fy0 := 0, fy1 := if s.ey0 = s.ey1 then s.savedFy1 else 256 }
  if i = 0 then
    if banding then if s.ey0 > s.ey1 then (true, s, pre) else (false, s', pre)
    else (true, s, pre)
  else
    let mid := vertRows neg s (y + 1) (i - 1)
    if banding ∧ s.ey0 ≤ s.ey1 then (false, s', pre ++ mid ++ vertRow neg s (y + i) 256)
    else (true, s, pre ++ mid ++ vertRow neg s (y + i) s.savedFy1)

/-- The first or last scanline of a steep line that goes left (analyticrasterizer_p.h:582-623). -/
def vrRow (neg : Bool) (s : St) (y : Int) : St × List Ev :=
  let area := s.fx0
  let fx := s.fx0 - s.xDlt
  if fx < 0 then
    let s := { s with ex0 := s.ex0 - 1, fx0 := fx + 256, yDlt := s.yDlt % 256 }
    if area = 0 then
      let s := nextY s
      let cov := sg neg (s.fy1 - s.fy0)
      ({ s with fy0 := 0 }, bit y s.ex0 :: merge y s.ex0 cov (cov * (256 + s.fx0)))
    else
      let cov0 := sg neg (s.yDlt - s.fy0)
      let cov1 := sg neg (s.fy1 - s.yDlt)
      ({ nextY s with fy0 := 0 },
       [bit y s.ex0, bit y (s.ex0 + 1)] ++ merge y (s.ex0 + 1) cov0 (cov0 * area)
         ++ merge y s.ex0 cov1 (cov1 * (s.fx0 + 256)))
  else
    let s := { s with fx0 := fx }
    let cov := sg neg (s.fy1 - s.fy0)
    ({ s with fy0 := 0 }, bit y s.ex0 :: merge y s.ex0 cov (cov * (area + s.fx0)))

/-- A scanline in the middle of a steep line that goes left (analyticrasterizer_p.h:643-692). -/
def vrMid (neg : Bool) (s : St) (y : Int) : St × List Ev :=
  let s := nextX s
  let area := s.fx0
  let fx := s.fx0 - s.xDlt
  let full := sg neg 256
  if fx < 0 then
    let s := { s with ex0 := s.ex0 - 1, fx0 := fx + 256, yDlt := s.yDlt % 256 }
    if area = 0 then
      let s := nextY s
      (s, bit y s.ex0 :: merge y s.ex0 full (full * (256 + s.fx0)))
    else
      let cov1 := sg neg s.yDlt
      let area1 := cov1 * area
      let cov0 := full - cov1
      let area0 := cov0 * (s.fx0 + 256)
      (nextY s,
       [bit y s.ex0, bit y (s.ex0 + 1), .cell y (s.ex0 + 2) area1, .cell y s.ex0 (cov0 * 512 - area0),
        .cell y (s.ex0 + 1) (cov1 * 512 - area1 + area0)])
  else
    let s := { s with fx0 := fx }
    (s, bit y s.ex0 :: merge y s.ex0 full (full * (area + s.fx0)))

/-- `n` scanlines in the middle (the loop of analyticrasterizer_p.h:643). -/
def vrMids (neg : Bool) (s : St) (y : Int) : Nat → St × List Ev
  | 0 => (s, [])
  | n + 1 =>
    let r := vrMid neg s y
    let q := vrMids neg r.1 (y + 1) n
    (q.1, r.2 ++ q.2)

/-- What follows a first or last scanline when no other follows (analyticrasterizer_p.h:625-640). -/
def vrDone (banding : Bool) (s : St) (log : List Ev) : Bool × St × List Ev :=
  if banding then
    if s.ey0 > s.ey1 then (true, s, log ++ [.minX s.ex0]) else (false, nextX s, log ++ [.minX s.ex0])
  else (true, s, log ++ [.minX s.ex0])

/-- The last scanline is prepared (analyticrasterizer_p.h:697-699, 717-719). -/
def vrLast (s : St) : St := { s with fy1 := s.savedFy1, xDlt := (s.ex0 - s.ex1) * 256 + s.fx0 - s.fx1 }

/-- The branch of `rasterize` for steep lines that go left (analyticrasterizer_p.h:573-724).  The loop around it runs at
most twice, the second time for the last scanline. -/
def vertRtl (neg banding : Bool) (s : St) (y : Int) (i : Nat) : Bool × St × List Ev :=
  let r := vrRow neg s y
  let log := Ev.maxX s.ex0 :: r.2
  if i = 0 then vrDone banding r.1 log
  else
    let q := vrMids neg r.1 (y + 1) (i - 1)
    let log := log ++ q.2
    let s := q.1
    if banding then
      if s.ey0 ≥ s.ey1 then
        let s := vrLast s
        if s.ey0 = s.ey1 then (false, s, log ++ [.minX s.ex0])
        else
          let r := vrRow neg s (y + i)
          vrDone banding r.1 (log ++ r.2)
      else (false, nextX s, log ++ [.minX s.ex0])
    else
      let r := vrRow neg (vrLast s) (y + i)
      vrDone banding r.1 (log ++ r.2)

/-- The first or last scanline of a steep line that goes right (analyticrasterizer_p.h:740-779). -/
def vlRow (neg : Bool) (s : St) (y : Int) : St × List Ev :=
  let area := s.fx0
  let fx := s.fx0 + s.xDlt
  if fx ≤ 256 then
    let cov := sg neg (s.fy1 - s.fy0)
    let log := bit y s.ex0 :: merge y s.ex0 cov (cov * (area + fx))
    if fx = 256 then ({ nextY { s with ex0 := s.ex0 + 1, fx0 := 0 } with fy0 := 0 }, log)
    else ({ s with fx0 := fx, fy0 := 0 }, log)
  else
    let s' := { s with ex0 := s.ex0 + 1, fx0 := fx % 256, yDlt := s.yDlt % 256 }
    let cov0 := sg neg (s'.yDlt - s'.fy0)
    let cov1 := sg neg (s'.fy1 - s'.yDlt)
    ({ nextY s' with fy0 := 0 },
     [bit y s.ex0, bit y s'.ex0] ++ merge y (s'.ex0 - 1) cov0 (cov0 * (area + 256))
       ++ merge y s'.ex0 cov1 (cov1 * s'.fx0))

/-- A scanline in the middle of a steep line that goes right (analyticrasterizer_p.h:801-845). -/
def vlMid (neg : Bool) (s : St) (y : Int) : St × List Ev :=
  let s := nextX s
  let area := s.fx0
  let fx := s.fx0 + s.xDlt
  let full := sg neg 256
  if fx ≤ 256 then
    let log := bit y s.ex0 :: merge y s.ex0 full (full * (area + fx))
    if fx < 256 then ({ s with fx0 := fx }, log)
    else (nextY { s with ex0 := s.ex0 + 1, fx0 := 0 }, log)
  else
    let s' := { s with fx0 := fx % 256, yDlt := s.yDlt % 256 }
    let cov := sg neg s'.yDlt
    let cov1 := cov * (area + 256)
    let cov' := sg neg (256 - s'.yDlt)
    let area' := cov' * s'.fx0
    (nextY { s' with ex0 := s'.ex0 + 1 },
     [bit y s.ex0, .cell y s.ex0 (cov * 512 - cov1), .cell y (s.ex0 + 1) (cov' * 512 - area' + cov1),
      .cell y (s.ex0 + 2) area', bit y (s.ex0 + 1)])

/-- `n` scanlines in the middle (the loop of analyticrasterizer_p.h:801). -/
def vlMids (neg : Bool) (s : St) (y : Int) : Nat → St × List Ev
  | 0 => (s, [])
  | n + 1 =>
    let r := vlMid neg s y
    let q := vlMids neg r.1 (y + 1) n
    (q.1, r.2 ++ q.2)

/-- What follows a first or last scanline when no other follows (analyticrasterizer_p.h:785-799). -/
def vlDone (banding : Bool) (s : St) (log : List Ev) : Bool × St × List Ev :=
  if banding then
    if s.ey0 > s.ey1 then (true, s, log ++ [.maxX s.ex0]) else (false, nextY s, log ++ [.maxX s.ex0])
  else (true, s, log ++ [.maxX s.ex0])

/-- The last scanline is prepared (analyticrasterizer_p.h:850-852, 869-870). -/
def vlLast (s : St) : St := { s with fy1 := s.savedFy1, xDlt := (s.ex1 - s.ex0) * 256 + s.fx1 - s.fx0 }

/-- The branch of `rasterize` for steep lines that go right (analyticrasterizer_p.h:726-874). -/
def vertLtr (neg banding : Bool) (s : St) (y : Int) (i : Nat) : Bool × St × List Ev :=
  let r := vlRow neg s y
  let log := Ev.minX s.ex0 :: r.2
  if i = 0 then vlDone banding r.1 log
  else
    let q := vlMids neg r.1 (y + 1) (i - 1)
    let log := log ++ q.2
    let s := q.1
    if banding then
      if s.ey0 ≥ s.ey1 then
        let s := vlLast s
        if s.ey0 = s.ey1 then (false, s, log ++ [.maxX s.ex0])
        else
          let r := vlRow neg s (y + i)
          vlDone banding r.1 (log ++ r.2)
      else (false, nextX s, log ++ [.maxX s.ex0])
    else
      let r := vlRow neg (vlLast s) (y + i)
      vlDone banding r.1 (log ++ r.2)

/-- The loop over the cells of a scanline, to the left (analyticrasterizer_p.h:947-958); `n` is the number of cells
left, the result carries `cover` and `area` of the last cell. -/
def hrCells (neg : Bool) (y : Int) : Nat → St → Int → Int → St × Int × List Ev
  | 0, s, cover, _ => (s, cover, [])
  | n + 1, s, cover, area =>
    let r := accStep s.yLift s.yErr s.yRem s.dx
    let s' := { s with yErr := r.2, yDlt := s.yDlt + r.1, ex0 := s.ex0 - 1 }
    let q := hrCells neg y n s' (sg neg r.1) (sg neg r.1 * 256)
    (q.1, q.2.1, merge y s.ex0 cover area ++ q.2.2)

/-- From the label `HorzRightToLeftInside` to the end of the scanline (analyticrasterizer_p.h:937-977); `x` is
`x_local`, returned advanced. -/
def hrInside (neg : Bool) (s : St) (y x cover : Int) : St × Int × List Ev :=
  let x := x - s.xDlt
  let ex := x / 256
  let fx := x % 256
  let r := hrCells neg y (s.ex0 - ex).toNat s cover (cover * s.fx0)
  let s1 := r.1
  let cover := r.2.1 + sg neg (s1.fy1 - s1.yDlt)
  let log := bits y ex s.ex0 :: r.2.2 ++ merge y s1.ex0 cover (cover * (fx + 256))
  let s2 := if fx = 0 then nextY s1 else s1
  (nextX s2, x, log)

/-- From the label `HorzRightToLeftSkip` (analyticrasterizer_p.h:932-935). -/
def hrSkip (neg : Bool) (s : St) (y x : Int) : St × Int × List Ev :=
  let s := { s with yDlt := s.yDlt - 256 }
  hrInside neg s y x (sg neg s.yDlt)

/-- Where a scanline starts when a line goes left (analyticrasterizer_p.h:928-929). -/
def hrEnter (s : St) (x : Int) : St := { s with ex0 := (x - 1) / 256, fx0 := (x - 1) % 256 + 1 }

/-- `n` scanlines (the loop of analyticrasterizer_p.h:927). -/
def hrMids (neg : Bool) (y : Int) : Nat → St → Int → St × Int × List Ev
  | 0, s, x => (s, x, [])
  | n + 1, s, x =>
    let r := hrSkip neg (hrEnter s x) y x
    let q := hrMids neg (y + 1) n r.1 r.2.1
    (q.1, q.2.1, r.2.2 ++ q.2.2)

/-- The first scanline of a flat line that goes left (analyticrasterizer_p.h:896-924). -/
def hrFirst (neg : Bool) (s : St) (y x : Int) : St × Int × List Ev :=
  let s := { s with initial := false }
  if s.fx0 - s.xDlt < 0 then hrInside neg s y x (sg neg (s.yDlt - s.fy0))
  else
    let x := x - s.xDlt
    let cover := sg neg (s.fy1 - s.fy0)
    let log := bit y s.ex0 :: merge y s.ex0 cover (cover * (s.fx0 * 2 - s.xDlt))
    let s := if x % 256 = 0 then nextY s else s
    (nextX s, x, log)

/-- The end of the scanlines of a band or line (analyticrasterizer_p.h:980-996, with `j` zero). -/
def hrDone (banding : Bool) (s : St) (x : Int) (log : List Ev) : Bool × St × List Ev :=
  let s := { s with fy0 := 0, fy1 := 256 }
  if banding then (decide (s.ey0 > s.ey1), hrEnter s x, log ++ [.minX s.ex0])
  else (true, s, log ++ [.minX s.ex0])

/-- The last scanline of a band or line (analyticrasterizer_p.h:998-1028, with `i` zero). -/
def hrEnd (neg banding : Bool) (s : St) (y x : Int) (log : List Ev) : Bool × St × List Ev :=
  let s := { s with fy0 := 0, fy1 := 256 }
  if banding ∧ ¬ s.ey0 > s.ey1 then
    let r := hrSkip neg (hrEnter s x) y x
    hrDone banding r.1 r.2.1 (log ++ r.2.2)
  else
    let s := { s with xDlt := x - (s.ex1 * 256 + s.fx1), fy1 := s.savedFy1 }
    let s := hrEnter s x
    if s.fx0 - s.xDlt ≥ 0 then
      let cover := sg neg s.fy1
      (true, s, log ++ merge y s.ex0 cover (cover * (s.fx0 * 2 - s.xDlt)) ++ [bit y s.ex0, .minX s.ex0])
    else
      let r := hrSkip neg s y x
      hrDone banding r.1 r.2.1 (log ++ r.2.2)

/-- The branch of `rasterize` for flat lines that go left (analyticrasterizer_p.h:888-1031).  The counters `i` and `j`
are unrolled: the first scanline of the line, then those in the middle, then the last one. -/
def horzRtl (neg banding : Bool) (s : St) (y : Int) (i : Nat) : Bool × St × List Ev :=
  let x := s.ex0 * 256 + s.fx0
  let log := [Ev.maxX s.ex0]
  if s.initial then
    let r := hrFirst neg s y x
    if i = 0 then hrDone banding r.1 r.2.1 (log ++ r.2.2)
    else
      let q := hrMids neg (y + 1) (i - 1) { r.1 with fy0 := 0, fy1 := 256 } r.2.1
      hrEnd neg banding q.1 (y + i) q.2.1 (log ++ r.2.2 ++ q.2.2)
  else
    let q := hrMids neg y i s x
    hrEnd neg banding q.1 (y + i) q.2.1 (log ++ q.2.2)

/-- The loop over the cells of a scanline, to the right (analyticrasterizer_p.h:1098-1109). -/
def hlCells (neg : Bool) (y : Int) : Nat → St → Int → Int → St × Int × List Ev
  | 0, s, cover, _ => (s, cover, [])
  | n + 1, s, cover, area =>
    let r := accStep s.yLift s.yErr s.yRem s.dx
    let s' := { s with yErr := r.2, yDlt := s.yDlt + r.1, ex0 := s.ex0 + 1 }
    let q := hlCells neg y n s' (sg neg r.1) (sg neg r.1 * 256)
    (q.1, q.2.1, merge y s.ex0 cover area ++ q.2.2)

/-- From the label `HorzLeftToRightInside` to the end of the scanline (analyticrasterizer_p.h:1086-1128). -/
def hlInside (neg : Bool) (s : St) (y x cover : Int) : St × Int × List Ev :=
  let x := x + s.xDlt
  let ex := (x - 1) / 256
  let fx := (x - 1) % 256 + 1
  let r := hlCells neg y (ex - s.ex0).toNat s cover (cover * (s.fx0 + 256))
  let s1 := r.1
  let cover := r.2.1 + sg neg (s1.fy1 - s1.yDlt)
  let log := bits y s.ex0 ex :: r.2.2 ++ merge y s1.ex0 cover (cover * fx)
  let s2 := if fx = 256 then nextY s1 else s1
  (nextX s2, x, log)

/-- From the label `HorzLeftToRightSkip` (analyticrasterizer_p.h:1080-1084). -/
def hlSkip (neg : Bool) (s : St) (y x : Int) : St × Int × List Ev :=
  let s := { s with yDlt := s.yDlt - 256 }
  hlInside neg s y x (sg neg s.yDlt)

/-- Where a scanline starts when a line goes right (analyticrasterizer_p.h:1076-1077). -/
def hlEnter (s : St) (x : Int) : St := { s with ex0 := x / 256, fx0 := x % 256 }

/-- `n` scanlines (the loop of analyticrasterizer_p.h:1075). -/
def hlMids (neg : Bool) (y : Int) : Nat → St → Int → St × Int × List Ev
  | 0, s, x => (s, x, [])
  | n + 1, s, x =>
    let r := hlSkip neg (hlEnter s x) y x
    let q := hlMids neg (y + 1) n r.1 r.2.1
    (q.1, q.2.1, r.2.2 ++ q.2.2)

/-- The first scanline of a flat line that goes right (analyticrasterizer_p.h:1043-1072). -/
def hlFirst (neg : Bool) (s : St) (y x : Int) : St × Int × List Ev :=
  let s := { s with initial := false }
  if s.fx0 + s.xDlt > 256 then hlInside neg s y x (sg neg (s.yDlt - s.fy0))
  else
    let x := x + s.xDlt
    let cover := sg neg (s.fy1 - s.fy0)
    let log := bit y s.ex0 :: merge y s.ex0 cover (cover * (s.fx0 * 2 + s.xDlt))
    let s := if s.fx0 + s.xDlt = 256 then nextY s else s
    (nextX s, x, log)

/-- The end of the scanlines of a band or line (analyticrasterizer_p.h:1131-1147, with `j` zero). -/
def hlDone (banding : Bool) (s : St) (x : Int) (log : List Ev) : Bool × St × List Ev :=
  let s := { s with fy0 := 0, fy1 := 256 }
  if banding then (decide (s.ey0 > s.ey1), hlEnter s x, log ++ [.maxX s.ex0])
  else (true, s, log ++ [.maxX s.ex0])

/-- The last scanline of a band or line (analyticrasterizer_p.h:1149-1161, with `i` zero). -/
def hlEnd (neg banding : Bool) (s : St) (y x : Int) (log : List Ev) : Bool × St × List Ev :=
  let s := { s with fy0 := 0, fy1 := 256 }
  if banding ∧ ¬ s.ey0 > s.ey1 then
    let r := hlSkip neg (hlEnter s x) y x
    hlDone banding r.1 r.2.1 (log ++ r.2.2)
  else
    let s := { s with xDlt := s.ex1 * 256 + s.fx1 - x, fy1 := s.savedFy1 }
    let s := hlEnter s x
    if s.fx0 + s.xDlt ≤ 256 then
      let cover := sg neg s.fy1
      (true, s, log ++ merge y s.ex0 cover (cover * (s.fx0 * 2 + s.xDlt)) ++ [bit y s.ex0, .maxX s.ex0])
    else
      let r := hlSkip neg s y x
      hlDone banding r.1 r.2.1 (log ++ r.2.2)

/-- The branch of `rasterize` for flat lines that go right (analyticrasterizer_p.h:1033-1164). -/
def horzLtr (neg banding : Bool) (s : St) (y : Int) (i : Nat) : Bool × St × List Ev :=
  let x := s.ex0 * 256 + s.fx0
  let log := [Ev.minX s.ex0]
  if s.initial then
    let r := hlFirst neg s y x
    if i = 0 then hlDone banding r.1 r.2.1 (log ++ r.2.2)
    else
      let q := hlMids neg (y + 1) (i - 1) { r.1 with fy0 := 0, fy1 := 256 } r.2.1
      hlEnd neg banding q.1 (y + i) q.2.1 (log ++ r.2.2 ++ q.2.2)
  else
    let q := hlMids neg y i s x
    hlEnd neg banding q.1 (y + i) q.2.1 (log ++ q.2.2)

/-- The last scanline that `rasterize` draws (analyticrasterizer_p.h:471-474). -/
def lastOf (s : St) (band : Option Int) : Int :=
  match band with
  | some b => min s.ey1 b
  | none => s.ey1

/-- `rasterize` (analyticrasterizer_p.h:463-1165): `band` is `some _band_end` with `kOptionBandingMode`; `neg` is the
sign mask.  The result is the returned value (the line ends here), the new state and the writes. -/
def rasterize (neg : Bool) (band : Option Int) (s : St) : Bool × St × List Ev :=
  let last := lastOf s band
  let i := (last - s.ey0).toNat
  let y := s.ey0
  let banding := band.isSome
  let s := if banding then { s with ey0 := s.ey0 + (i + 1) } else s
  if s.vertOrSingle then vert neg banding s y i
  else if s.dy ≥ s.dx then
    let i := if banding ∧ s.ey0 ≤ s.ey1 then i + 1 else i
    if s.rtl then vertRtl neg banding s y i else vertLtr neg banding s y i
  else if s.rtl then horzRtl neg banding s y i
  else horzLtr neg banding s y i

end Blend2D.Raster
