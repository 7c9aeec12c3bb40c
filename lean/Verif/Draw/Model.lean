import Verif.Raster.Model
import Verif.Fill.Model

/-!
# Filling a shape (`blend2d/raster/rendercommandprocsync_p.h`, `fill_analytic`)

The edges of a shape are stored band by band (`EdgeStorage`); each band is rasterized (`Verif/Raster`) into the cells and
marks of a zeroed buffer, which the pipeline turns into pixels (`Verif/Fill`).  An edge vector is a list of points that go
down; an edge that is not finished when its band ends is kept as an active edge.

Simplified: linked lists are lists (the pool of active edges and its allocation failure are left out), pointers into rows
are positions, `none` is an access outside of the buffers or the image.
-/
namespace Blend2D.Draw
open Raster (Pt St Ev prepare rasterize)
open BitOps (Order shiftToEnd indexMask)
open Fill (Comp Row Args)

/-- `EdgeVector` (edgestorage_p.h:39-50). -/
structure Vec where
  neg : Bool
  pts : List Pt

/-- `AnalyticActiveEdge` (analyticrasterizer_p.h:135-147): `rest` are the points from `cur[-1]`, the end of the line that
`st` draws, to `end`. -/
structure Act where
  neg : Bool
  st : St
  rest : List Pt

/-- The lines that follow one that has ended (rendercommandprocsync_p.h:162-173); `e` is `_band_end`, the list starts with
the end of the finished line.  `none`: the edge is finished and returned to the pool. -/
def follow (e : Int) (neg : Bool) : List Pt → Option Act × List Ev
  | p :: q :: l =>
    match prepare p q with
    | none => follow e neg (q :: l)
    | some s =>
      if s.ey0 ≤ e then
        let r := rasterize neg (some e) s
        if r.1 then
          let f := follow e neg (q :: l)
          (f.1, r.2.2 ++ f.2)
        else (some ⟨neg, r.2.1, q :: l⟩, r.2.2)
      else (some ⟨neg, s, q :: l⟩, [])
  | _ => (none, [])

/-- An active edge in the next band (rendercommandprocsync_p.h:154-191). -/
def resume (e : Int) (a : Act) : Option Act × List Ev :=
  let r := rasterize a.neg (some e) a.st
  if r.1 then
    let f := follow e a.neg a.rest
    (f.1, r.2.2 ++ f.2)
  else (some ⟨a.neg, r.2.1, a.rest⟩, r.2.2)

/-- An edge vector that starts in the band (rendercommandprocsync_p.h:202-232; there are at least two points, the code is not
called with fewer). -/
def enter (e : Int) (neg : Bool) : List Pt → Option Act × List Ev
  | p :: q :: l =>
    match prepare p q with
    | none => enter e neg (q :: l)
    | some s =>
      if s.ey1 ≤ e then
        let r := rasterize neg none s
        let f := enter e neg (q :: l)
        (f.1, r.2.2 ++ f.2)
      else if s.ey0 ≤ e then resume e ⟨neg, s, q :: l⟩
      else (some ⟨neg, s, q :: l⟩, [])
  | _ => (none, [])

/-- The edges of a band: the active ones first, then the new ones (rendercommandprocsync_p.h:144-238). -/
def bandEdges (e : Int) (acts : List Act) (new : List Vec) : List Act × List Ev :=
  let rs := acts.map (resume e) ++ new.map fun v => enter e v.neg v.pts
  (rs.filterMap Prod.fst, rs.flatMap Prod.snd)

/-- The words between the first and the last word of `bit_fill` (analyticrasterizer_p.h:1251-1253). -/
def onesLoop (buf : List (BitVec 64)) (i : Nat) : Nat → Option (List (BitVec 64))
  | 0 => some buf
  | n + 1 => do
    let _ ← buf[i]?
    onesLoop (buf.set i (BitVec.allOnes 64)) (i + 1) n

/-- The end of `bit_fill` (analyticrasterizer_p.h:1256-1257). -/
def bitFillEnd (o : Order) (buf : List (BitVec 64)) (last : Nat) (mask : BitVec 64) : Option (List (BitVec 64)) := do
  let z ← indexMask o 64 0
  let t ← shiftToEnd o (BitVec.allOnes 64 ^^^ z) (last % 64)
  let w ← buf[last / 64]?
  some (buf.set (last / 64) (w ||| (mask ^^^ t)))

/-- `bit_fill` (analyticrasterizer_p.h:1230-1259, without `kOptionEasyBitStride`, which no caller uses).  `bit_set`
(analyticrasterizer_p.h:1219-1226) is modelled as `bit_fill` of one bit, see `C50_bit_set`. -/
def bitFill (o : Order) (buf : List (BitVec 64)) (first last : Nat) : Option (List (BitVec 64)) := do
  let mask ← shiftToEnd o (BitVec.allOnes 64) (first % 64)
  if first / 64 ≠ last / 64 then
    let w ← buf[first / 64]?
    let buf ← onesLoop (buf.set (first / 64) (w ||| mask)) (first / 64 + 1) (last / 64 - first / 64 - 1)
    bitFillEnd o buf last (BitVec.allOnes 64)
  else bitFillEnd o buf last mask

/-- The zeroed buffer of a band, one row of bit words and one of cells for each scanline
(rendercommandprocsync_p.h:102-118), and the recorded bounds. -/
structure Bufs where
  bits : List (List (BitVec 64))
  cells : List (List (BitVec 32))
  minX : Nat
  maxX : Nat

/-- A pointer offset. -/
def nat? (i : Int) : Option Nat := if 0 ≤ i then some i.toNat else none

/-- One write of the rasterizer: `cell_add`, `cell_merge` (analyticrasterizer_p.h:1194-1210; 32-bit numbers), `bit_set`,
`bit_fill`, `updateMinX`, `updateMaxX` (analyticrasterizer_p.h:1172-1182); `off` is `_band_offset`. -/
def write (o : Order) (off : Nat) (b : Bufs) : Ev → Option Bufs
  | .cell y x v => do
    let r ← nat? (y - off)
    let x ← nat? x
    let row ← b.cells[r]?
    let c ← row[x]?
    some { b with cells := b.cells.set r (row.set x (c + BitVec.ofInt 32 v)) }
  | .mark y g h => do
    let r ← nat? (y - off)
    let g ← nat? g
    let h ← nat? h
    let row ← b.bits[r]?
    let row ← bitFill o row g h
    some { b with bits := b.bits.set r row }
  | .minX m => do
    let m ← nat? m
    some { b with minX := min b.minX m }
  | .maxX m => do
    let m ← nat? m
    some { b with maxX := max b.maxX m }

/-- All writes in order. -/
def writes (o : Order) (off : Nat) (b : Bufs) : List Ev → Option Bufs
  | [] => some b
  | e :: l => do
    let b ← write o off b e
    writes o off b l

variable {P : Type}

/-- What a fill needs besides the edges: bit order, image width, band height, fill rule mask, global alpha. -/
structure Cfg where
  o : Order
  w : Nat
  bh : Nat
  rule : BitVec 32
  alpha : Nat

/-- `IntOps::align_up(x, 4)`. -/
def align4 (x : Nat) : Nat := (x + 3) / 4 * 4

/-- Scanline `i` of the buffers, with its pixels. -/
def rowAt (b : Bufs) (img : List (List P)) (off i : Nat) : Option (Row P) := do
  let bits ← b.bits[i]?
  let cells ← b.cells[i]?
  let dst ← img[off + i]?
  some { bits := bits, cells := cells, dst := dst, pos := 0 }

/-- The first `n` scanlines of the buffers. -/
def rowsAt (b : Bufs) (img : List (List P)) (off : Nat) : Nat → Option (List (Row P))
  | 0 => some []
  | n + 1 => do
    let rs ← rowsAt b img off n
    let r ← rowAt b img off n
    some (rs ++ [r])

/-- The band is filled if something was recorded (rendercommandprocsync_p.h:240-247); `n` scanlines from `off`. -/
def fillBand (F : Cfg) (C : Nat → Comp P) (off n : Nat) (b : Bufs) (img : List (List P)) : Option (Bufs × List (List P)) :=
  if b.minX ≤ b.maxX then do
    let A : Args := { rule := F.rule, alpha := F.alpha, xEnd := min F.w (align4 (b.maxX + 1)) }
    let rows ← rowsAt b img off n
    let rows ← Fill.fill F.o A C off rows
    some ({ b with bits := rows.map Row.bits ++ b.bits.drop n, cells := rows.map Row.cells ++ b.cells.drop n },
      img.take off ++ rows.map Row.dst ++ img.drop (off + n))
  else some (b, img)

/-- The last scanline of a band, plus one (rendercommandprocsync_p.h:152). -/
def bandStop (F : Cfg) (yEnd id : Nat) : Nat := min ((id + 1) * F.bh) yEnd

/-- The loop over the bands (rendercommandprocsync_p.h:144-250); `off` is `_band_offset`, `n` the number of bands.
Rounding down to the band height is a division here and a bit mask in the code (line 249), because band heights are powers of
two (edgestorage_p.h). -/
def drawBands (F : Cfg) (C : Nat → Comp P) (yEnd : Nat) (bands : List (List Vec)) :
    (n : Nat) → (id off : Nat) → (acts : List Act) → Bufs → List (List P) → Option (Bufs × List (List P))
  | 0, _, _, _, b, img => some (b, img)
  | n + 1, id, off, acts, b, img => do
    let new ← bands[id]?
    let r := bandEdges ((bandStop F yEnd id : Int) - 1) acts new
    let b ← writes F.o off { b with minX := 2 ^ 32 - 1, maxX := 0 } r.2
    let (b, img) ← fillBand F C off (bandStop F yEnd id - off) b img
    drawBands F C yEnd bands n (id + 1) ((off + F.bh) / F.bh * F.bh) r.1 b img

/-- `fill_analytic` (rendercommandprocsync_p.h:87-254) for edges with the vertical bounds `y0` and `y1` (24.8 fixed point);
`bandStartFromBBox`, `bandEndFromBBox` (edgestorage_p.h:141-151). -/
def fillAnalytic (F : Cfg) (C : Nat → Comp P) (y0 y1 : Nat) (bands : List (List Vec)) (b : Bufs) (img : List (List P)) :
    Option (Bufs × List (List P)) :=
  let start := y0 / (256 * F.bh)
  let stop := min (y1 / (256 * F.bh) + 1) bands.length
  drawBands F C ((y1 + 255) / 256) bands (max 1 (stop - start)) start (y0 / 256) [] b img

end Blend2D.Draw
