import Verif.Kern.Model
import Mathlib.Algebra.Order.Field.Rat
/-! Model of the decoder of TrueType outlines: `blend2d/opentype/otglyf.cpp`, `otglyf_p.h` (the portable
implementation; the vectorized ones in `otglyfsimdimpl_p.h` are not modelled).

Conventions:
* Tables are lists of bytes; pointers are offsets into the `glyf` table.  Reading outside of a table, and
  writing outside of the temporary array of flags or of the memory reserved in the path, is the error `ub`.
* `double` is a rational number: coordinates are exact.  `Geometry::magnitude`, a square root, is a parameter.
* Failing allocations are not modelled.
* The path is the list of its vertices; a glyph is appended when it is complete (`PathAppender::done`). -/
namespace Blend2D.Glyf
open Blend2D.Kern (u8 u16 u32 i16)

/-- How decoding can fail: undefined behaviour, `BL_ERROR_INVALID_DATA`, `BL_ERROR_INVALID_GLYPH`.
`invalidContour` is a `BL_ERROR_INVALID_DATA` that is returned between `PathAppender::begin_append`, which
enlarges the path by vertices that are not initialized (`core/path.cpp:394-434`), and `PathAppender::done`,
which would give back those that were not written: the path stays enlarged. -/
inductive Err where
  | ub | invalidData | invalidContour | invalidGlyph
  deriving DecidableEq, Repr

/-- A read that is undefined behaviour outside of the table. -/
def get {α : Type} : Option α → Except Err α
  | some a => .ok a
  | none => .error .ub

/-- `BLPoint`. -/
structure Pt where
  x : Rat
  y : Rat
  deriving DecidableEq, Repr

/-- `BLPoint::operator+`, `operator-` and `operator*(double)`. -/
def Pt.add (a b : Pt) : Pt := ⟨a.x + b.x, a.y + b.y⟩
@[inherit_doc Pt.add] def Pt.sub (a b : Pt) : Pt := ⟨a.x - b.x, a.y - b.y⟩
@[inherit_doc Pt.add] def Pt.half (a : Pt) : Pt := ⟨a.x * (1 / 2), a.y * (1 / 2)⟩

/-- `BLMatrix2D`. -/
structure Mat where
  m00 : Rat
  m01 : Rat
  m10 : Rat
  m11 : Rat
  m20 : Rat
  m21 : Rat
  deriving DecidableEq, Repr

/-- `TransformInternal::multiply(dst, a, b)` (`core/matrix_p.h:57-64`). -/
def Mat.mul (a b : Mat) : Mat :=
  ⟨a.m00 * b.m00 + a.m01 * b.m10, a.m00 * b.m01 + a.m01 * b.m11,
   a.m10 * b.m00 + a.m11 * b.m10, a.m10 * b.m01 + a.m11 * b.m11,
   a.m20 * b.m00 + a.m21 * b.m10 + b.m20, a.m20 * b.m01 + a.m21 * b.m11 + b.m21⟩

/-- Path vertices with their commands (`BL_PATH_CMD_MOVE`, `ON`, `QUAD`, `CLOSE`). -/
inductive Vtx where
  | move (p : Pt)
  | on (p : Pt)
  | quad (p : Pt)
  | close
  deriving DecidableEq, Repr

/-- The parts of a font face that are used here: the two tables, `loca_offset_size() == 2`, and the number of
glyphs. -/
structure Font where
  glyf : List UInt8
  loca : List UInt8
  short : Bool
  count : Nat

/-- The offsets of a glyph in `glyf` (`otglyf.cpp:63-83, 211-229`). -/
def offsets (F : Font) (gid : Nat) : Except Err (Nat × Nat) :=
  if F.short then
    if gid * 2 + 4 > F.loca.length then .error .invalidData
    else do
      let a ← get (u16 F.loca (gid * 2))
      let b ← get (u16 F.loca (gid * 2 + 2))
      .ok (a * 2, b * 2)
  else
    if gid * 4 + 8 > F.loca.length then .error .invalidData
    else do
      let a ← get (u32 F.loca (gid * 4))
      let b ← get (u32 F.loca (gid * 4 + 4))
      .ok (a, b)

/-- `BLBoxI`. -/
structure Box where
  x0 : Int
  y0 : Int
  x1 : Int
  y1 : Int
  deriving DecidableEq, Repr

/-- The box of the glyph data at `o` (`otglyf.cpp:95-102`). -/
def boxAt (g : List UInt8) (o : Nat) : Except Err Box := do
  let xMin ← get (i16 g (o + 2))
  let xMax ← get (i16 g (o + 6))
  let yMax ← get (i16 g (o + 8))
  let yMin ← get (i16 g (o + 4))
  .ok ⟨xMin, -yMax, xMax, -yMin⟩

/-- One round of `get_glyph_bounds` (`otglyf.cpp:59-110`).  `none`: the glyph is not valid, its box is zeroed
and the result of the function is `BL_ERROR_INVALID_DATA`. -/
def bounds (F : Font) (glyph : Nat) : Except Err (Option Box) :=
  match offsets F (glyph % 65536) with
  | .error .ub => .error .ub
  | .error _ => .ok none
  | .ok (a, b) =>
    if b ≤ F.glyf.length then
      if a < b then
        if b - a < 10 then .ok none
        else (boxAt F.glyf a).map some
      else .ok (some ⟨0, 0, 0, 0⟩)
    else .ok none

/-- `get_glyph_bounds` (`otglyf.cpp:43-113`): the boxes, and whether the result is a success. -/
def glyphBounds (F : Font) : List Nat → Except Err (List Box × Bool)
  | [] => .ok ([], true)
  | g :: gs => do
    let b ← bounds F g
    let (bs, ok) ← glyphBounds F gs
    .ok (b.getD ⟨0, 0, 0, 0⟩ :: bs, ok && b.isSome)

/-- `FlagToSizeGen::value` (`otglyf.cpp:27-32`): bytes of the x coordinate, plus 65536 times those of y. -/
def vertexSize (i : Nat) : Nat :=
  (if i &&& 1 ≠ 0 then 1 else if i &&& 8 ≠ 0 then 0 else 2) +
  (if i &&& 2 ≠ 0 then 1 else if i &&& 16 ≠ 0 then 0 else 2) * 65536

/-- State of the loop over the flags: `gPtr`, the flags written (`i` is their number), `f`,
`xy_coordinates_size`, `off_curve_spline_count`. -/
structure FSt where
  p : Nat
  fs : List Nat
  f : Nat
  xy : Nat
  offc : Nat
  deriving Repr

/-- `f = ((f << 7) | tt_flag) & 0xFF`. -/
def nextFlag (f t : Nat) : Nat := ((f <<< 7) ||| t) &&& 0xFF

/-- The first half of a round (`otglyf.cpp:310-320`); also returns `tt_flag`. -/
def flagFirst (g : List UInt8) (gEnd tt : Nat) (s : FSt) : Except Err (Nat × FSt) :=
  if s.p = gEnd then .error .invalidData
  else do
    let b ← get (u8 g s.p)
    let t := b &&& 0x3F
    let f := nextFlag s.f t
    if s.fs.length < tt then
      .ok (t, { p := s.p + 1, fs := s.fs ++ [f], f := f, xy := s.xy + vertexSize (t >>> 1),
                offc := s.offc + (if f &&& 129 = 0 then 1 else 0) })
    else .error .ub

/-- The repeat count (`otglyf.cpp:326-341`). -/
def flagRepeat (g : List UInt8) (gEnd tt : Nat) (t : Nat) (s : FSt) : Except Err FSt :=
  if s.p = gEnd then .error .invalidData
  else do
    let n ← get (u8 g s.p)
    if n > tt - s.fs.length then .error .invalidData
    else
      let f := nextFlag s.f t
      .ok { p := s.p + 1, fs := s.fs ++ List.replicate n f, f := f, xy := s.xy + n * vertexSize (t >>> 1),
            offc := s.offc + n * (if f &&& 1 = 0 then 1 else 0) }

/-- One round of the loop over the flags (`otglyf.cpp:309-342`). -/
def flagRound (g : List UInt8) (gEnd tt : Nat) (s : FSt) : Except Err FSt :=
  match flagFirst g gEnd tt s with
  | .error e => .error e
  | .ok (t, s) => if s.f &&& 8 = 0 then .ok s else flagRepeat g gEnd tt t s

/-- The loop over the flags (`otglyf.cpp:309-342`): at least one round, until there are `tt` flags.
Every round adds a flag, so `tt` rounds suffice. -/
def flagLoop (g : List UInt8) (gEnd tt : Nat) : Nat → FSt → Except Err FSt
  | 0, _ => .error .ub
  | fuel + 1, s =>
    match flagRound g gEnd tt s with
    | .error e => .error e
    | .ok s => if s.fs.length < tt then flagLoop g gEnd tt fuel s else .ok s

/-- One coordinate of `GlyfVertexDecoder::decode_next` (`otglyf.cpp:144-168`): `isByte` and `same` are the
two flags of the axis.  Returns the value and the number of bytes. -/
def coord (g : List UInt8) (p : Nat) (isByte same : Bool) : Except Err (Int × Nat) :=
  if isByte then do
    let b ← get (u8 g p)
    .ok (if same then (b : Int) else -(b : Int), 1)
  else if same then .ok (0, 0)
  else do
    let v ← get (i16 g p)
    .ok (v, 2)

/-- State while vertices are decoded: index of the next vertex, the pointers of the vertex decoder,
`current_pt`, and the vertices that were appended. -/
structure VSt where
  i : Nat
  xp : Nat
  yp : Nat
  cur : Pt
  acc : List Vtx
  deriving Repr

/-- What is known of a simple glyph once its flags are read. -/
structure Ctx where
  glyf : List UInt8
  fs : List Nat
  tt : Nat
  cap : Nat
  m : Mat

/-- `fDataPtr[i]` and `current_pt += vertex_decoder.decode_next(f)` (`otglyf.cpp:140-171, 396-397, 411-414`); also returns the
flag and the difference. -/
def fetch (c : Ctx) (v : VSt) : Except Err (Nat × Pt × VSt) := do
  let f ← get c.fs[v.i]?
  let (dx, nx) ← coord c.glyf v.xp (f &&& 2 != 0) (f &&& 16 != 0)
  let (dy, ny) ← coord c.glyf v.yp (f &&& 4 != 0) (f &&& 32 != 0)
  let d : Pt := ⟨dx * c.m.m00 + dy * c.m.m10, dx * c.m.m01 + dy * c.m.m11⟩
  .ok (f, d, { v with i := v.i + 1, xp := v.xp + nx, yp := v.yp + ny, cur := v.cur.add d })

/-- `PathAppender::add_vertex`, `move_to`, `close` (`core/path_p.h:191-300`): writes behind the vertices that are there. -/
def add (c : Ctx) (v : VSt) (x : Vtx) : Except Err VSt :=
  if v.acc.length < c.cap then .ok { v with acc := v.acc ++ [x] } else .error .ub

/-- The vertices of a point that is not the first of its contour (`otglyf.cpp:416-425`). -/
def addPoint (c : Ctx) (f : Nat) (d : Pt) (v : VSt) : Except Err VSt :=
  if f &&& 129 ≠ 0 then add c v (if f &&& 1 = 0 then .quad v.cur else .on v.cur)
  else do
    let v ← add c v (.on (v.cur.sub d.half))
    add c v (.quad v.cur)

/-- The loop over the points of a contour behind its first one (`otglyf.cpp:410-429`); `n` is their number.
Returns the flag of the last one. -/
def inner (c : Ctx) : Nat → Nat → VSt → Except Err (Nat × VSt)
  | 0, f, v => .ok (f, v)
  | n + 1, _, v => do
    let (f, d, v) ← fetch c v
    let v ← addPoint c f d v
    inner c n f v

/-- The point of a vertex; a closing vertex has none. -/
def Vtx.pt : Vtx → Pt
  | .move p => p
  | .on p => p
  | .quad p => p
  | .close => ⟨0, 0⟩

/-- The end of a contour (`otglyf.cpp:431-449`).  `start` is `off_curve_start`. -/
def finish (c : Ctx) (start : Option Nat) (initial : Pt) (f : Nat) (v : VSt) : Except Err VSt :=
  match start with
  | some k => do
    let first ← get v.acc[k]?
    let v := { v with acc := v.acc.set k (.move first.pt) }
    if f &&& 1 = 0 then do
      let v ← add c v (.on (v.cur.add initial).half)
      let v ← add c v (.quad initial)
      add c v (.on (initial.add first.pt).half)
    else do
      let v ← add c v (.quad initial)
      add c v (.on first.pt)
  | none => if f &&& 1 = 0 then add c v (.on initial) else .ok v

/-- `move_to` or `off_curve_start` for the first point of a contour (`otglyf.cpp:399-402`). -/
def firstPoint (c : Ctx) (f : Nat) (v : VSt) : Except Err (Option Nat × VSt) :=
  if f &&& 1 ≠ 0 then (add c v (.move v.cur)).map (fun v => (none, v))
  else .ok (some v.acc.length, v)

/-- One contour that ends before vertex `iEnd` (`otglyf.cpp:387-450`). -/
def contour (c : Ctx) (iEnd : Nat) (v : VSt) : Except Err VSt :=
  if iEnd ≤ v.i ∨ iEnd > c.tt then .error .invalidContour
  else do
    let (f, _, v) ← fetch c v
    let (start, v) ← firstPoint c f v
    if v.i ≥ iEnd then .ok v
    else do
      let (f, w) ← inner c (iEnd - v.i) f v
      let w ← finish c start v.cur f w
      add c w .close

/-- The loop over the contours (`otglyf.cpp:386-451`): `k` contours are left, the array of their ends is at
`ca`. -/
def contours (c : Ctx) (ca : Nat) : Nat → VSt → Except Err VSt
  | 0, v => .ok v
  | k + 1, v => do
    let e ← get (u16 c.glyf ca)
    let v ← contour c (e + 1) v
    contours c (ca + 2) k v

/-- A simple glyph with `cc` contours, whose data ends at `gEnd`, from its flags at `p`
(`otglyf.cpp:275-453`).  `ca` is the offset of the array of the ends of the contours. -/
def simpleBody (g : List UInt8) (m : Mat) (ca cc p gEnd : Nat) : Except Err (List Vtx) := do
  let last ← get (u16 g (ca + (cc - 1) * 2))
  let tt := last + 1
  if tt ≤ 1 then .ok []
  else
    let s ← flagLoop g gEnd tt tt { p := p, fs := [], f := 1, xy := 0, offc := 0 }
    let xs := s.xy % 65536
    let ys := s.xy / 65536
    if xs + ys > gEnd - s.p then .error .invalidData
    else
      let c : Ctx := { glyf := g, fs := s.fs, tt := tt, cap := tt + s.offc + cc * 3, m := m }
      let v ← contours c ca cc { i := 0, xp := s.p, yp := s.p + xs, cur := ⟨m.m20, m.m21⟩, acc := [] }
      .ok v.acc

/-- The header of a simple glyph at `o` with `size` bytes (`otglyf.cpp:247-271`). -/
def simple (g : List UInt8) (m : Mat) (o size cc : Nat) : Except Err (List Vtx) :=
  if size < 12 + cc * 2 then .error .invalidData
  else do
    let n ← get (u16 g (o + 10 + cc * 2))
    if size - (12 + cc * 2) < n then .error .invalidData
    else simpleBody g m (o + 10) cc (o + 12 + cc * 2 + n) (o + size)

/-- `CompoundEntry` (`otglyf_p.h:125-132`). -/
structure Entry where
  p : Nat
  size : Nat
  flags : Nat
  m : Mat
  deriving Repr

/-- State of the main loop: the glyph to decode, the entries of `compound_data` from the current level down to
level 1, the path, and the number of contours. -/
structure St where
  gid : Nat
  stack : List Entry
  path : List Vtx
  total : Nat
  deriving Repr

/-- What one round of the main loop leads to. -/
inductive Next where
  | done (s : St)
  | more (s : St)

/-- The matrix of a level: `root` is `compound_data[0].transform`. -/
def top (root : Mat) : List Entry → Mat
  | [] => root
  | e :: _ => e.m

/-- Sign extension of a byte (`MemOps::readI8`). -/
def i8 (d : List UInt8) (o : Nat) : Option Int := 
  (u8 d o).map (fun b : Nat => if b < 128 then (b : Int) else (b : Int) - 256)

/-- The two arguments of a component (`otglyf.cpp:517-538`): their values, and the rest of the data. -/
def args (g : List UInt8) (flags p size : Nat) : Except Err (Int × Int × Nat × Nat) := do
  let a ← get (i8 g (p + 4))
  let b ← get (i8 g (p + 5))
  if flags &&& 1 ≠ 0 then
    if size < 2 then .error .invalidData
    else do
      let lo ← get (u8 g (p + 5))
      let b ← get (i16 g (p + 6))
      let a := a * 256 + lo
      if flags &&& 2 = 0 then .ok (a % 65536, b % 65536, p + 8, size - 2) else .ok (a, b, p + 8, size - 2)
  else if flags &&& 2 = 0 then .ok (a % 65536, b % 65536, p + 6, size) else .ok (a, b, p + 6, size)

/-- Fixed-point value with 14 fraction bits. -/
def f2x14 (g : List UInt8) (o : Nat) : Except Err Rat := do
  let v ← get (i16 g o)
  .ok (v * (1 / 16384))

/-- The scale or matrix of a component (`otglyf.cpp:542-583`): the matrix without the offset, and the rest of
the data. -/
def scale (g : List UInt8) (flags p size : Nat) : Except Err ((Rat × Rat × Rat × Rat) × Nat × Nat) :=
  if flags &&& 0xC8 = 0 then .ok ((1, 0, 0, 1), p, size)
  else if flags &&& 8 ≠ 0 then
    if size < 2 then .error .invalidData
    else do
      let s ← f2x14 g p
      .ok ((s, 0, 0, s), p + 2, size - 2)
  else if flags &&& 0x40 ≠ 0 then
    if size < 4 then .error .invalidData
    else do
      let a ← f2x14 g p
      let b ← f2x14 g (p + 2)
      .ok ((a, 0, 0, b), p + 4, size - 4)
  else
    if size < 8 then .error .invalidData
    else do
      let a ← f2x14 g p
      let b ← f2x14 g (p + 2)
      let c ← f2x14 g (p + 4)
      let d ← f2x14 g (p + 6)
      .ok ((a, b, c, d), p + 8, size - 8)

/-- Whether the offset of a component is scaled (`otglyf.cpp:585-595`). -/
def scaledOffset (flags : Nat) : Bool := flags &&& 0xC8 ≠ 0 && (flags &&& 0x1802 == 0x0802)

/-- One component of a compound glyph, from `ContinueCompound` on (`otglyf.cpp:502-603`): the data at `p`
with `size` bytes, on top of the levels `below`.  `mag` is `Geometry::magnitude`. -/
def component (F : Font) (root : Mat) (mag : Rat → Rat → Rat) (p size : Nat) (below : List Entry) (s : St) :
    Except Err Next :=
  if size < 6 then .error .invalidData
  else do
    let flags ← get (u16 F.glyf p)
    let gid ← get (u16 F.glyf (p + 2))
    if gid ≥ F.count then .error .invalidData
    else
      let (a, b, p, size) ← args F.glyf flags p (size - 6)
      let ((m00, m01, m10, m11), p, size) ← scale F.glyf flags p size
      let (dx, dy) : Rat × Rat :=
        if scaledOffset flags then (a * mag m00 m01, b * mag m10 m11) else ((a : Rat), (b : Rat))
      let m := Mat.mul ⟨m00, m01, m10, m11, dx, dy⟩ (top root below)
      .ok (.more { s with gid := gid, stack := { p := p, size := size, flags := flags, m := m } :: below })

/-- Behind a glyph: the next component of the innermost compound glyph that has one (`otglyf.cpp:477-484`). -/
def afterGlyph (F : Font) (root : Mat) (mag : Rat → Rat → Rat) (s : St) : Except Err Next :=
  match s.stack.dropWhile (fun e => e.flags &&& 0x20 = 0) with
  | [] => .ok (.done { s with stack := [] })
  | e :: below => component F root mag e.p e.size below s

/-- One round of the main loop (`otglyf.cpp:210-608`). -/
def round (F : Font) (root : Mat) (mag : Rat → Rat → Rat) (s : St) : Except Err Next := do
  let (a, b) ← offsets F s.gid
  if a ≥ b ∨ b > F.glyf.length then
    if a ≠ b ∨ b > F.glyf.length then .error .invalidData
    else afterGlyph F root mag s
  else if b - a < 10 then .error .invalidData
  else
    let n ← get (i16 F.glyf a)
    if n > 0 then
      let path ← simple F.glyf (top root s.stack) a (b - a) n.toNat
      afterGlyph F root mag { s with path := s.path ++ path, total := s.total + n.toNat }
    else if n = -1 then
      if s.stack.length + 1 ≥ 16 then .error .invalidData
      else component F root mag (a + 10) (b - a - 10) s.stack s
    else if n < -1 then .error .invalidData
    else afterGlyph F root mag s

/-- The main loop; `none` if it takes more than `fuel` rounds. -/
def loop (F : Font) (root : Mat) (mag : Rat → Rat → Rat) : Nat → St → Option (Except Err St)
  | 0, _ => none
  | fuel + 1, s =>
    match round F root mag s with
    | .error e => some (.error e)
    | .ok (.done s) => some (.ok s)
    | .ok (.more s) => loop F root mag fuel s

/-- `get_glyph_outlines` (`otglyf.cpp:176-616`): the vertices that are appended and the number of contours. -/
def outlines (F : Font) (root : Mat) (mag : Rat → Rat → Rat) (fuel gid : Nat) : Option (Except Err (List Vtx × Nat)) :=
  if gid ≥ F.count then some (.error .invalidGlyph)
  else (loop F root mag fuel { gid := gid, stack := [], path := [], total := 0 }).map
    (fun r => r.map (fun s => (s.path, s.total)))

end Blend2D.Glyf
