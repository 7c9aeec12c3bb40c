import Verif.Arr.Model
import Mathlib.Data.Rat.Init
/-!
# `BLPath` (`blend2d/core/path.cpp`, `path_p.h`, `path.h`): content

A path is an instance that points to a reference counted impl with two arrays, the commands and the vertices.  They are
always written and read together, so one array of pairs is modelled.  The default impl is static, empty and never changed.

Doubles: a finite double is a rational number, `none` is a NaN.  Infinities and rounding are not modelled.

A cell is `none` while it is uninitialised.  Reading or writing outside of an array, writing to the default impl and
using a freed impl are undefined behaviour, modelled by `none`.  Allocation is an oracle: `ok = false` makes `malloc`
fail.

Simplifications: a new impl is filled before it enters the heap; a loop that writes consecutive elements is one write.
-/
namespace Blend2D.Path
open Cow
open Blend2D.Arr (implMaxSize expand masked rd wr ModifyOp)

/-- A double. -/
abbrev F := Option Rat

/-- Operators of doubles. -/
def F.add (a b : F) : F := do return (← a) + (← b)
@[inherit_doc F.add] def F.sub (a b : F) : F := do return (← a) - (← b)
@[inherit_doc F.add] def F.mul (a b : F) : F := do return (← a) * (← b)
@[inherit_doc F.add] def F.neg (a : F) : F := a.map (- ·)
@[inherit_doc F.add] def F.abs (a : F) : F := a.map (fun q => if q < 0 then -q else q)

/-- `a < b` and `a <= b`: false if one is a NaN. -/
def F.lt : F → F → Bool
  | some a, some b => a < b
  | _, _ => false

@[inherit_doc F.lt] def F.le : F → F → Bool
  | some a, some b => a ≤ b
  | _, _ => false

/-- `bl_min` and `bl_max` (`api.h:1742, 1747`). -/
def F.min (a b : F) : F := if F.lt b a then b else a
@[inherit_doc F.min] def F.max (a b : F) : F := if F.lt a b then b else a

/-- `BLPoint` (`geometry.h`). -/
structure Pt where
  x : F
  y : F
  deriving DecidableEq

/-- A command (`BLPathCmd`, `path.h:37-72`) with its vertex. -/
structure Item where
  cmd : Nat
  vtx : Pt
  deriving DecidableEq

/-- `BL_PATH_CMD_MOVE`, `ON`, `QUAD`, `CONIC`, `CUBIC`, `CLOSE`, `WEIGHT` (`path.h:37-72`). -/
def cMove : Nat := 0
@[inherit_doc cMove] def cOn : Nat := 1
@[inherit_doc cMove] def cQuad : Nat := 2
@[inherit_doc cMove] def cConic : Nat := 3
@[inherit_doc cMove] def cCubic : Nat := 4
@[inherit_doc cMove] def cClose : Nat := 5
@[inherit_doc cMove] def cWeight : Nat := 6

/-- The vertex of a CLOSE command. -/
def nanPt : Pt := ⟨none, none⟩

/-- `BLPathFlags` (`path.h:110-130`). -/
structure Flags where
  empty : Bool := false
  multiple : Bool := false
  quads : Bool := false
  conics : Bool := false
  cubics : Bool := false
  invalid : Bool := false
  dirty : Bool := false
  deriving DecidableEq

/-- `BLBox`. -/
structure Box where
  x0 : Rat
  y0 : Rat
  x1 : Rat
  y1 : Rat
  deriving DecidableEq

/-- `box.reset()`. -/
def Box.zero : Box := ⟨0, 0, 0, 0⟩

/-- `BLPathPrivateImpl` (`path.h:411-431`, `path_p.h:22-25`); `capacity` is the number of cells. -/
structure Impl where
  size : Nat
  cells : List (Option Item)
  flags : Flags
  cbox : Box
  bbox : Box
  deriving DecidableEq

abbrev St := World Unit Impl

/-- `default_path` (`path.cpp:2684-2705`): empty, with the flag EMPTY. -/
def defImpl : Impl := ⟨0, [], { empty := true }, Box.zero, Box.zero⟩

/-- What functions return. -/
inductive Result where
  | success | outOfMemory | invalidValue | invalidGeometry | noMatchingVertex
  deriving DecidableEq, Repr

/-- `get_impl` and `is_impl_mutable` (`path_p.h:48-50, 67-69`): the default impl is not mutable (`object_p.h:366-370`). -/
def look (s : St) (i : Nat) : Option (Impl × Bool) := do
  let c ← s.vars[i]?
  match c with
  | .sso _ => some (defImpl, false)
  | .dyn a => (s.block? a).map (fun b => (b.val, b.rc == 1))

/-- `replace_instance` with a new impl (`path_p.h:79-83`). -/
def renew (s : St) (i : Nat) (x : Impl) : Option St := (s.alloc 1 x).2.replace i (s.alloc 1 x).1

/-- A store to the impl: the default impl is constant. -/
def store (s : St) (i : Nat) (x : Impl) : Option St := do
  let c ← s.vars[i]?
  match c with
  | .sso _ => none
  | .dyn a => do
    let _ ← s.block? a
    return s.setVal a x

/-! ## Memory -/

/-- `impl_size_from_capacity` (`path_p.h:39-41`; `sizeof(BLPathPrivateImpl) = 104`) in `size_t`. -/
def implSize (cap : Nat) : Nat := (104 + cap * 17) % 2 ^ 64

/-- `capacity_from_impl_size` (`path_p.h:35-37`) in `size_t`. -/
def capOf (bytes : Nat) : Nat := (bytes + 2 ^ 64 - 104) % 2 ^ 64 / 17

/-- `expand_impl_size` (`path.cpp:61-66`). -/
def expandSize (bytes : Nat) : Nat := expand (bytes ||| 1008)

/-- `alloc_impl` (`path.cpp:83-101`; `bl_object_alloc_impl_internal`, `object.cpp:38-50`); `none` if out of memory.
The boxes are not initialised; they are not read as long as the flag DIRTY is set. -/
def allocImpl (ok : Bool) (size bytes : Nat) : Option Impl :=
  if bytes > implMaxSize ∨ ok = false then none
  else some ⟨size, List.replicate (capOf bytes) none, { dirty := true }, Box.zero, Box.zero⟩

/-- `copy_content` from an impl to a new impl (`path.cpp:51-56`). -/
def Impl.copyTo (x y : Impl) (src dst n : Nat) : Option Impl := do
  let c ← rd x.cells src n
  let cells ← wr y.cells dst c
  return { y with cells := cells }

/-- `realloc_path` (`path.cpp:105-115`). -/
def reallocPath (ok : Bool) (s : St) (i bytes : Nat) : Option (Result × St) := do
  let (x, _) ← look s i
  match allocImpl ok x.size bytes with
  | none => return (.outOfMemory, s)
  | some y => do
    let y ← x.copyTo y 0 0 x.size
    let s ← renew s i y
    return (.success, s)

/-- `realloc_path_to_add` (`path.cpp:120-137`); the index is where to write. -/
def reallocPathToAdd (ok : Bool) (s : St) (i newSize : Nat) : Option (Result × Nat × St) := do
  let (x, _) ← look s i
  match allocImpl ok newSize (expandSize (implSize newSize)) with
  | none => return (.outOfMemory, 0, s)
  | some y => do
    let y ← x.copyTo y 0 0 x.size
    let s ← renew s i y
    return (.success, x.size, s)

/-- `prepare_add` (`path.cpp:152-174`). -/
def prepareAdd (ok : Bool) (s : St) (i n : Nat) : Option (Result × Nat × St) := do
  let (x, m) ← look s i
  let sizeAfter := (x.size + n) % 2 ^ 64
  if masked sizeAfter m > x.cells.length then reallocPathToAdd ok s i sizeAfter
  else do
    let s ← store s i { x with flags := { dirty := true }, size := sizeAfter }
    return (.success, x.size, s)

/-- `make_mutable` (`path.cpp:176-186`). -/
def makeMutable (ok : Bool) (s : St) (i : Nat) : Option (Result × St) := do
  let (x, m) ← look s i
  if m then do
    let s ← store s i { x with flags := { dirty := true } }
    return (.success, s)
  else do
    let (r, s) ← reallocPath ok s i (implSize x.size)
    if r ≠ .success then return (r, s)
    else do
      let (x, _) ← look s i
      let s ← store s i { x with flags := { dirty := true } }
      return (.success, s)

/-- Writing commands and vertices through the pointers that were returned. -/
def poke (s : St) (i off : Nat) (xs : List Item) : Option St := do
  let (x, _) ← look s i
  let cells ← wr x.cells off (xs.map some)
  store s i { x with cells := cells }

/-- Copying cells inside of or between impls, through pointers (`copy_content`, `path.cpp:51-56`; `memcpy`). -/
def pokeCells (s : St) (i off : Nat) (xs : List (Option Item)) : Option St := do
  let (x, _) ← look s i
  let cells ← wr x.cells off xs
  store s i { x with cells := cells }

/-! ## Size, capacity -/

/-- `bl_path_reset` (`path.cpp:308-313`). -/
def reset (s : St) (i : Nat) : Option (Result × St) := do
  let s ← s.replace i (.sso ())
  return (.success, s)

/-- `bl_path_clear` (`path.cpp:350-361`). -/
def clear (s : St) (i : Nat) : Option (Result × St) := do
  let (x, m) ← look s i
  if !m then reset s i
  else do
    let s ← store s i { x with size := 0, flags := {} }
    return (.success, s)

/-- `bl_path_reserve` (`path.cpp:387-398`). -/
def reserve (ok : Bool) (s : St) (i n : Nat) : Option (Result × St) := do
  let (x, m) ← look s i
  if masked n m > x.cells.length then reallocPath ok s i (implSize (max n x.size))
  else return (.success, s)

/-- `bl_path_modify_op` (`path.cpp:400-440`); `expand_impl_size_with_modify_op`: `path.cpp:68-73`. -/
def modifyOp (ok : Bool) (s : St) (i : Nat) (op : ModifyOp) (n : Nat) : Option (Result × Nat × St) := do
  let (x, m) ← look s i
  let index := if op.assign then 0 else x.size
  let remaining := x.cells.length - index
  let sizeAfter := (index + n) % 2 ^ 64
  if masked n m > remaining then
    let bytes := if op.grow then expandSize (implSize sizeAfter) else implSize sizeAfter
    match allocImpl ok sizeAfter bytes with
    | none => return (.outOfMemory, 0, s)
    | some y => do
      let y ← x.copyTo y 0 0 index
      let s ← renew s i y
      return (.success, index, s)
  else if n ≠ 0 then do
    let s ← store s i { x with size := sizeAfter, flags := { dirty := true } }
    return (.success, index, s)
  else if index = 0 then do
    let (_, s) ← clear s i
    let (x, _) ← look s i
    let s ← store s i { x with flags := { dirty := true } }
    return (.success, index, s)
  else do
    let s ← store s i { x with flags := { dirty := true } }
    return (.success, index, s)

/-- `bl_path_assign_deep` (`path.cpp:462-490`); also for `self == other`. -/
def assignDeep (ok : Bool) (s : St) (i j : Nat) : Option (Result × St) := do
  let (x, m) ← look s i
  let (o, _) ← look s j
  if o.size = 0 then clear s i
  else if masked o.size m > x.cells.length then
    match allocImpl ok o.size (implSize o.size) with
    | none => return (.outOfMemory, s)
    | some y => do
      let y ← o.copyTo y 0 0 o.size
      let s ← renew s i y
      return (.success, s)
  else do
    let s ← store s i { x with size := o.size, flags := { dirty := true } }
    let (o, _) ← look s j
    let c ← rd o.cells 0 o.size
    let s ← pokeCells s i 0 c
    return (.success, s)

/-- `check_range` (`path.cpp:36-49`): start and number. -/
def checkRange (size : Nat) : Option (Nat × Nat) → Option (Nat × Nat)
  | none => if 0 < size then some (0, size) else none
  | some (start, stop) => if start < min size stop then some (start, min size stop - start) else none

/-! ## Adding commands -/

/-- The functions that call `prepare_add` and write `xs`: `bl_path_move_to`, `line_to`, `poly_to`, `quad_to`, `conic_to`,
`cubic_to`, `close`, `add_box_i`, `add_box_d`, `add_rect_i`, `add_rect_d`
(`path.cpp:728-752, 905-1005, 1283-1330`); what they write is `itemsOf`. -/
def add (ok : Bool) (s : St) (i : Nat) (xs : List Item) : Option (Result × St) := do
  let (r, off, s) ← prepareAdd ok s i xs.length
  if r ≠ .success then return (r, s)
  else do
    let s ← poke s i off xs
    return (.success, s)

/-- The four corners (`append_box_internal`, `path.cpp:728-752`; `PathAppender::add_box`, `path_p.h:420-442`). -/
def boxItems (x0 y0 x1 y1 : F) (cw : Bool) : List Item :=
  if cw then [⟨cMove, ⟨x0, y0⟩⟩, ⟨cOn, ⟨x1, y0⟩⟩, ⟨cOn, ⟨x1, y1⟩⟩, ⟨cOn, ⟨x0, y1⟩⟩, ⟨cClose, nanPt⟩]
  else [⟨cMove, ⟨x0, y0⟩⟩, ⟨cOn, ⟨x0, y1⟩⟩, ⟨cOn, ⟨x1, y1⟩⟩, ⟨cOn, ⟨x1, y0⟩⟩, ⟨cClose, nanPt⟩]

/-- Calls that write fixed commands. -/
inductive Simple where
  | moveTo (p : Pt)
  | lineTo (p : Pt)
  | polyTo (ps : List Pt)
  | quadTo (p1 p2 : Pt)
  | conicTo (p1 p2 : Pt) (w : F)
  | cubicTo (p1 p2 p3 : Pt)
  | close
  | box (x0 y0 x1 y1 : F) (cw : Bool)
  | rect (x y w h : F) (cw : Bool)

/-- What these functions write. -/
def itemsOf : Simple → List Item
  | .moveTo p => [⟨cMove, p⟩]
  | .lineTo p => [⟨cOn, p⟩]
  | .polyTo ps => ps.map (fun p => ⟨cOn, p⟩)
  | .quadTo p1 p2 => [⟨cQuad, p1⟩, ⟨cOn, p2⟩]
  | .conicTo p1 p2 w => [⟨cConic, p1⟩, ⟨cWeight, ⟨w, none⟩⟩, ⟨cOn, p2⟩]
  | .cubicTo p1 p2 p3 => [⟨cCubic, p1⟩, ⟨cCubic, p2⟩, ⟨cOn, p3⟩]
  | .close => [⟨cClose, nanPt⟩]
  | .box x0 y0 x1 y1 cw => boxItems x0 y0 x1 y1 cw
  | .rect x y w h cw => boxItems x y (F.add w x) (F.add h y) cw

/-- Reading a cell. -/
def at? (x : Impl) (k : Nat) : Option Item := do
  let c ← x.cells[k]?
  c

/-- `x1 += x1 - vtx_data[-2].x`. -/
def reflect (a b : Pt) : Pt := ⟨F.add a.x (F.sub a.x b.x), F.add a.y (F.sub a.y b.y)⟩

/-- The control point (`path.cpp:1020-1026, 1051-1057`): `cmd` is QUAD or CUBIC; `size` is the one before. -/
def smoothPoint (x : Impl) (size cmd : Nat) : Option Pt := do
  let p ← at? x (size - 1)
  if size ≥ 2 then do
    let q ← at? x (size - 2)
    if q.cmd = cmd then return reflect p.vtx q.vtx else return p.vtx
  else return p.vtx

/-- `bl_path_smooth_quad_to` and `bl_path_smooth_cubic_to` (`path.cpp:1003-1069`): `n` commands, and what to write for a
control point. -/
def smooth (ok : Bool) (s : St) (i cmd n : Nat) (items : Pt → List Item) : Option (Result × St) := do
  let (x, _) ← look s i
  if x.size = 0 then return (.noMatchingVertex, s)
  else do
    let l ← at? x (x.size - 1)
    if l.cmd ≥ cClose then return (.noMatchingVertex, s)
    else do
      let (r, off, s) ← prepareAdd ok s i n
      if r ≠ .success then return (r, s)
      else do
        let (y, _) ← look s i
        let p ← smoothPoint y off cmd
        let s ← poke s i off (items p)
        return (.success, s)

@[inherit_doc smooth] def smoothQuadTo (ok : Bool) (s : St) (i : Nat) (p2 : Pt) : Option (Result × St) :=
  smooth ok s i cQuad 2 (fun p => [⟨cQuad, p⟩, ⟨cOn, p2⟩])

@[inherit_doc smooth] def smoothCubicTo (ok : Bool) (s : St) (i : Nat) (p2 p3 : Pt) : Option (Result × St) :=
  smooth ok s i cCubic 3 (fun p => [⟨cCubic, p⟩, ⟨cCubic, p2⟩, ⟨cOn, p3⟩])

/-- `bl_path_set_vertex_at` (`path.cpp:869-894`); `none` is `BL_PATH_CMD_PRESERVE`. -/
def setVertexAt (ok : Bool) (s : St) (i index : Nat) (cmd : Option Nat) (p : Pt) : Option (Result × St) := do
  let (x, _) ← look s i
  if index ≥ x.size then return (.invalidValue, s)
  else do
    let (r, s) ← makeMutable ok s i
    if r ≠ .success then return (r, s)
    else do
      let (x, _) ← look s i
      let old ← at? x index
      let s ← poke s i index [⟨(cmd.getD old.cmd) % 256, p⟩]
      return (.success, s)

/-- A vertex mapped by `f`, the command kept. -/
def mapItem (f : Pt → Pt) (c : Option Item) : Option Item := c.map (fun t => ⟨t.cmd, f t.vtx⟩)

/-- `bl_path_add_path`, `bl_path_add_translated_path`, `bl_path_add_transformed_path` (`path.cpp:846-864, 1789-1849`): the
vertices are mapped by `f`.  Also for `self == other`.  The matrix functions are modelled in `Verif.Matrix`. -/
def addPath (ok : Bool) (s : St) (i j : Nat) (range : Option (Nat × Nat)) (f : Pt → Pt) : Option (Result × St) := do
  let (o, _) ← look s j
  match checkRange o.size range with
  | none => return (.success, s)
  | some (start, n) => do
    let (r, off, s) ← prepareAdd ok s i n
    if r ≠ .success then return (r, s)
    else do
      let (o, _) ← look s j
      let c ← rd o.cells start n
      let s ← pokeCells s i off (c.map (mapItem f))
      return (.success, s)

/-- `bl_path_translate`, `bl_path_transform` (`path.cpp:2093-2137`). -/
def transform (ok : Bool) (s : St) (i : Nat) (range : Option (Nat × Nat)) (f : Pt → Pt) : Option (Result × St) := do
  let (x, _) ← look s i
  match checkRange x.size range with
  | none => return (.success, s)
  | some (start, n) => do
    let (r, s) ← makeMutable ok s i
    if r ≠ .success then return (r, s)
    else do
      let (x, _) ← look s i
      let c ← rd x.cells start n
      let s ← pokeCells s i start (c.map (mapItem f))
      return (.success, s)

/-- `bl_path_remove_range` (`path.cpp:2050-2087`). -/
def removeRange (ok : Bool) (s : St) (i : Nat) (range : Option (Nat × Nat)) : Option (Result × St) := do
  let (x, m) ← look s i
  match checkRange x.size range with
  | none => return (.success, s)
  | some (start, n) =>
    let stop := start + n
    if n = x.size then clear s i
    else
      let sizeAfter := x.size - n
      if !m then
        match allocImpl ok sizeAfter (implSize sizeAfter) with
        | none => return (.outOfMemory, s)
        | some y => do
          let y ← x.copyTo y 0 0 start
          let y ← x.copyTo y stop start (x.size - stop)
          let s ← renew s i y
          return (.success, s)
      else do
        let c ← rd x.cells stop (x.size - stop)
        let cells ← wr x.cells start c
        let s ← store s i { x with cells := cells, size := sizeAfter, flags := { dirty := true } }
        return (.success, s)

/-! ## Geometries -/

/-- Geometries whose commands are computed by arithmetic alone (`BLGeometryType`, `geometry.h`).  A rectangle is its box. -/
inductive Geo where
  | box (x0 y0 x1 y1 : F)
  | ellipse (cx cy rx ry : F)
  | circle (cx cy r : F)
  | roundRect (x y w h rx ry : F)
  | line (p0 p1 : Pt)
  | triangle (p0 p1 p2 : Pt)
  | polyline (ps : List Pt)
  | polygon (ps : List Pt)
  | boxes (bs : List (F × F × F × F))

/-- `path_vertex_count_of_geometry_type_table` and the switch (`path.cpp:702-726, 1340-1392`): how many commands are
reserved. -/
def Geo.count : Geo → Nat
  | .box .. => 5
  | .ellipse .. => 14
  | .circle .. => 14
  | .roundRect .. => 18
  | .line .. => 2
  | .triangle .. => 4
  | .polyline ps => ps.length
  | .polygon ps => if ps.length = 0 then 0 else ps.length + 1
  | .boxes bs => min (bs.length * 5) (2 ^ 64 - 1)

/-- Reading `n` points with `*src--`, from the point number `k` on. -/
def backward {α : Type} (xs : List α) : (k : Nat) → (n : Nat) → Option (List α)
  | _, 0 => some []
  | k, n + 1 => do
    let p ← xs[k]?
    if n = 0 then return [p]
    else if k = 0 then none
    else do
      let t ← backward xs (k - 1) n
      return p :: t

/-- `line_to` for all points, with the first command set to MOVE (`path.cpp:1578-1613`). -/
def polyItems : List Pt → List Item
  | [] => []
  | p :: ps => ⟨cMove, p⟩ :: ps.map (fun q => ⟨cOn, q⟩)

/-- `Geometry::is_valid` of a box (`geometry/commons_p.h:43`). -/
def boxValid (b : F × F × F × F) : Bool := F.lt b.1 b.2.2.1 && F.lt b.2.1 b.2.2.2

/-- The boxes that are valid (`path.cpp:1655-1700`). -/
def boxesItems (cw : Bool) (bs : List (F × F × F × F)) : List Item :=
  (bs.filter boxValid).flatMap (fun b => boxItems b.1 b.2.1 b.2.2.1 b.2.2.2 cw)

/-- A cubic segment. -/
def cubic3 (x1 y1 x2 y2 x3 y3 : F) : List Item := [⟨cCubic, ⟨x1, y1⟩⟩, ⟨cCubic, ⟨x2, y2⟩⟩, ⟨cOn, ⟨x3, y3⟩⟩]

/-- Circle and ellipse (`path.cpp:1441-1477`) with the constant `kKAPPA`. -/
def ellipseItems (kappa : Rat) (x0 y0 rx ry : F) (cw : Bool) : List Item :=
  let ry := if cw then ry else ry.neg
  let kx := rx.mul (some kappa)
  let ky := ry.mul (some kappa)
  [⟨cMove, ⟨x0.add rx, y0⟩⟩]
    ++ cubic3 (x0.add rx) (y0.add ky) (x0.add kx) (y0.add ry) x0 (y0.add ry)
    ++ cubic3 (x0.sub kx) (y0.add ry) (x0.sub rx) (y0.add ky) (x0.sub rx) y0
    ++ cubic3 (x0.sub rx) (y0.sub ky) (x0.sub kx) (y0.sub ry) x0 (y0.sub ry)
    ++ cubic3 (x0.add kx) (y0.sub ry) (x0.add rx) (y0.sub ky) (x0.add rx) y0
    ++ [⟨cClose, nanPt⟩]

/-- `Math::epsilon<double>()` (`math_p.h`). -/
def epsilon : Rat := 1 / 10 ^ 14

/-- Rounded rectangle (`path.cpp:1479-1526`). -/
def roundRectItems (kappa : Rat) (x y w h rx ry : F) (cw : Bool) : List Item :=
  let x0 := x
  let y0 := y
  let x1 := x.add w
  let y1 := y.add h
  let rx := F.min rx.abs (w.mul (some (1 / 2)))
  let ry := F.min ry.abs (h.mul (some (1 / 2)))
  if !(F.lt (some epsilon) rx && F.lt (some epsilon) ry) then boxItems x0 y0 x1 y1 cw
  else
    let kx := rx.mul (some (1 - kappa))
    let ky := ry.mul (some (1 - kappa))
    if cw then
      [⟨cMove, ⟨x0.add rx, y0⟩⟩, ⟨cOn, ⟨x1.sub rx, y0⟩⟩]
        ++ cubic3 (x1.sub kx) y0 x1 (y0.add ky) x1 (y0.add ry)
        ++ [⟨cOn, ⟨x1, y1.sub ry⟩⟩]
        ++ cubic3 x1 (y1.sub ky) (x1.sub kx) y1 (x1.sub rx) y1
        ++ [⟨cOn, ⟨x0.add rx, y1⟩⟩]
        ++ cubic3 (x0.add kx) y1 x0 (y1.sub ky) x0 (y1.sub ry)
        ++ [⟨cOn, ⟨x0, y0.add ry⟩⟩]
        ++ cubic3 x0 (y0.add ky) (x0.add kx) y0 (x0.add rx) y0
        ++ [⟨cClose, nanPt⟩]
    else
      [⟨cMove, ⟨x0.add rx, y0⟩⟩]
        ++ cubic3 (x0.add kx) y0 x0 (y0.add ky) x0 (y0.add ry)
        ++ [⟨cOn, ⟨x0, y1.sub ry⟩⟩]
        ++ cubic3 x0 (y1.sub ky) (x0.add kx) y1 (x0.add rx) y1
        ++ [⟨cOn, ⟨x1.sub rx, y1⟩⟩]
        ++ cubic3 (x1.sub kx) y1 x1 (y1.sub ky) x1 (y1.sub ry)
        ++ [⟨cOn, ⟨x1, y0.add ry⟩⟩]
        ++ cubic3 x1 (y0.add ky) (x1.sub kx) y0 (x1.sub rx) y0
        ++ [⟨cClose, nanPt⟩]

/-- What the appender writes for a geometry (`path.cpp:1405-1755`).  `none`: it reads outside of the array that was
given.  Simplification: the number of points a loop reads is that of the array, which is what `n` is (less the CLOSE). -/
def Geo.items (kappa : Rat) (cw : Bool) : Geo → Option (List Item)
  | .box x0 y0 x1 y1 => some (boxItems x0 y0 x1 y1 cw)
  | .ellipse cx cy rx ry => some (ellipseItems kappa cx cy rx ry cw)
  | .circle cx cy r => some (ellipseItems kappa cx cy r r.abs cw)
  | .roundRect x y w h rx ry => some (roundRectItems kappa x y w h rx ry cw)
  | .line p0 p1 => some (if cw then [⟨cMove, p0⟩, ⟨cOn, p1⟩] else [⟨cMove, p1⟩, ⟨cOn, p0⟩])
  | .triangle p0 p1 p2 =>
    some (if cw then [⟨cMove, p0⟩, ⟨cOn, p1⟩, ⟨cOn, p2⟩, ⟨cClose, nanPt⟩]
      else [⟨cMove, p2⟩, ⟨cOn, p1⟩, ⟨cOn, p0⟩, ⟨cClose, nanPt⟩])
  | .polyline ps => do
    let n := (Geo.polyline ps).count
    let qs ← if cw then rd' ps n else backward ps (n - 1) n
    return polyItems qs
  | .polygon ps => do
    let n := (Geo.polygon ps).count
    let qs ← if cw then rd' ps (n - 1) else backward ps (n - 1) (n - 1)
    return polyItems qs ++ [⟨cClose, nanPt⟩]
  | .boxes bs => do
    let n := (Geo.boxes bs).count
    let qs ← if cw then rd' bs (n / 5) else backward bs (n - 1) (n / 5)
    return boxesItems cw qs
where
  /-- Reading `n` elements with `*src++`. -/
  rd' {α : Type} (xs : List α) (n : Nat) : Option (List α) := if n ≤ xs.length then some (xs.take n) else none

/-- `bl_path_add_geometry` (`path.cpp:1336-1787`) without a path as a geometry, arcs, chords and pies; `f` is the
transformation, if there is one. -/
def addGeometry (kappa : Rat) (ok : Bool) (s : St) (i : Nat) (g : Geo) (cw : Bool) (f : Option (Pt → Pt)) : Option (Result × St) := do
  if g.count = 0 then return (.success, s)
  else do
    let (x, _) ← look s i
    let initial := x.size
    let (r, off, s) ← modifyOp ok s i ⟨false, true⟩ g.count
    if r ≠ .success then return (r, s)
    else do
      let xs ← g.items kappa cw
      let s ← poke s i off xs
      let (x, _) ← look s i
      let s ← store s i { x with size := off + xs.length }
      match f with
      | none => return (.success, s)
      | some f => do
        let (x, _) ← look s i
        let c ← rd x.cells initial (x.size - initial)
        let s ← pokeCells s i initial (c.map (mapItem f))
        return (.success, s)

/-! ## Queries -/

/-- The first loop of `bl_path_get_figure_range` (`path.cpp:2305-2314`): `cs` are the commands from `stop` on. -/
def figureEnd : (stop : Nat) → (cs : List Nat) → Nat
  | stop, [] => stop
  | stop, c :: cs => if c = cMove then stop else if c = cClose then stop + 1 else figureEnd (stop + 1) cs

/-- The second loop (`path.cpp:2317-2327`): `cs` are the commands before `index`, the last one first. -/
def figureStart : (index : Nat) → (cs : List Nat) → Nat
  | index, [] => index
  | index, c :: cs => if c = cClose then index else if c = cMove then index - 1 else figureStart (index - 1) cs

/-- `bl_path_get_figure_range` (`path.cpp:2293-2331`) for the commands `cs`. -/
def figureRange (cs : List Nat) (index : Nat) : Result × Nat × Nat :=
  if index ≥ cs.length then (.invalidValue, 0, 0)
  else
    let stop := figureEnd (index + 1) (cs.drop (index + 1))
    let start := if cs[index]? ≠ some cMove then figureStart index (cs.take index).reverse else index
    (.success, start, stop)

/-- The loop of `bl_path_get_last_vertex` (`path.cpp:2352-2362`): `cs` are the commands before the last one, the last
one first. -/
def lastMove : List Item → Option Pt
  | [] => none
  | c :: cs => if c.cmd = cClose then none else if c.cmd = cMove then some c.vtx else lastMove cs

/-- `bl_path_get_last_vertex` (`path.cpp:2336-2366`); `none`: `BL_ERROR_NO_MATCHING_VERTEX`. -/
def lastVertex (xs : List Item) : Option Pt :=
  match xs.reverse with
  | [] => none
  | c :: cs => if c.cmd ≠ cClose then some c.vtx else lastMove cs

end Blend2D.Path
