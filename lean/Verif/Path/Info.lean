import Verif.Path.Model
/-!
# `BLPath`: flags, control box and bounding box (`blend2d/core/path.cpp`)

A box that starts at `(DBL_MAX, -DBL_MAX)` and is extended by finite numbers is modelled by one interval for each axis, which
is `none` as long as nothing was added.  The points at which a conic or a cubic curve can have extrema are computed with
square roots; they are parameters.
-/
namespace Blend2D.Path
open Cow
open Blend2D.Arr (implMaxSize expand masked rd wr ModifyOp)

/-- `Geometry::get_conic_extrema_points` and `Geometry::cubic_extrema_points` (`geometry/bezier_p.h:683-696, 1104-1117`),
not modelled. -/
structure Ext where
  conic : Pt → Pt → Pt → Pt → Pt × Pt
  cubic : Pt → Pt → Pt → Pt → Pt × Pt

/-- One axis of a box. -/
abbrev Iv := Option (Rat × Rat)

/-- `bl_min(box.x0, v)`, `bl_max(box.x1, v)` (`geometry/commons_p.h:84-87`): a NaN changes nothing. -/
def Iv.bound : Iv → F → Iv
  | iv, none => iv
  | none, some q => some (q, q)
  | some (a, b), some q => some (if q < a then q else a, if b < q then q else b)

/-- `v >= box.x0 && v <= box.x1`. -/
def Iv.has : Iv → F → Bool
  | some (a, b), some q => decide (a ≤ q) && decide (q ≤ b)
  | _, _ => false

/-- `lo >= box.x0 && hi <= box.x1`. -/
def Iv.inside : Iv → F → F → Bool
  | some (a, b), some l, some h => decide (a ≤ l) && decide (h ≤ b)
  | _, _, _ => false

/-- `bl_min(a.x0, b.x0)`, `bl_max(a.x1, b.x1)`. -/
def Iv.union : Iv → Iv → Iv
  | a, none => a
  | none, b => b
  | some (a, b), some (c, d) => some (if c < a then c else a, if b < d then d else b)

/-- Both axes. -/
structure Rng where
  x : Iv := none
  y : Iv := none
  deriving DecidableEq

/-- `Geometry::bound` (`geometry/commons_p.h:84-87`). -/
def Rng.bound (r : Rng) (p : Pt) : Rng := ⟨r.x.bound p.x, r.y.bound p.y⟩

/-- Is a point in the box? -/
def Rng.has (r : Rng) (p : Pt) : Bool := r.x.has p.x && r.y.has p.y

/-- `PathInfoUpdater` (`path.cpp:572-585`). -/
structure Upd where
  moves : Nat := 0
  flags : Flags := {}
  control : Rng := {}
  bounding : Rng := {}
  deriving DecidableEq

/-- `lerp` (`geometry/commons_p.h`). -/
def lerpF (a b t : F) : F := F.add (F.mul a (F.sub (some 1) t)) (F.mul b t)

/-- `bl_clamp(a / b, 0.0, 1.0)` (`api.h:1752`): `x / 0.0` is an infinity or a NaN, and a NaN becomes 0. -/
def clampDiv : F → F → Rat
  | some a, some b =>
    if b = 0 then (if 0 < a then 1 else 0)
    else if a / b < 0 then 0 else if 1 < a / b then 1 else a / b
  | _, _ => 0

/-- One coordinate of `Geometry::quad_extrema_point` (`geometry/bezier_p.h:231-235`) with `evaluate_precise`
(`geometry/bezier_p.h:223-229`). -/
def quadExtremum (a b c : F) : F :=
  let v := F.sub a b
  let t : F := some (clampDiv v (F.add (F.sub v b) c))
  lerpF (lerpF a b t) (lerpF b c t) t

@[inherit_doc quadExtremum] def quadExtremaPoint (p0 p1 p2 : Pt) : Pt := ⟨quadExtremum p0.x p1.x p2.x, quadExtremum p0.y p1.y p2.y⟩

/-- The case QUAD (`path.cpp:615-636`): `prev` is the vertex before the command. -/
def quadStep (u : Upd) (prev : Option Pt) (c e : Pt) : Option Upd :=
  let u := { u with flags := { u.flags with quads := true }, bounding := u.bounding.bound e }
  if u.bounding.has c then some u
  else do
    let p ← prev
    return { u with bounding := u.bounding.bound (quadExtremaPoint p c e), control := u.control.bound c }

/-- The case CONIC (`path.cpp:638-662`): `w` is the vertex of WEIGHT. -/
def conicStep (E : Ext) (u : Upd) (prev : Option Pt) (c w e : Pt) : Option Upd :=
  let u := { u with flags := { u.flags with conics := true }, bounding := u.bounding.bound e }
  if u.bounding.has c then some u
  else do
    let p ← prev
    let x := E.conic p c w e
    return { u with bounding := (u.bounding.bound x.1).bound x.2, control := u.control.bound w }

/-- The case CUBIC (`path.cpp:664-690`). -/
def cubicStep (E : Ext) (u : Upd) (prev : Option Pt) (c1 c2 e : Pt) : Option Upd :=
  let u := { u with flags := { u.flags with cubics := true }, bounding := u.bounding.bound e }
  if u.bounding.x.inside (F.min c1.x c2.x) (F.max c1.x c2.x) && u.bounding.y.inside (F.min c1.y c2.y) (F.max c1.y c2.y) then some u
  else do
    let p ← prev
    let x := E.cubic p c1 c2 e
    return { u with bounding := (u.bounding.bound x.1).bound x.2, control := (u.control.bound c1).bound c2 }

/-- The end (`path.cpp:702-711`). -/
def Upd.finish (u : Upd) : Upd :=
  { u with
    control := ⟨u.control.x.union u.bounding.x, u.control.y.union u.bounding.y⟩
    flags := { u.flags with multiple := decide (1 < u.moves) } }

/-- `PathInfoUpdater::update` (`path.cpp:587-716`).  `true` is `BL_SUCCESS`, `false` is `BL_ERROR_INVALID_GEOMETRY`; `prev`
is the vertex before the rest of the path, if there is one. -/
def update (E : Ext) : (hasPrev : Bool) → (prev : Option Pt) → (u : Upd) → List Item → Option (Bool × Upd)
  | _, _, u, [] => some (true, u.finish)
  | hp, prev, u, i :: t =>
    if i.cmd = cMove then update E true (some i.vtx) { u with moves := u.moves + 1, bounding := u.bounding.bound i.vtx } t
    else if i.cmd = cOn then
      if !hp then some (false, u) else update E hp (some i.vtx) { u with bounding := u.bounding.bound i.vtx } t
    else if i.cmd = cQuad then
      match t with
      | e :: t => if !hp then some (false, u) else (quadStep u prev i.vtx e.vtx).bind (fun u => update E true (some e.vtx) u t)
      | [] => some (false, u)
    else if i.cmd = cConic then
      match t with
      | w :: e :: t =>
        if !hp then some (false, u) else (conicStep E u prev i.vtx w.vtx e.vtx).bind (fun u => update E true (some e.vtx) u t)
      | _ => some (false, u)
    else if i.cmd = cCubic then
      match t with
      | c :: e :: t =>
        if !hp then some (false, u) else (cubicStep E u prev i.vtx c.vtx e.vtx).bind (fun u => update E true (some e.vtx) u t)
      | _ => some (false, u)
    else if i.cmd = cClose then update E false (some i.vtx) u t
    else some (false, u)

/-- The box of two intervals. -/
def toBox : Rng → Option Box
  | ⟨some (a, b), some (c, d)⟩ => some ⟨a, c, b, d⟩
  | _ => none

/-- What `update_info` computes (`path.cpp:2212-2245`): flags, control box and bounding box. -/
structure Info where
  flags : Flags
  cbox : Box
  bbox : Box
  deriving DecidableEq

/-- `update_info` without the stores (`path.cpp:2212-2245`).  An interval that is empty is one with `x0 > x1`. -/
def computeInfo (E : Ext) (xs : List Item) : Option Info := do
  let (r, u) ← update E false none {} xs
  if r = false then return ⟨{ u.flags with invalid := true }, Box.zero, Box.zero⟩
  else match toBox u.bounding, toBox u.control with
    | some b, some c => return ⟨u.flags, c, b⟩
    | _, _ => return ⟨{ u.flags with empty := true }, Box.zero, Box.zero⟩

/-- The items of a path, if all are initialised. -/
def itemsIn (x : Impl) : Option (List Item) := do
  let c ← rd x.cells 0 x.size
  c.mapM id

/-- `ensure_info`, `update_info` (`path.cpp:2205-2252`): `flags & (INVALID | DIRTY)`.  It writes to the impl also if it is shared. -/
def ensureInfo (E : Ext) (s : St) (i : Nat) : Option (Result × St) := do
  let (x, _) ← look s i
  if x.flags.invalid then return (.invalidGeometry, s)
  else if x.flags.dirty then do
    let xs ← itemsIn x
    let n ← computeInfo E xs
    let s ← store s i { x with flags := n.flags, cbox := n.cbox, bbox := n.bbox }
    return (if n.flags.invalid then .invalidGeometry else .success, s)
  else return (.success, s)

/-- `bl_path_get_info_flags`, `bl_path_get_control_box`, `bl_path_get_bounding_box` (`path.cpp:2257-2292`). -/
def getInfo (E : Ext) (s : St) (i : Nat) : Option (Result × Info × St) := do
  let (r, s) ← ensureInfo E s i
  let (x, _) ← look s i
  return (r, ⟨x.flags, x.cbox, x.bbox⟩, s)

/-- `bl_path_shrink` (`path.cpp:363-385`; `BL_OBJECT_IMPL_ALIGNMENT = 16`). -/
def shrink (E : Ext) (ok : Bool) (s : St) (i : Nat) : Option (Result × St) := do
  let (x, _) ← look s i
  if x.size = 0 then reset s i
  else if implSize x.cells.length - implSize x.size ≥ 16 then do
    let (r, s) ← reallocPath ok s i (implSize x.size)
    if r ≠ .success then return (r, s) else ensureInfo E s i
  else ensureInfo E s i

/-- `modify_op`, after which the caller writes all items. -/
def modifyFill (ok : Bool) (s : St) (i : Nat) (op : ModifyOp) (xs : List Item) : Option (Result × St) := do
  let (r, off, s) ← modifyOp ok s i op xs.length
  if r ≠ .success then return (r, s)
  else if xs = [] then return (r, s)
  else do
    let s ← poke s i off xs
    return (.success, s)

/-- The first part of `bl_path_fit_to` (`path.cpp:2139-2152`): it scans the range as if there were a vertex before. -/
def fitScan (E : Ext) (xs : List Item) (start n : Nat) : Option (Bool × Upd) :=
  update E true (if start = 0 then none else (xs[start - 1]?).map (·.vtx)) {} ((xs.drop start).take n)

end Blend2D.Path
