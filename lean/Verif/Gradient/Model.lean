import Verif.Arr.Model
import Verif.Algo.Model
import Verif.Matrix.Model
/-!
# `BLGradient` (`blend2d/core/gradient.cpp`, `gradient_p.h`, `gradient.h`)

A gradient is an instance that points to a reference counted impl.  Its type, its extend mode and the type of its
transformation are in the instance, everything else is in the impl.  The default impl is static and never changed.

Doubles: an offset is only compared.  A double that is not a NaN is an integer multiple of `2 ^ -1074`, so it is
modelled by that integer, and infinities by integers outside of `[0, 1]`; `-0.0` and `0.0` are one value.  Values
and the transformation are only stored and copied; they are rational numbers.

Writing outside of the stop array of an impl and using a freed impl are undefined behaviour, modelled by `none`.
Allocation is an oracle: `ok = false` makes `malloc` fail.

Simplifications: a new impl is filled before it enters the heap; a lookup table is represented by what it was computed
from, and its reference count is not modelled.
-/
namespace Blend2D.Gradient
open Cow
open Blend2D.Arr (Result implMaxSize expand masked)

abbrev Mat := Matrix.Mat Rat

/-- A double: `none` is a NaN, `some x` is `x * 2 ^ -1074`. -/
abbrev F := Option Int

/-- `1.0`. -/
def one : Int := 2 ^ 1074

/-- `a < b`, `a <= b` and `a == b` of doubles: false if one is a NaN. -/
def F.lt : F → F → Bool
  | some a, some b => a < b
  | _, _ => false

@[inherit_doc F.lt] def F.le : F → F → Bool
  | some a, some b => a ≤ b
  | _, _ => false

@[inherit_doc F.lt] def F.eq : F → F → Bool
  | some a, some b => a == b
  | _, _ => false

/-- A stop given by the caller (`BLGradientStop`, `gradient.h:92-139`). -/
structure Raw where
  offset : F
  rgba : Nat
  deriving DecidableEq, Repr

/-- A stop of a gradient.  Its offset is a number: it passed a test for `[0, 1]`, which fails for a NaN. -/
structure Stop where
  offset : Int
  rgba : Nat
  deriving DecidableEq, Repr

/-- The stop as stored, after the test. -/
def Raw.num (r : Raw) : Stop := ⟨r.offset.getD 0, r.rgba⟩

/-- The fields of the instance (`gradient_p.h:189-199`). -/
structure Fields where
  type : Nat
  extend : Nat
  ttype : Matrix.Ty
  deriving DecidableEq, Repr

/-- `BLGradientInfo` (`gradient_p.h:83-117`); `frgb` says that the format is `FRGB32`.  A packed value of zero is `none`. -/
structure Info where
  solid : Bool
  frgb : Bool
  lutSize : Nat
  deriving DecidableEq, Repr

/-- `BLGradientLUT` (`gradient_p.h:21-79`).  Its pixels are a function of its size and of the stops it was computed from. -/
structure Lut where
  size : Nat
  src : List Stop
  deriving DecidableEq, Repr

/-- `BLGradientPrivateImpl` (`gradient.h:258-279`, `gradient_p.h:125-140`); `size` is the length of `stops`. -/
structure Impl where
  cap : Nat
  stops : List Stop
  values : List Rat
  transform : Mat
  lut32 : Option Lut
  lut64 : Option Lut
  info : Option Info
  deriving DecidableEq

/-- The impls and instances, and the fields of the instances.  The instance `.sso ()` points to the default impl. -/
structure St where
  w : World Unit Impl
  f : List Fields
  deriving DecidableEq

/-- `default_impl` (`gradient.cpp:27`, 1024). -/
def defImpl : Impl := ⟨0, [], List.replicate 6 0, Matrix.identity, none, none, none⟩

/-- The fields of a default instance (`gradient.cpp:1026-1028`). -/
def defFields : Fields := ⟨0, 0, .identity⟩

/-- `get_impl`. -/
def implOf (s : St) : Core Unit → Option Impl
  | .sso _ => some defImpl
  | .dyn a => (s.w.block? a).map (·.val)

/-- `is_impl_mutable`: the counter of the default impl is 0 (`object_p.h:366-370`). -/
def mutOf (s : St) : Core Unit → Option Bool
  | .sso _ => some false
  | .dyn a => (s.w.block? a).map (fun b => b.rc == 1)

/-! ## Stops -/

/-- `value_count_table` (`gradient.cpp:34-44`; `gradient.h:142-236`). -/
def valueCount (type : Nat) : Nat := if type = 0 then 4 else if type = 1 then 6 else if type = 2 then 4 else 0

/-- `init_values` (`gradient.cpp:107-117`). -/
def initValues (src : List Rat) (n : Nat) : List Rat := src.take n ++ List.replicate (6 - n) 0

inductive Analysis where
  | conforming | nonConforming | invalid
  deriving DecidableEq, Repr

/-- The loop of `analyze_stop_array` (`gradient.cpp:62-74`). -/
def analyzeLoop (result was : Bool) (prev : F) : List Raw → Analysis
  | [] => if result then .nonConforming else .conforming
  | r :: rs =>
    if !(F.le (some 0) r.offset && F.le r.offset (some one)) then .invalid
    else
      let same := F.eq r.offset prev
      analyzeLoop (result || F.lt r.offset prev || (same && was)) same r.offset rs

/-- `analyze_stop_array` (`gradient.cpp:57-77`). -/
def analyze (rs : List Raw) : Analysis := analyzeLoop false false (some (-one)) rs

/-- The comparator of `copy_unsafe_stops` (`gradient.cpp:144-149`). -/
def cmpAlt (a b : Int × Nat) : Int :=
  let r : Int := if a.1 > b.1 then 1 else if a.1 < b.1 then -1 else 0
  if r ≠ 0 then r else (a.2 : Int) - (b.2 : Int)

/-- The loop that removes duplicates (`gradient.cpp:153-167`); `out` are the stops written so far, `j` is its length. -/
def dedupe (src : List Stop) : List (Int × Nat) → List Stop → Int → Int → Option (List Stop)
  | [], out, _, _ => some out
  | (offset, index) :: t, out, prev1, prev2 => do
    let s ← src[index]?
    if prev1 = prev2 ∧ prev2 = offset then
      if out = [] then none
      else dedupe src t (out.dropLast ++ [⟨offset, s.rgba⟩]) prev2 offset
    else dedupe src t (out ++ [⟨offset, s.rgba⟩]) prev2 offset

/-- `copy_unsafe_stops` (`gradient.cpp:130-171`) to an array with room for `cap` stops.  Simplification: the sorted array
and the source are not overlaid by the result; the loop writes `stops[j]` with `j <= i` after it read `stops[i]`. -/
def copyUnsafe (cap : Nat) (rs : List Raw) (a : Analysis) : Option (List Stop) := do
  let src := rs.map Raw.num
  if src.length > cap then none
  else if a = .conforming ∨ rs = [] then some src
  else do
    let alt ← Algo.quickSort cmpAlt (src.zipIdx.map (fun p => (p.1.offset, p.2))).toArray
    dedupe src (alt.toList.take (src.length - 1)) [] (-one) (-one)

/-! ## Info and lookup tables -/

/-- `0.002`, `0.5` and `0.998`. -/
def k002 : Int := 0x10624DD2F1A9FC * 2 ^ (1074 - 61)
@[inherit_doc k002] def k5 : Int := 2 ^ 1073
@[inherit_doc k002] def k998 : Int := 0x1FEF9DB22D0E56 * 2 ^ (1074 - 53)

/-- `rgba.value & 0xFF00FF00FF00FF00`. -/
def msk (s : Stop) : Nat := s.rgba &&& 0xFF00FF00FF00FF00

/-- The loop over the stops in `ensure_info` (`gradient.cpp:225-236`): `(ALPHA_NOT_ONE, ALPHA_NOT_ZERO, TRANSITION)`. -/
def infoLoop (notOne notZero tr : Bool) (prev : Nat) : List Stop → Bool × Bool × Bool
  | [] => (notOne, notZero, tr)
  | s :: t =>
    let v := msk s
    if v = prev then infoLoop notOne notZero tr prev t
    else infoLoop (notOne || v < 0xFF00000000000000) (notZero || v > 0x00FFFFFFFFFFFFFF) true v t

/-- The lookup table size (`gradient.cpp:243-274`).  Simplification: the difference of the offsets is exact. -/
def lutSizeOf (tr : Bool) (stops : List Stop) : Nat :=
  if tr = false then 256
  else match stops with
    | [_] => 256
    | [a, b] => if b.offset - a.offset ≥ k998 then 256 else 512
    | [a, b, c] => if a.offset ≤ k002 ∧ b.offset = k5 ∧ c.offset ≥ k998 then 512 else 1024
    | _ => 1024

/-- What `ensure_info` computes (`gradient.cpp:212-283`). -/
def computeInfo : List Stop → Option Info
  | [] => none
  | s :: t =>
    let p := msk s
    let (notOne, notZero, tr) := infoLoop (p < 0xFF00000000000000) (p > 0x00FFFFFFFFFFFFFF) false p t
    let tr := if notZero = false then false else tr
    some ⟨!tr, !notOne, lutSizeOf tr (s :: t)⟩

/-- `BLGradientInfo::lut_size` (`gradient_p.h:108-115`). -/
def Info.lut (i : Info) (hq : Bool) : Nat := if hq then min (i.lutSize * 2) 1024 else i.lutSize

/-- `invalidate_lut_cache` (`gradient.cpp:183-199`). -/
def Impl.invalidate (x : Impl) : Impl := { x with lut32 := none, lut64 := none, info := none }

/-! ## Allocation -/

/-- `impl_size_from_capacity` (`gradient_p.h:151-153`; `sizeof(BLGradientPrivateImpl) = 144`) in `size_t`. -/
def implSize (n : Nat) : Nat := (144 + n * 16) % 2 ^ 64

/-- `kInitialImplSize` (`gradient.cpp:53`). -/
def initialSize : Nat := 176

/-- `alloc_impl` (`gradient.cpp:341-356`) of `bytes` bytes, with `capacity_from_impl_size` (`gradient_p.h:155-157`);
`none` if out of memory. -/
def allocImpl (ok : Bool) (bytes : Nat) (values : List Rat) (n : Nat) (m : Mat) : Option Impl :=
  if bytes > implMaxSize ∨ ok = false then none
  else some ⟨(bytes + 2 ^ 64 - 144) % 2 ^ 64 / 16, [], initValues values n, m, none, none, none⟩

/-- Storing stops in a new impl: undefined if there is no room for them. -/
def Impl.put (x : Impl) (l : List Stop) : Option Impl := if l.length ≤ x.cap then some { x with stops := l } else none

/-- `replace_instance` with a new impl. -/
def renew (s : St) (i : Nat) (x : Impl) (f : Fields) : Option St := do
  let (c, w) := s.w.alloc 1 x
  let w ← w.replace i c
  return ⟨w, s.f.set i f⟩

/-- Stores to the impl of instance `i`. -/
def store (s : St) (i : Nat) (x : Impl) : Option St := do
  match ← s.w.vars[i]? with
  | .sso _ => none
  | .dyn a => return { s with w := s.w.setVal a x }

/-- The impl, whether it is mutable, and the fields of instance `i`. -/
def look (s : St) (i : Nat) : Option (Impl × Bool × Fields) := do
  let c ← s.w.vars[i]?
  return (← implOf s c, ← mutOf s c, ← s.f[i]?)

/-- `deep_copy` (`gradient.cpp:366-385`) of an instance to itself. -/
def deepCopy (ok : Bool) (s : St) (i : Nat) (copyCache : Bool) : Option (Result × St) := do
  let (x, _, f) ← look s i
  match allocImpl ok (implSize x.cap) x.values (valueCount f.type) x.transform with
  | none => return (.outOfMemory, s)
  | some y =>
    let y ← y.put x.stops
    let y := if copyCache then { y with lut32 := x.lut32, lut64 := x.lut64, info := x.info } else y
    return (.success, ← renew s i y f)

/-- `make_mutable` (`gradient.cpp:387-396`). -/
def makeMutable (ok : Bool) (s : St) (i : Nat) (copyCache : Bool) : Option (Result × St) := do
  let (x, m, _) ← look s i
  if m = false then deepCopy ok s i copyCache
  else if copyCache = false then return (.success, ← store s i x.invalidate)
  else return (.success, s)

/-! ## The API -/

/-- `bl_gradient_reset` (`gradient.cpp:452-457`). -/
def reset (s : St) (i : Nat) : Option (Result × St) := do
  let w ← s.w.replace i (.sso ())
  return (.success, ⟨w, s.f.set i defFields⟩)

/-- `bl_gradient_assign_weak` (`gradient.cpp:473-481`): copies the 16 bytes. -/
def assignWeak (s : St) (i j : Nat) : Option (Result × St) := do
  let w ← s.w.assignWeak i j
  return (.success, ⟨w, s.f.set i (← s.f[j]?)⟩)

/-- `bl_gradient_assign_move` (`gradient.cpp:462-471`). -/
def assignMove (s : St) (i j : Nat) : Option (Result × St) := do
  let w ← s.w.assignMove i j ()
  return (.success, ⟨w, (s.f.set j defFields).set i (← s.f[j]?)⟩)

/-- `bl_gradient_create` (`gradient.cpp:483-530`).  `BL_EXTEND_MODE_SIMPLE_MAX_VALUE = 2`, `BL_GRADIENT_TYPE_MAX_VALUE = 2`. -/
def create (ok : Bool) (s : St) (i type extend : Nat) (values : List Rat) (m : Mat) (rs : List Raw) : Option (Result × St) := do
  if type > 2 ∨ extend > 2 then return (.invalidValue, s)
  else
    let a := if rs = [] then .conforming else analyze rs
    if a = .invalid then return (.invalidValue, s)
    else
      let (x, mu, _) ← look s i
      let f : Fields := ⟨type, extend, Matrix.getType m⟩
      if masked rs.length mu > x.cap then
        match allocImpl ok (max (implSize rs.length) initialSize) values (valueCount type) m with
        | none => return (.outOfMemory, s)
        | some y => return (.success, ← renew s i { y with stops := ← copyUnsafe y.cap rs a } f)
      else
        let y := { x with values := initValues values (valueCount type), stops := ← copyUnsafe x.cap rs a, transform := m }
        let s ← store s i y.invalidate
        return (.success, { s with f := s.f.set i f })

/-- `current_size - fitting_size` in `size_t` (`gradient.cpp:543`). -/
def slack (current fitting : Nat) : Nat := (current + 2 ^ 64 - fitting) % 2 ^ 64

/-- `bl_gradient_shrink` (`gradient.cpp:535-556`). -/
def shrink (ok : Bool) (s : St) (i : Nat) : Option (Result × St) := do
  let (x, _, f) ← look s i
  if slack (implSize x.cap) (implSize x.stops.length) < 16 then return (.success, s)
  else match allocImpl ok (implSize x.stops.length) x.values 6 x.transform with
    | none => return (.outOfMemory, s)
    | some y =>
      let y ← y.put x.stops
      return (.success, ← renew s i { y with lut32 := x.lut32, lut64 := x.lut64 } f)

/-- `bl_gradient_reserve` (`gradient.cpp:558-578`). -/
def reserve (ok : Bool) (s : St) (i n : Nat) : Option (Result × St) := do
  let (x, mu, f) ← look s i
  if masked n mu ≤ x.cap then return (.success, s)
  else match allocImpl ok (max (implSize n) initialSize) x.values 6 x.transform with
    | none => return (.outOfMemory, s)
    | some y =>
      let y ← y.put x.stops
      return (.success, ← renew s i { y with lut32 := x.lut32, lut64 := x.lut64 } f)

/-- `bl_gradient_set_type` (`gradient.cpp:590-599`). -/
def setType (s : St) (i type : Nat) : Option (Result × St) := do
  if type > 2 then return (.invalidValue, s)
  else
    let f ← s.f[i]?
    return (.success, { s with f := s.f.set i { f with type := type } })

/-- `bl_gradient_set_extend_mode` (`gradient.cpp:608-617`). -/
def setExtend (s : St) (i extend : Nat) : Option (Result × St) := do
  if extend > 2 then return (.invalidValue, s)
  else
    let f ← s.f[i]?
    return (.success, { s with f := s.f.set i { f with extend := extend } })

/-- The loop of `bl_gradient_set_values` (`gradient.cpp:658-659`). -/
def overwrite (l : List Rat) (index : Nat) (vs : List Rat) : List Rat := l.take index ++ vs ++ l.drop (index + vs.length)

/-- `bl_gradient_set_values` (`gradient.cpp:643-662`); `bl_gradient_set_value` (`gradient.cpp:630-641`) is the case of one value. -/
def setValues (ok : Bool) (s : St) (i index : Nat) (vs : List Rat) : Option (Result × St) := do
  if index > 5 ∨ vs.length > 6 - index then return (.invalidValue, s)
  else if vs.length = 0 then return (.success, s)
  else
    let (r, s) ← makeMutable ok s i true
    if r ≠ .success then return (r, s)
    else
      let (x, _, _) ← look s i
      return (.success, ← store s i { x with values := overwrite x.values index vs })

/-- `bl_gradient_reset_stops` (`gradient.cpp:688-711`). -/
def resetStops (ok : Bool) (s : St) (i : Nat) : Option (Result × St) := do
  let (x, mu, f) ← look s i
  if x.stops.length = 0 then return (.success, s)
  else if mu = false then
    match allocImpl ok initialSize x.values 6 x.transform with
    | none => return (.outOfMemory, s)
    | some y => return (.success, ← renew s i y f)
  else return (.success, ← store s i { x with stops := [] }.invalidate)

/-- `bl_gradient_assign_stops` (`gradient.cpp:713-742`). -/
def assignStops (ok : Bool) (s : St) (i : Nat) (rs : List Raw) : Option (Result × St) := do
  if rs.length = 0 then resetStops ok s i
  else
    let (x, mu, f) ← look s i
    let a := analyze rs
    if a = .invalid then return (.invalidValue, s)
    else if masked rs.length mu > x.cap then
      match allocImpl ok (max (implSize rs.length) initialSize) x.values 6 x.transform with
      | none => return (.outOfMemory, s)
      | some y => return (.success, ← renew s i { y with stops := ← copyUnsafe y.cap rs a } f)
    else return (.success, ← store s i { x with stops := ← copyUnsafe x.cap rs a }.invalidate)

/-- `bl_gradient_remove_stops_by_index` (`gradient.cpp:840-879`). -/
def removeByIndex (ok : Bool) (s : St) (i rStart rEnd : Nat) : Option (Result × St) := do
  let (x, mu, f) ← look s i
  let size := x.stops.length
  let index := rStart
  let stop := min rEnd size
  if index > size ∨ stop < index then return (.invalidValue, s)
  else if index = stop then return (.success, s)
  else
    let rest := x.stops.take index ++ x.stops.drop stop
    if mu = false then
      match allocImpl ok (implSize (size - (stop - index))) x.values 6 x.transform with
      | none => return (.outOfMemory, s)
      | some y =>
        let _ ← y.put rest
        return (.success, ← renew s i y f)
    else return (.success, ← store s i { x with stops := rest }.invalidate)

/-- `bl_gradient_remove_stop` (`gradient.cpp:806-811`). -/
def removeStop (ok : Bool) (s : St) (i index : Nat) : Option (Result × St) :=
  removeByIndex ok s i index ((index + 1) % 2 ^ 64)

/-- The outer loop of `bl_gradient_remove_stop_by_offset` (`gradient.cpp:823-827`). -/
def scanEq (x : Int) : List Stop → Nat → Option Nat
  | [], _ => none
  | t :: ts, a => if t.offset > x then none else if t.offset = x then some a else scanEq x ts (a + 1)

/-- Steps of a loop that goes on while `p`. -/
def countWhile (p : Stop → Bool) : List Stop → Nat
  | [] => 0
  | t :: ts => if p t then countWhile p ts + 1 else 0

/-- `bl_gradient_remove_stop_by_offset` (`gradient.cpp:813-838`). -/
def removeByOffset (ok : Bool) (s : St) (i : Nat) (offset : F) (all : Bool) : Option (Result × St) := do
  if !(F.le (some 0) offset && F.le offset (some one)) then return (.invalidValue, s)
  else
    let (x, _, _) ← look s i
    match scanEq (offset.getD 0) x.stops 0 with
    | none => return (.success, s)
    | some a =>
      let b := a + 1 + if all then countWhile (fun t => F.eq (some t.offset) offset) (x.stops.drop (a + 1)) else 0
      removeByIndex ok s i a b

/-- `bl_gradient_remove_stops_by_offset` (`gradient.cpp:881-904`). -/
def removeByOffsets (ok : Bool) (s : St) (i : Nat) (lo hi : F) : Option (Result × St) := do
  if F.lt hi lo then return (.invalidValue, s)
  else
    let (x, _, _) ← look s i
    if x.stops.length = 0 then return (.success, s)
    else
      let a := countWhile (fun t => F.lt (some t.offset) lo) x.stops
      let b := a + countWhile (fun t => F.le (some t.offset) hi) (x.stops.drop a)
      if a ≥ b then return (.success, s)
      else removeByIndex ok s i a b

/-- `bl_gradient_replace_stop_rgba64` (`gradient.cpp:913-934`); `add` is the call of `bl_gradient_add_stop_rgba64`. -/
def replaceWith (add : St → Option (Result × St)) (ok : Bool) (s : St) (i index : Nat) (offset : F) (rgba : Nat) :
    Option (Result × St) := do
  let (x, _, _) ← look s i
  if index ≥ x.stops.length then return (.invalidValue, s)
  else
    let (r, s) ← makeMutable ok s i false
    if r ≠ .success then return (r, s)
    else
      let (x, _, _) ← look s i
      let t ← x.stops[index]?
      if F.eq (some t.offset) offset then
        return (.success, ← store s i { x with stops := x.stops.set index { t with rgba := rgba } })
      else
        let (r, s) ← removeStop ok s i index
        if r ≠ .success then return (r, s)
        else add s

/-- Where `bl_gradient_add_stop_rgba64` puts a stop (`gradient.cpp:763-777`): `(i, true)` if stop `i` is replaced,
`(i, false)` if it is inserted at `i`. -/
def addPos (l : List Stop) (x : Int) : Option (Nat × Bool) :=
  match l with
  | [] => some (0, false)
  | t :: _ =>
    if x ≥ t.offset then do
      let i ← Algo.binarySearchClosestLast l.toArray l.length x (fun t v => decide (t.offset ≤ v))
      if i > 0 then do
        let p ← l[i - 1]?
        if p.offset = x then return (i, true) else return (i + 1, false)
      else return (i + 1, false)
    else some (0, false)

/-- `bl_gradient_add_stop_rgba64` (`gradient.cpp:751-804`).  It and `bl_gradient_replace_stop_rgba64` call each other; the first
argument bounds the depth, and running out of it is undefined. -/
def addStop : Nat → Bool → St → Nat → F → Nat → Option (Result × St)
  | 0, _, _, _, _, _ => none
  | d + 1, ok, s, i, offset, rgba => do
    if !(F.le (some 0) offset && F.le offset (some one)) then return (.invalidValue, s)
    else
      let (x, mu, f) ← look s i
      let (k, repl) ← addPos x.stops (offset.getD 0)
      if repl then replaceWith (fun s => addStop d ok s i offset rgba) ok s i k offset rgba
      else
        let n := x.stops.length
        let rest := x.stops.take k ++ ⟨offset.getD 0, rgba⟩ :: x.stops.drop k
        if masked n mu ≥ x.cap then
          match allocImpl ok (expand (implSize (n + 1))) x.values 6 x.transform with
          | none => return (.outOfMemory, s)
          | some y =>
            let y ← y.put rest
            return (.success, ← renew s i y f)
        else
          let y ← x.put rest
          return (.success, ← store s i y.invalidate)

/-- `bl_gradient_replace_stop_rgba64` (`gradient.cpp:913-934`). -/
def replaceStop (ok : Bool) (s : St) (i index : Nat) (offset : F) (rgba : Nat) : Option (Result × St) :=
  replaceWith (fun s => addStop 2 ok s i offset rgba) ok s i index offset rgba

/-- `bl_gradient_apply_transform_op` (`gradient.cpp:977-995`) with `BL_TRANSFORM_OP_RESET`. -/
def resetTransform (ok : Bool) (s : St) (i : Nat) : Option (Result × St) := do
  let f ← s.f[i]?
  if f.ttype = .identity then return (.success, s)
  else
    let (r, s) ← makeMutable ok s i true
    if r ≠ .success then return (r, s)
    else
      let (x, _, f) ← look s i
      let s ← store s i { x with transform := Matrix.identity }
      return (.success, { s with f := s.f.set i { f with ttype := Matrix.getType (Matrix.identity : Mat) } })

/-- `bl_gradient_apply_transform_op` (`gradient.cpp:977-995`) with another operation, which is a function of the matrix. -/
def applyTransform (ok : Bool) (s : St) (i : Nat) (g : Mat → Mat) : Option (Result × St) := do
  let (r, s) ← makeMutable ok s i true
  if r ≠ .success then return (r, s)
  else
    let (x, _, f) ← look s i
    let s ← store s i { x with transform := g x.transform }
    return (.success, { s with f := s.f.set i { f with ttype := Matrix.getType (g x.transform) } })

/-- What the renderer does with a gradient: `ensure_info` (`gradient.cpp:201-286`), and unless it is a solid color
`ensure_lut32` or `ensure_lut64` (`gradient.cpp:288-337`) with the size it derives from the info
(`rastercontext.cpp:441-477`, `renderfetchdata.cpp:14-35`).  An assertion that fails is undefined. -/
def ensure (ok : Bool) (s : St) (i : Nat) (hq : Bool) : Option (Option Info × Option Lut × St) := do
  let (x, _, _) ← look s i
  let info := x.info.or (computeInfo x.stops)
  match info with
  | none => return (none, none, s)
  | some inf =>
    let x := { x with info := info }
    if inf.solid then return (info, none, ← store s i x)
    else
      match if hq then x.lut64 else x.lut32 with
      | some l => if l.size = inf.lut hq then return (info, some l, ← store s i x) else none
      | none =>
        if ok = false then return (info, none, ← store s i x)
        else
          let l : Lut := ⟨inf.lut hq, x.stops⟩
          return (info, some l, ← store s i (if hq then { x with lut64 := some l } else { x with lut32 := some l }))

/-- `bl_gradient_index_of_stop` (`gradient.cpp:936-955`); the inner `none` is `SIZE_MAX`. -/
def indexOfStop (l : List Stop) (offset : F) : Option (Option Nat) := do
  if l.length = 0 then return none
  else
    match ← Algo.binarySearch l.toArray l.length offset (fun t v => F.le (some t.offset) v) (fun t v => F.eq (some t.offset) v) with
    | none => return none
    | some i =>
      if i > 0 then do
        let p ← l[i - 1]?
        return some (if F.eq (some p.offset) offset then i - 1 else i)
      else return some i

/-- `bl_gradient_equals` (`gradient.cpp:1000-1019`). -/
def equals (s : St) (i j : Nat) : Option Bool := do
  let c ← s.w.vars[i]?
  let d ← s.w.vars[j]?
  let (x, _, f) ← look s i
  let (y, _, g) ← look s j
  if f ≠ g then return false
  else if c = d then return true
  else return x.transform = y.transform ∧ x.stops.length = y.stops.length ∧ x.stops = y.stops

end Blend2D.Gradient
