import Mathlib.Algebra.Field.Basic
import Mathlib.Algebra.Order.Field.Basic
import Mathlib.Tactic.Ring
import Mathlib.Tactic.FieldSimp
import Mathlib.Tactic.LinearCombination
import Mathlib.Tactic.Linarith

/-!
# 2D transformations (`core/matrix.h`, `core/matrix.cpp`, `core/matrix_p.h`)

Simplification: coordinates are elements of an arbitrary field `K` (exact arithmetic; rounding, overflow
and NaN of `double` are not modelled, so `is_finite` is always true) and `sin`, `cos`, `tan` are
arbitrary functions (`Trig`).
-/

namespace Blend2D.Matrix

variable {K : Type} [Field K]

/-- `bl::Math::sin`, `cos`, `tan`. -/
structure Trig (K : Type) where
  sin : K → K
  cos : K → K
  tan : K → K

/-- `BLMatrix2D`, `matrix.h:115-150`. -/
structure Mat (K : Type) where
  m00 : K
  m01 : K
  m10 : K
  m11 : K
  m20 : K
  m21 : K
deriving DecidableEq

/-- `BLPoint`. -/
structure Pt (K : Type) where
  x : K
  y : K
deriving DecidableEq

/-- `map_point`, `matrix.h:440`. -/
def mapPoint (m : Mat K) (p : Pt K) : Pt K :=
  ⟨p.x * m.m00 + p.y * m.m10 + m.m20, p.x * m.m01 + p.y * m.m11 + m.m21⟩

/-- `map_vector`, `matrix.h:443`. -/
def mapVector (m : Mat K) (p : Pt K) : Pt K := ⟨p.x * m.m00 + p.y * m.m10, p.x * m.m01 + p.y * m.m11⟩

/-- `bl_matrix2d_set_identity`, `matrix.cpp:97-100`. -/
def identity : Mat K := ⟨1, 0, 0, 1, 0, 0⟩

/-- `bl_matrix2d_set_translation`, `matrix.cpp:102-105`. -/
def setTranslation (x y : K) : Mat K := ⟨1, 0, 0, 1, x, y⟩

/-- `bl_matrix2d_set_scaling`, `matrix.cpp:107-110`. -/
def setScaling (x y : K) : Mat K := ⟨x, 0, 0, y, 0, 0⟩

/-- `bl_matrix2d_set_skewing`, `matrix.cpp:112-118`. -/
def setSkewing (f : Trig K) (x y : K) : Mat K := ⟨1, f.tan y, f.tan x, 1, 0, 0⟩

/-- `bl_matrix2d_set_rotation`, `matrix.cpp:120-126` (`reset_to_rotation`, `matrix.h:299-303`). -/
def setRotation (f : Trig K) (angle x y : K) : Mat K :=
  ⟨f.cos angle, f.sin angle, -f.sin angle, f.cos angle, x, y⟩

/-- Operations of `bl_matrix2d_apply_op`, `matrix.h:46-82`. -/
inductive Op (K : Type)
  | reset
  | assign (b : Mat K)
  | translate (x y : K)
  | scale (x y : K)
  | skew (x y : K)
  | rotate (angle : K)
  | rotatePt (angle px py : K)
  | transform (b : Mat K)
  | postTranslate (x y : K)
  | postScale (x y : K)
  | postSkew (x y : K)
  | postRotate (angle : K)
  | postRotatePt (angle px py : K)
  | postTransform (b : Mat K)

/-- `bl_matrix2d_apply_op`, `matrix.cpp:217-440`. -/
def applyOp (f : Trig K) (a : Mat K) : Op K → Mat K
  | .reset => identity
  | .assign b => b
  | .translate x y =>
    { a with m20 := a.m20 + (x * a.m00 + y * a.m10), m21 := a.m21 + (x * a.m01 + y * a.m11) }
  | .scale x y => { a with m00 := a.m00 * x, m01 := a.m01 * x, m10 := a.m10 * y, m11 := a.m11 * y }
  | .skew x y =>
    let xTan := f.tan x
    let yTan := f.tan y
    let t00 := yTan * a.m10
    let t01 := yTan * a.m11
    let a := { a with m10 := a.m10 + xTan * a.m00, m11 := a.m11 + xTan * a.m01 }
    { a with m00 := a.m00 + t00, m01 := a.m01 + t01 }
  | .rotate angle =>
    let as := f.sin angle
    let ac := f.cos angle
    { a with m00 := as * a.m10 + ac * a.m00, m01 := as * a.m11 + ac * a.m01,
             m10 := ac * a.m10 - as * a.m00, m11 := ac * a.m11 - as * a.m01 }
  | .rotatePt angle px py =>
    let as := f.sin angle
    let ac := f.cos angle
    let tx := px - ac * px + as * py
    let ty := py - as * px - ac * py
    { m00 := as * a.m10 + ac * a.m00, m01 := as * a.m11 + ac * a.m01,
      m10 := ac * a.m10 - as * a.m00, m11 := ac * a.m11 - as * a.m01,
      m20 := tx * a.m00 + ty * a.m10 + a.m20, m21 := tx * a.m01 + ty * a.m11 + a.m21 }
  | .transform b =>
    { m00 := b.m00 * a.m00 + b.m01 * a.m10, m01 := b.m00 * a.m01 + b.m01 * a.m11,
      m10 := b.m10 * a.m00 + b.m11 * a.m10, m11 := b.m10 * a.m01 + b.m11 * a.m11,
      m20 := b.m20 * a.m00 + b.m21 * a.m10 + a.m20, m21 := b.m20 * a.m01 + b.m21 * a.m11 + a.m21 }
  | .postTranslate x y => { a with m20 := a.m20 + x, m21 := a.m21 + y }
  | .postScale x y =>
    { m00 := a.m00 * x, m01 := a.m01 * y, m10 := a.m10 * x, m11 := a.m11 * y, m20 := a.m20 * x, m21 := a.m21 * y }
  | .postSkew x y =>
    let xTan := f.tan x
    let yTan := f.tan y
    let t00 := a.m01 * xTan
    let t10 := a.m11 * xTan
    let t20 := a.m21 * xTan
    let a := { a with m01 := a.m01 + a.m00 * yTan, m11 := a.m11 + a.m10 * yTan, m21 := a.m21 + a.m20 * yTan }
    { a with m00 := a.m00 + t00, m10 := a.m10 + t10, m20 := a.m20 + t20 }
  | .postRotate angle =>
    let as := f.sin angle
    let ac := f.cos angle
    { m00 := a.m00 * ac - a.m01 * as, m01 := a.m00 * as + a.m01 * ac,
      m10 := a.m10 * ac - a.m11 * as, m11 := a.m10 * as + a.m11 * ac,
      m20 := a.m20 * ac - a.m21 * as, m21 := a.m20 * as + a.m21 * ac }
  | .postRotatePt angle px py =>
    let as := f.sin angle
    let ac := f.cos angle
    let t20 := a.m20 * ac - a.m21 * as
    let t21 := a.m20 * as + a.m21 * ac
    { m00 := a.m00 * ac - a.m01 * as, m01 := a.m00 * as + a.m01 * ac,
      m10 := a.m10 * ac - a.m11 * as, m11 := a.m10 * as + a.m11 * ac,
      m20 := t20 + px - ac * px + as * py, m21 := t21 + py - as * px - ac * py }
  | .postTransform b =>
    { m00 := a.m00 * b.m00 + a.m01 * b.m10, m01 := a.m00 * b.m01 + a.m01 * b.m11,
      m10 := a.m10 * b.m00 + a.m11 * b.m10, m11 := a.m10 * b.m01 + a.m11 * b.m11,
      m20 := a.m20 * b.m00 + a.m21 * b.m10 + b.m20, m21 := a.m20 * b.m01 + a.m21 * b.m11 + b.m21 }

/-- `TransformInternal::multiply`, `matrix_p.h:57-64`. -/
def multiply (a b : Mat K) : Mat K :=
  { m00 := a.m00 * b.m00 + a.m01 * b.m10, m01 := a.m00 * b.m01 + a.m01 * b.m11,
    m10 := a.m10 * b.m00 + a.m11 * b.m10, m11 := a.m10 * b.m01 + a.m11 * b.m11,
    m20 := a.m20 * b.m00 + a.m21 * b.m10 + b.m20, m21 := a.m20 * b.m01 + a.m21 * b.m11 + b.m21 }

/-- `determinant`, `matrix.h:346`. -/
def det (m : Mat K) : K := m.m00 * m.m11 - m.m01 * m.m10

/-- `bl_matrix2d_invert`, `matrix.cpp:442-464`; `none` is `BL_ERROR_INVALID_VALUE`. -/
def invert [DecidableEq K] (s : Mat K) : Option (Mat K) :=
  let d := s.m00 * s.m11 - s.m01 * s.m10
  if d = 0 then none
  else
    let t00 := s.m11 / d
    let t01 := -s.m01 / d
    let t10 := -s.m10 / d
    let t11 := s.m00 / d
    some { m00 := t00, m01 := t01, m10 := t10, m11 := t11,
           m20 := -(s.m20 * t00 + s.m21 * t10), m21 := -(s.m20 * t01 + s.m21 * t11) }

/-- `BLTransformType`, `matrix.h:25-43`. -/
inductive Ty
  | identity | translate | scale | swap | affine | invalid
deriving DecidableEq, Repr

/-- `valid_tab`, `matrix.cpp:163-178`; bit `value_msk`. -/
def validTab : Nat :=
  (0 <<< (0 ||| 0 ||| 0 ||| 0)) ||| (0 <<< (0 ||| 0 ||| 0 ||| 1)) |||
  (0 <<< (0 ||| 0 ||| 2 ||| 0)) ||| (1 <<< (0 ||| 0 ||| 2 ||| 1)) |||
  (0 <<< (0 ||| 4 ||| 0 ||| 0)) ||| (0 <<< (0 ||| 4 ||| 0 ||| 1)) |||
  (1 <<< (0 ||| 4 ||| 2 ||| 0)) ||| (1 <<< (0 ||| 4 ||| 2 ||| 1)) |||
  (0 <<< (8 ||| 0 ||| 0 ||| 0)) ||| (1 <<< (8 ||| 0 ||| 0 ||| 1)) |||
  (0 <<< (8 ||| 0 ||| 2 ||| 0)) ||| (1 <<< (8 ||| 0 ||| 2 ||| 1)) |||
  (1 <<< (8 ||| 4 ||| 0 ||| 0)) ||| (1 <<< (8 ||| 4 ||| 0 ||| 1)) |||
  (1 <<< (8 ||| 4 ||| 2 ||| 0)) ||| (1 <<< (8 ||| 4 ||| 2 ||| 1))

/-- `bl_matrix2d_get_type`, `matrix.cpp:131-212`. -/
def getType [DecidableEq K] (m : Mat K) : Ty :=
  let bit (x : K) (n : Nat) : Nat := if x ≠ 0 then 1 <<< n else 0
  let msk := bit m.m00 3 ||| bit m.m01 2 ||| bit m.m10 1 ||| bit m.m11 0
  if (1 <<< msk) &&& validTab = 0 then .invalid
  else if msk ≠ (8 ||| 1) then (if msk = (4 ||| 2) then .swap else .affine)
  else if ¬ (m.m00 = 1 ∧ m.m11 = 1) then .scale
  else if ¬ (m.m20 = 0 ∧ m.m21 = 0) then .translate
  else .identity

/-- The functions of `map_pointd_array_funcs` for one point, `matrix.cpp:26-91`, selected as in
`matrix.cpp:500-505`. -/
def mapTyped (t : Ty) (m : Mat K) (p : Pt K) : Pt K :=
  match t with
  | .identity => p
  | .translate => ⟨p.x + m.m20, p.y + m.m21⟩
  | .scale => ⟨p.x * m.m00 + m.m20, p.y * m.m11 + m.m21⟩
  | .swap => ⟨p.y * m.m10 + m.m20, p.x * m.m01 + m.m21⟩
  | .affine => ⟨p.x * m.m00 + p.y * m.m10 + m.m20, p.x * m.m01 + p.y * m.m11 + m.m21⟩
  | .invalid => ⟨p.x * m.m00 + p.y * m.m10 + m.m20, p.x * m.m01 + p.y * m.m11 + m.m21⟩

/-- `BL_MATRIX_TYPE_MINIMUM_SIZE`, `api-internal_p.h:553`. -/
def minTypeSize : Nat := 16

/-- `bl_matrix2d_map_pointd_array`, `matrix.cpp:468-475`, the portable functions. -/
def mapArray [DecidableEq K] (m : Mat K) (src : List (Pt K)) : List (Pt K) :=
  let t := if src.length ≥ minTypeSize then getType m else .affine
  src.map (mapTyped t m)

/-! ### SSE2 variant -/

/-- A vector register with two `double`s: low lane `x`, high lane `y`. -/
def vmul (a b : Pt K) : Pt K := ⟨a.x * b.x, a.y * b.y⟩
/-- Lane-wise addition. -/
def vadd (a b : Pt K) : Pt K := ⟨a.x + b.x, a.y + b.y⟩
/-- `swap_f64`. -/
def vswap (a : Pt K) : Pt K := ⟨a.y, a.x⟩
/-- `make128_f64(x1, x0)`. -/
def make128 (x1 x0 : K) : Pt K := ⟨x0, x1⟩

/-- What the SSE2 functions compute for one point, `matrix_sse2.cpp:22-305`. -/
def mapTypedSse (t : Ty) (m : Mat K) (p : Pt K) : Pt K :=
  let m11_m00 := make128 m.m11 m.m00
  let m01_m10 := make128 m.m01 m.m10
  let m21_m20 : Pt K := ⟨m.m20, m.m21⟩
  match t with
  | .identity => p
  | .translate => vadd p m21_m20
  | .scale => vadd (vmul p m11_m00) m21_m20
  | .swap => vadd (vmul (vswap p) m01_m10) m21_m20
  | .affine => vadd (vadd (vmul p m11_m00) (vmul (vswap p) m01_m10)) m21_m20
  | .invalid => vadd (vadd (vmul p m11_m00) (vmul (vswap p) m01_m10)) m21_m20

/-- The loops of the SSE2 functions: four points at a time, then one by one. -/
def mapLoopSse (f : Pt K → Pt K) : List (Pt K) → List (Pt K)
  | a :: b :: c :: d :: r => f a :: f b :: f c :: f d :: mapLoopSse f r
  | a :: r => f a :: mapLoopSse f r
  | [] => []

/-- `bl_matrix2d_map_pointd_array` with the SSE2 functions. -/
def mapArraySse [DecidableEq K] (m : Mat K) (src : List (Pt K)) : List (Pt K) :=
  let t := if src.length ≥ minTypeSize then getType m else .affine
  mapLoopSse (mapTypedSse t m) src

/-! ### Boxes -/

/-- `BLBox`. -/
structure Box (K : Type) where
  x0 : K
  y0 : K
  x1 : K
  y1 : K

variable [LinearOrder K]

/-- `map_box`, `matrix_p.h:31-46`. -/
def mapBox (t : Mat K) (s : Box K) : Box K :=
  let x0a := s.x0 * t.m00
  let y0a := s.y0 * t.m10
  let x1a := s.x1 * t.m00
  let y1a := s.y1 * t.m10
  let x0b := s.x0 * t.m01
  let y0b := s.y0 * t.m11
  let x1b := s.x1 * t.m01
  let y1b := s.y1 * t.m11
  ⟨min x0a x1a + min y0a y1a + t.m20, min x0b x1b + min y0b y1b + t.m21,
   max x0a x1a + max y0a y1a + t.m20, max x0b x1b + max y0b y1b + t.m21⟩

/-- `map_box_scaled_swapped`, `matrix_p.h:48-55`. -/
def mapBoxScaledSwapped (t : Mat K) (s : Box K) : Box K :=
  let x0 := s.x0 * t.m00 + s.y0 * t.m10 + t.m20
  let y0 := s.x0 * t.m01 + s.y0 * t.m11 + t.m21
  let x1 := s.x1 * t.m00 + s.y1 * t.m10 + t.m20
  let y1 := s.x1 * t.m01 + s.y1 * t.m11 + t.m21
  ⟨min x0 x1, min y0 y1, max x0 x1, max y0 y1⟩

end Blend2D.Matrix
