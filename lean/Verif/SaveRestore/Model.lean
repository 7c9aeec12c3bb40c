import Mathlib.Data.Rat.Floor
import Verif.Matrix.Model

/-!
# State of the raster rendering context, its setters, `save()` and `restore()`
(`raster/rastercontext.cpp`, `raster/statedata_p.h`, `raster/rasterdefs_p.h`)

Simplifications: `double` is an exact rational, so NaN does not occur (the `is_nan` checks never fire) and the
conversions to `int` do not overflow; the render target is 8 bits per component (`fp_scale_d = 256`,
`full_alpha_d = 255`, the only one `attach` selects, `rastercontext.cpp:4221`); a style object (gradient or pattern)
is an opaque number; the dash array is a value (its reference count is not modelled); `kSharedState...` bits are kept
beside `context_flags` (both `save` and `restore` mask them out, `rastercontext.cpp:1679-1680, 1756`), and
`kMTFullOrExhausted` is not modelled.  `none` is undefined behaviour (null dereference, out of bounds write, use or
release of a destroyed object).
-/

namespace Blend2D.SaveRestore

open Blend2D.Matrix (Mat Trig Ty Box)

/-! ### Flags -/

/-- `ContextFlags`, `rasterdefs_p.h:64-190`: the value of each bit. -/
abbrev Flags := Nat → Bool

namespace Bit
/-- `kNoGlobalAlpha`, `rasterdefs_p.h:80`. -/
abbrev noGlobalAlpha := 3
/-- `kNoBaseAlpha`, `rasterdefs_p.h:83` (`kNoFillAlpha`, `kNoStrokeAlpha`). -/
abbrev noBaseAlpha := 4
/-- `kNoBaseStyle`, `rasterdefs_p.h:89` (`kNoFillStyle`, `kNoStrokeStyle`). -/
abbrev noBaseStyle := 6
/-- `kNoClipRect`, `rasterdefs_p.h:99`. -/
abbrev noClipRect := 8
/-- `kNoUserTransform`, `rasterdefs_p.h:106`. -/
abbrev noUserTransform := 11
/-- `kNoStrokeOptions`, `rasterdefs_p.h:111`. -/
abbrev noStrokeOptions := 12
/-- `kFetchDataBase`, `rasterdefs_p.h:139` (`kFetchDataFill`, `kFetchDataStroke`). -/
abbrev fetchBase := 14
/-- `kWeakStateClip`, `rasterdefs_p.h:152`. -/
abbrev weakClip := 21
/-- `kWeakStateBaseStyle`, `rasterdefs_p.h:154` (`kWeakStateFillStyle`, `kWeakStateStrokeStyle`). -/
abbrev weakBaseStyle := 22
/-- `kWeakStateConfig`, `rasterdefs_p.h:150` (written `0x001000000`, so the same bit as `kWeakStateInvalidStyle`). -/
abbrev weakConfig := 24
/-- `kWeakStateStrokeOptions`, `rasterdefs_p.h:162`. -/
abbrev weakStroke := 25
/-- `kWeakStateMetaTransform`, `rasterdefs_p.h:164`. -/
abbrev weakMeta := 26
/-- `kWeakStateUserTransform`, `rasterdefs_p.h:166`. -/
abbrev weakUser := 27
/-- `kInfoIntegralTranslation`, `rasterdefs_p.h:171`. -/
abbrev integral := 28
end Bit

/-- `flags & ~bits`. -/
def Flags.clear (f : Flags) (l : List Nat) : Flags := fun i => f i && !l.contains i

/-- `flags | bits`. -/
def Flags.set (f : Flags) (l : List Nat) : Flags := fun i => f i || l.contains i

/-- `if (b) flags |= bit`. -/
def Flags.setIf (f : Flags) (b : Bool) (i : Nat) : Flags := if b then f.set [i] else f

/-- `(flags & ~m) | ((flags >> 1) & m) | ((flags << 1) & m)`, `rastercontext.cpp:1981, 1990`. -/
def Flags.swapBits (f : Flags) (m : List Nat) : Flags := fun i =>
  (f i && !m.contains i) || (f (i + 1) && m.contains i) || (decide (1 ≤ i) && f (i - 1) && m.contains i)

/-! ### Values -/

/-- An array indexed by `BLContextStyleSlot`; `false` is the fill slot, `true` the stroke slot. -/
structure Two (α : Type) where
  fill : α
  stroke : α
deriving DecidableEq

/-- `a[slot]`. -/
def Two.get {α} (t : Two α) : Bool → α
  | false => t.fill
  | true => t.stroke

/-- `a[slot] = v`. -/
def Two.set {α} (t : Two α) (b : Bool) (v : α) : Two α :=
  match b with
  | false => { t with fill := v }
  | true => { t with stroke := v }

/-- `BLInternal::swap(a[0], a[1])`. -/
def Two.swap {α} (t : Two α) : Two α := ⟨t.stroke, t.fill⟩

/-- `BLContextHints`, `context.h` (rendering, gradient and pattern quality). -/
structure Hints where
  rendering : Nat
  gradient : Nat
  pattern : Nat
deriving DecidableEq

/-- `BLApproximationOptions`, `path.h`. -/
structure Approx where
  flattenMode : Nat
  offsetMode : Nat
  flattenTolerance : ℚ
  simplifyTolerance : ℚ
  offsetParameter : ℚ
deriving DecidableEq

/-- `BLStrokeOptions`, `path.h:325-360`. -/
structure Stroke where
  startCap : Nat
  endCap : Nat
  join : Nat
  transformOrder : Nat
  width : ℚ
  miterLimit : ℚ
  dashOffset : ℚ
  dashArray : List ℚ
deriving DecidableEq

/-- `StyleData`, `styledata_p.h:21-83`: either the embedded solid colour (as passed by the user) or a pointer to
`RenderFetchData` together with the adjusted transform. -/
inductive Style
  | solid (value : Nat)
  | object (fd : Nat) (adjusted : Mat ℚ)
deriving DecidableEq

/-- `BLBoxI`. -/
structure BoxI where
  x0 : Int
  y0 : Int
  x1 : Int
  y1 : Int
deriving DecidableEq

/-- `transform_types_packed`, `statedata_p.h:25-44`. -/
structure Types where
  finalFixed : Ty
  metaFixed : Ty
  finalT : Ty
  metaT : Ty
deriving DecidableEq

/-- `SavedState`, `statedata_p.h:83-149`. -/
structure Saved where
  stateId : Nat
  hints : Hints
  compOp : Nat
  fillRule : Nat
  styleType : Two Nat
  clipMode : Nat
  prevFlags : Flags
  types : Types
  globalAlphaI : Int
  styleAlphaI : Two Int
  globalAlpha : ℚ
  styleAlpha : Two ℚ
  style : Two Style
  approx : Approx
  stroke : Stroke
  clipD : Box ℚ
  translationI : Int × Int
  altTransform : Mat ℚ
  userTransform : Mat ℚ

/-- The members of `BLRasterContextImpl` that make the rendering state: `BLContextState`, `RasterContextState`
(`statedata_p.h:22-77`), `context_flags`, `clip_mode`, the clip box of the edge builder and the list `saved_state`. -/
structure Core where
  hints : Hints
  compOp : Nat
  fillRule : Nat
  styleType : Two Nat
  style : Two Style
  clipMode : Nat
  flags : Flags
  types : Types
  globalAlphaI : Int
  styleAlphaI : Two Int
  globalAlpha : ℚ
  styleAlpha : Two ℚ
  translationI : Int × Int
  approx : Approx
  tolFixed : ℚ
  stroke : Stroke
  user : Mat ℚ
  metaT : Mat ℚ
  finalT : Mat ℚ
  metaFixed : Mat ℚ
  finalFixed : Mat ℚ
  clipD : Box ℚ
  clipI : BoxI
  clipFixed : Box ℚ
  saved : List Saved

/-- `Matrix2x2`, `statedata_p.h:151`: the linear part of a matrix. -/
structure Mat2 where
  a : ℚ
  b : ℚ
  c : ℚ
  d : ℚ
deriving DecidableEq

/-- The linear part of a matrix. -/
def lin (m : Mat ℚ) : Mat2 := ⟨m.m00, m.m01, m.m10, m.m11⟩

/-- `SharedFillState`, `statedata_p.h:156-160`. -/
structure SharedFill where
  clipFixed : Box ℚ
  finalFixed : Mat2
  tolFixed : ℚ

/-- `SharedBaseStrokeState` and `SharedExtendedStrokeState`, `statedata_p.h:163-180`; `ext` is the extension. -/
structure SharedStroke where
  stroke : Stroke
  approx : Approx
  ext : Option (Mat2 × Mat2)
deriving DecidableEq

/-- The context: its state, the reference counts of `RenderFetchData` (0: free) with the style object each holds, the
saved state counters and the shared states of asynchronous rendering with their `kSharedState...` flags. -/
structure Ctx where
  core : Core
  rc : Nat → Nat
  obj : Nat → Nat
  savedCount : Nat
  idCounter : Nat
  fillShared : Bool
  strokeBaseShared : Bool
  strokeExtShared : Bool
  fillState : Option SharedFill
  strokeState : Option SharedStroke

/-- Parameters of the context: `sin`, `cos`, `tan`, `Math::round_to_int`, the check for an integral translation of
`rastercontext.cpp:777-794`, the size of the target, `saved_state_limit` and `context_origin_id`. -/
structure Env where
  trig : Trig ℚ
  round : ℚ → Int
  integral : Mat ℚ → Option (Int × Int)
  w : Nat
  h : Nat
  limit : Nat
  origin : Nat

/-- `BLResult`. -/
inductive Res
  | ok | invalidValue | tooManySavedStates | noStatesToRestore | noMatchingCookie | outOfMemory
deriving DecidableEq, Repr

/-! ### Helpers -/

/-- `fp_scale_d`, `rendertargetinfo.cpp:18-36`. -/
def fpScale : ℚ := 256

/-- `post_scale(fp_scale_d)`. -/
def toFixed (m : Mat ℚ) : Mat ℚ :=
  { m00 := m.m00 * fpScale, m01 := m.m01 * fpScale, m10 := m.m10 * fpScale, m11 := m.m11 * fpScale,
    m20 := m.m20 * fpScale, m21 := m.m21 * fpScale }

/-- `box * fp_scale_d`. -/
def boxFixed (b : Box ℚ) : Box ℚ := ⟨b.x0 * fpScale, b.y0 * fpScale, b.x1 * fpScale, b.y1 * fpScale⟩

/-- `Math::trunc_to_int`. -/
def truncInt (x : ℚ) : Int := if 0 ≤ x then ⌊x⌋ else ⌈x⌉

/-- `restore_clipping_from_state`, the integer box, `rastercontext.cpp:834-838`. -/
def boxToI (b : Box ℚ) : BoxI := ⟨truncInt b.x0, truncInt b.y0, ⌈b.x1⌉, ⌈b.y1⌉⟩

/-- `bl_max<uint32_t>(type, BL_TRANSFORM_TYPE_SCALE)`, `rastercontext.cpp:773`. -/
def fixedType : Ty → Ty
  | .identity => .scale
  | .translate => .scale
  | t => t

/-- `bl_clamp(alpha, lo, hi)`. -/
def clamp (x lo hi : ℚ) : ℚ := min (max x lo) hi

/-- Replaces the top saved state. -/
def Core.modTop (c : Core) (f : Saved → Saved) : Core :=
  { c with saved := match c.saved with
      | [] => []
      | s :: rest => f s :: rest }

/-! ### Configuration -/

/-- `on_before_config_change`, `rastercontext.cpp:201-206`. -/
def onBeforeConfigChange (c : Core) : Option Core :=
  if c.flags Bit.weakConfig then
    if c.saved.isEmpty then none else some (c.modTop fun s => { s with approx := c.approx })
  else some c

/-- `on_after_flatten_tolerance_changed`, `rastercontext.cpp:208-211`. -/
def onAfterFlattenToleranceChanged (c : Core) : Core :=
  { c with tolFixed := c.approx.flattenTolerance * fpScale }

/-! ### Styles -/

/-- `--ref_count; if zero destroy`, `renderfetchdata_p.h:188-191`. -/
def release (c : Ctx) (fd : Nat) : Option Ctx :=
  if c.rc fd = 0 then none else some { c with rc := fun i => if i = fd then c.rc i - 1 else c.rc i }

/-- `ref_count++` of the style in a slot; of a solid style it changes a field nobody reads. -/
def retainStyle (c : Ctx) : Style → Option Ctx
  | .solid _ => some c
  | .object fd _ => if c.rc fd = 0 then none else some { c with rc := fun i => if i = fd then c.rc i + 1 else c.rc i }

/-- `destroy_valid_style`, `rastercontext.cpp:235-238`. -/
def destroyStyle (c : Ctx) : Style → Option Ctx
  | .solid _ => none
  | .object fd _ => release c fd

/-- The bit of a slot. -/
abbrev slotBit (base : Nat) (s : Bool) : Nat := base + (if s then 1 else 0)

/-- `saved_state->style[slot].copy_from(style)`. -/
def saveStyle (c : Core) (s : Bool) : Option Core :=
  if c.saved.isEmpty then none
  else some (c.modTop fun t => { t with style := t.style.set s (c.style.get s) })

/-- `on_before_style_change`, `rastercontext.cpp:240-254`. -/
def onBeforeStyleChange (c : Ctx) (s : Bool) : Option Ctx :=
  if c.core.flags (slotBit Bit.fetchBase s) && !c.core.flags (slotBit Bit.weakBaseStyle s) then
    destroyStyle c (c.core.style.get s)
  else (saveStyle c.core s).map fun k => { c with core := k }

/-- The check of a slot by the style setters, `rastercontext.cpp:548-554`: a slot out of range is only noticed when
the bits `kWeakStateBaseStyle << 2` or `kFetchDataBase << 2` happen to be set. -/
def invalidSlot (c : Ctx) : Option (Ctx × Res) :=
  if c.core.flags (Bit.weakBaseStyle + 2) || c.core.flags (Bit.fetchBase + 2) then some (c, .invalidValue) else none

/-- `if (bl_test_flag(context_flags, style_flags)) on_before_style_change(...)`. -/
def beforeStyle (c : Ctx) (s : Bool) : Option Ctx :=
  if c.core.flags (slotBit Bit.weakBaseStyle s) || c.core.flags (slotBit Bit.fetchBase s) then
    onBeforeStyleChange c s
  else some c

/-- The slot as an index. -/
def slotOf : Nat → Option Bool
  | 0 => some false
  | 1 => some true
  | _ => none

/-- `disable_style_impl`, `rastercontext.cpp:545-559`. -/
def disableStyle (c : Ctx) (slot : Nat) : Option (Ctx × Res) :=
  match slotOf slot with
  | none => invalidSlot c
  | some s => (beforeStyle c s).map fun c' =>
      ({ c' with core := { c'.core with
          flags := (c.core.flags.clear [slotBit Bit.weakBaseStyle s, slotBit Bit.fetchBase s]).set [slotBit Bit.noBaseStyle s],
          styleType := c'.core.styleType.set s 3 } }, .ok)

/-- `set_style_rgba32_impl`, `set_style_rgba64_impl`, `set_style_rgba_impl`, `rastercontext.cpp:561-651`; `ty` is the
object type (0, 1 or 2). -/
def setSolid (c : Ctx) (slot ty value : Nat) : Option (Ctx × Res) :=
  match slotOf slot with
  | none => invalidSlot c
  | some s => (beforeStyle c s).map fun c' =>
      ({ c' with core := { c'.core with
          flags := c.core.flags.clear [slotBit Bit.weakBaseStyle s, slotBit Bit.fetchBase s, slotBit Bit.noBaseStyle s],
          styleType := c'.core.styleType.set s ty,
          style := c'.core.style.set s (.solid value) } }, .ok)

/-- `transform_ptrs[transform_mode]` and `transform_types[transform_mode]`. -/
def baseTransform (c : Core) : Nat → Mat ℚ × Ty
  | 0 => (c.finalT, c.types.finalT)
  | 1 => (c.metaT, c.types.metaT)
  | _ => (Matrix.identity, .identity)

/-- `set_style_impl` of a gradient or pattern with `NonSolidFetchStateApplier`, `rastercontext.cpp:307-338, 660-694`.
`fd` is the result of `alloc_fetch_data`; `nop` tells whether `init_non_solid_fetch_data` finds nothing to paint. -/
def setObject (c : Ctx) (slot ty obj : Nat) (t : Mat ℚ) (mode : Nat) (nop : Bool) (fd : Option Nat) :
    Option (Ctx × Res) :=
  match slotOf slot with
  | none => some (c, .invalidValue)
  | some s =>
    match fd with
    | none => some (c, .outOfMemory)
    | some fd => (beforeStyle c s).map fun c' =>
        let base := baseTransform c.core mode
        let f := c.core.flags.clear [slotBit Bit.fetchBase s, slotBit Bit.weakBaseStyle s, slotBit Bit.noBaseStyle s]
        let f := (f.set [slotBit Bit.fetchBase s]).setIf (nop || base.2 = .invalid) (slotBit Bit.noBaseStyle s)
        ({ c' with
            core := { c'.core with
              flags := f
              styleType := c'.core.styleType.set s ty
              style := c'.core.style.set s (.object fd (Matrix.multiply t base.1)) }
            rc := fun i => if i = fd then 1 else c'.rc i
            obj := fun i => if i = fd then obj else c'.obj i }, .ok)

/-- One slot of the state saving part of `swap_styles_impl`, `rastercontext.cpp:1960-1970`; `weak` is the weak flag of
the slot and `fetch` the flag that decides whether the reference count is increased. -/
def swapSave (c : Ctx) (s : Bool) (weak fetch : Bool) : Option Ctx :=
  if weak then
    match saveStyle c.core s with
    | none => none
    | some k => if fetch then retainStyle { c with core := k } (c.core.style.get s) else some { c with core := k }
  else some c

/-- `swap_styles_impl`, `rastercontext.cpp:1942-1995`. -/
def swapStyles (c : Ctx) (mode : Nat) : Option (Ctx × Res) :=
  if mode > 1 then some (c, .invalidValue)
  else
    let f := c.core.flags
    match swapSave c false (f Bit.weakBaseStyle) (f Bit.fetchBase) with
    | none => none
    | some c1 =>
      match swapSave c1 true (f (Bit.weakBaseStyle + 1)) (f Bit.fetchBase) with
      | none => none
      | some c2 =>
        let f := f.clear [Bit.weakBaseStyle, Bit.weakBaseStyle + 1]
        let f := f.swapBits [Bit.noBaseStyle, Bit.noBaseStyle + 1, Bit.fetchBase, Bit.fetchBase + 1]
        let k := { c2.core with style := c2.core.style.swap, styleType := c2.core.styleType.swap }
        let k := if mode = 1 then
            { k with styleAlpha := k.styleAlpha.swap, styleAlphaI := k.styleAlphaI.swap,
                     flags := f.swapBits [Bit.noBaseAlpha, Bit.noBaseAlpha + 1] }
          else { k with flags := f }
        some ({ c2 with core := k }, .ok)

/-! ### Stroke options -/

/-- `on_before_stroke_change`, `rastercontext.cpp:700-706`, and
`on_before_stroke_change_and_destroy_dash_array`, `rastercontext.cpp:708-716`. -/
def onBeforeStrokeChange (c : Core) : Option Core :=
  if c.flags Bit.weakStroke then
    if c.saved.isEmpty then none else some (c.modTop fun s => { s with stroke := c.stroke })
  else some c

/-- The setters of stroke options, `rastercontext.cpp:2059-2166`: `clears` lists the bits each of them clears. -/
def setStroke (c : Ctx) (clears : List Nat) (upd : Stroke → Stroke) : Option (Ctx × Res) :=
  (onBeforeStrokeChange c.core).map fun k =>
    ({ c with core := { k with flags := k.flags.clear clears, stroke := upd k.stroke }, strokeBaseShared := false }, .ok)

/-- Which stroke option is set, with the new value. -/
inductive StrokeOp
  | width (x : ℚ)
  | miterLimit (x : ℚ)
  | cap (position cap : Nat)
  | caps (cap : Nat)
  | join (j : Nat)
  | dashOffset (x : ℚ)
  | dashArray (l : List ℚ)
  | transformOrder (o : Nat)
  | options (o : Stroke)

/-- The setters of stroke options, `rastercontext.cpp:2059-2166`. -/
def strokeOp (c : Ctx) : StrokeOp → Option (Ctx × Res)
  | .width x => setStroke c [Bit.noStrokeOptions, Bit.weakStroke] fun s => { s with width := x }
  | .miterLimit x => setStroke c [Bit.noStrokeOptions, Bit.weakStroke] fun s => { s with miterLimit := x }
  | .cap p v =>
    if p > 1 ∨ v > 5 then some (c, .invalidValue)
    else setStroke c [] fun s => if p = 0 then { s with startCap := v } else { s with endCap := v }
  | .caps v =>
    if v > 5 then some (c, .invalidValue) else setStroke c [] fun s => { s with startCap := v, endCap := v }
  | .join v => if v > 4 then some (c, .invalidValue) else setStroke c [] fun s => { s with join := v }
  | .dashOffset x => setStroke c [Bit.noStrokeOptions, Bit.weakStroke] fun s => { s with dashOffset := x }
  | .dashArray l => setStroke c [Bit.noStrokeOptions, Bit.weakStroke] fun s => { s with dashArray := l }
  | .transformOrder v =>
    if v > 1 then some (c, .invalidValue) else setStroke c [Bit.weakStroke] fun s => { s with transformOrder := v }
  | .options o =>
    if o.startCap > 5 ∨ o.endCap > 5 ∨ o.join > 4 ∨ o.transformOrder > 1 then some (c, .invalidValue)
    else setStroke c [Bit.noStrokeOptions, Bit.weakStroke] fun _ => o

/-! ### Transformations -/

/-- `on_before_user_transform_change`, `rastercontext.cpp:726-743`. -/
def onBeforeUserTransformChange (c : Core) : Option Core :=
  if c.flags Bit.weakUser then
    if c.saved.isEmpty then none
    else some (c.modTop fun s => { s with altTransform := c.finalT, userTransform := c.user })
  else some c

/-- `update_final_transform`, `rastercontext.cpp:745-747`. -/
def updateFinalTransform (c : Core) : Core := { c with finalT := Matrix.multiply c.user c.metaT }

/-- `update_meta_transform_fixed`, `rastercontext.cpp:749-752`. -/
def updateMetaTransformFixed (c : Core) : Core := { c with metaFixed := toFixed c.metaT }

/-- `update_final_transform_fixed`, `rastercontext.cpp:754-757`. -/
def updateFinalTransformFixed (c : Core) : Core := { c with finalFixed := toFixed c.finalT }

/-- `on_after_user_transform_changed`, `rastercontext.cpp:762-812`, without the shared state. -/
def onAfterUserTransformChanged (e : Env) (c : Core) : Core :=
  let f := c.flags.clear [Bit.noUserTransform, Bit.integral, Bit.weakUser]
  let c := updateFinalTransformFixed (updateFinalTransform c)
  let t := Matrix.getType c.finalT
  let c := { c with types := { c.types with finalT := t, finalFixed := fixedType t } }
  let tr := if t = .identity ∨ t = .translate then e.integral c.finalFixed else none
  let f := f.setIf tr.isSome Bit.integral
  let c := { c with translationI := tr.getD c.translationI }
  { c with flags := f.setIf (t = .invalid) Bit.noUserTransform }

/-- `apply_transform_op_impl`, `rastercontext.cpp:1763-1772`; `none` is an operation `bl_matrix2d_apply_op` refuses. -/
def applyTransformOp (e : Env) (c : Ctx) (op : Option (Matrix.Op ℚ)) : Option (Ctx × Res) :=
  (onBeforeUserTransformChange c.core).map fun k =>
    match op with
    | none => ({ c with core := k }, .invalidValue)
    | some op =>
      let k' := onAfterUserTransformChanged e { k with user := Matrix.applyOp e.trig k.user op }
      let keep : Bool := lin c.core.finalT = lin k'.finalT
      ({ c with core := k', fillShared := c.fillShared && keep, strokeExtShared := c.strokeExtShared && keep }, .ok)

/-- `user_to_meta_impl`, the saving of transformations, `rastercontext.cpp:1777-1786`. -/
def onBeforeUserToMeta (k : Core) : Option Core :=
  if k.flags Bit.weakMeta || k.flags Bit.weakUser then
    if k.saved.isEmpty then none
    else some (k.modTop fun s => { s with
      altTransform := k.metaT
      userTransform := if k.flags Bit.weakUser then k.user else s.userTransform })
  else some k

/-- `user_to_meta_impl`, the new transformations, `rastercontext.cpp:1788-1799`. -/
def afterUserToMeta (k : Core) : Core :=
  { k with
    flags := k.flags.clear [Bit.weakMeta, Bit.weakUser]
    user := Matrix.identity
    metaT := k.finalT
    metaFixed := k.finalFixed
    types := { k.types with metaT := k.types.finalT, metaFixed := k.types.finalFixed } }

/-- `user_to_meta_impl`, `rastercontext.cpp:1774-1800`. -/
def userToMeta (c : Ctx) : Option (Ctx × Res) :=
  (onBeforeUserToMeta c.core).map fun k => ({ c with core := afterUserToMeta k, strokeExtShared := false }, .ok)

/-! ### Hints, approximation, alpha, composition -/

/-- `set_hint_impl`, `rastercontext.cpp:1805-1833`. -/
def setHint (c : Ctx) (hint value : Nat) : Option (Ctx × Res) :=
  match hint with
  | 0 => if value > 0 then some (c, .invalidValue)
    else some ({ c with core := { c.core with hints := { c.core.hints with rendering := value } } }, .ok)
  | 1 => if value > 2 then some (c, .invalidValue)
    else some ({ c with core := { c.core with hints := { c.core.hints with gradient := value } } }, .ok)
  | 2 => if value > 1 then some (c, .invalidValue)
    else some ({ c with core := { c.core with hints := { c.core.hints with pattern := value } } }, .ok)
  | _ => some (c, .invalidValue)

/-- `set_hints_impl`, `rastercontext.cpp:1835-1850`. -/
def setHints (c : Ctx) (h : Hints) : Option (Ctx × Res) :=
  if h.rendering > 0 ∨ h.pattern > 1 ∨ h.gradient > 2 then some (c, .invalidValue)
  else some ({ c with core := { c.core with hints := h } }, .ok)

/-- `set_flatten_mode_impl`, `rastercontext.cpp:1855-1866`. -/
def setFlattenMode (c : Ctx) (mode : Nat) : Option (Ctx × Res) :=
  if mode > 1 then some (c, .invalidValue)
  else (onBeforeConfigChange c.core).map fun k =>
    ({ c with core := { k with flags := k.flags.clear [Bit.weakConfig], approx := { k.approx with flattenMode := mode } } }, .ok)

/-- `set_flatten_tolerance_impl`, `rastercontext.cpp:1868-1884`. -/
def setFlattenTolerance (c : Ctx) (tol : ℚ) : Option (Ctx × Res) :=
  (onBeforeConfigChange c.core).map fun k =>
    let k := { k with flags := k.flags.clear [Bit.weakConfig],
                      approx := { k.approx with flattenTolerance := clamp tol (1 / 100) (1 / 2) } }
    ({ c with core := onAfterFlattenToleranceChanged k, fillShared := false }, .ok)

/-- `set_approximation_options_impl`, `rastercontext.cpp:1886-1915`. -/
def setApproximationOptions (c : Ctx) (o : Approx) : Option (Ctx × Res) :=
  if o.flattenMode > 1 ∨ o.offsetMode > 1 then some (c, .invalidValue)
  else (onBeforeConfigChange c.core).map fun k =>
    let k := { k with flags := k.flags.clear [Bit.weakConfig],
                      approx := { k.approx with
                        flattenMode := o.flattenMode
                        offsetMode := o.offsetMode
                        flattenTolerance := clamp o.flattenTolerance (1 / 100) (1 / 2)
                        offsetParameter := o.offsetParameter } }
    ({ c with core := onAfterFlattenToleranceChanged k, fillShared := false }, .ok)

/-- `set_style_alpha_impl`, `rastercontext.cpp:1920-1939`. -/
def setStyleAlpha (e : Env) (c : Ctx) (slot : Nat) (alpha : ℚ) : Option (Ctx × Res) :=
  match slotOf slot with
  | none => some (c, .invalidValue)
  | some s =>
    let a := clamp alpha 0 1
    let ai := e.round (c.core.globalAlpha * 255 * a)
    let f := (c.core.flags.clear [slotBit Bit.noBaseAlpha s]).setIf (ai = 0) (slotBit Bit.noBaseAlpha s)
    some ({ c with core := { c.core with
      styleAlpha := c.core.styleAlpha.set s a, styleAlphaI := c.core.styleAlphaI.set s ai, flags := f } }, .ok)

/-- `set_global_alpha_impl`, `rastercontext.cpp:2000-2029`. -/
def setGlobalAlpha (e : Env) (c : Ctx) (alpha : ℚ) : Option (Ctx × Res) :=
  let a := clamp alpha 0 1
  let d := a * 255
  let gi := e.round d
  let fi := e.round (d * c.core.styleAlpha.fill)
  let si := e.round (d * c.core.styleAlpha.stroke)
  let f := c.core.flags.clear [Bit.noGlobalAlpha, Bit.noBaseAlpha, Bit.noBaseAlpha + 1]
  let f := ((f.setIf (gi = 0) Bit.noGlobalAlpha).setIf (fi = 0) Bit.noBaseAlpha).setIf (si = 0) (Bit.noBaseAlpha + 1)
  some ({ c with core := { c.core with
    globalAlpha := a, globalAlphaI := gi, styleAlphaI := ⟨fi, si⟩, flags := f } }, .ok)

/-- `set_comp_op_impl`, `rastercontext.cpp:2031-2041`. -/
def setCompOp (c : Ctx) (op : Nat) : Option (Ctx × Res) :=
  if op > 28 then some (c, .invalidValue) else some ({ c with core := { c.core with compOp := op } }, .ok)

/-- `set_fill_rule_impl`, `rastercontext.cpp:2046-2054`. -/
def setFillRule (c : Ctx) (r : Nat) : Option (Ctx × Res) :=
  if r > 1 then some (c, .invalidValue) else some ({ c with core := { c.core with fillRule := r } }, .ok)

/-! ### Clipping -/

/-- `on_before_clip_box_change`, `rastercontext.cpp:817-822`. -/
def onBeforeClipBoxChange (c : Core) : Option Core :=
  if c.flags Bit.weakClip then
    if c.saved.isEmpty then none else some (c.modTop fun s => { s with clipD := c.clipD })
  else some c

/-- `restore_clipping_from_state`, `rastercontext.cpp:831-846`. -/
def restoreClippingFromState (c : Core) (s : Saved) : Core :=
  { c with clipD := s.clipD, clipI := boxToI s.clipD, clipFixed := boxFixed s.clipD }

/-- `reset_clipping_to_meta_clip_box`, `rastercontext.cpp:824-829`. -/
def resetClippingToMeta (e : Env) (c : Core) : Core :=
  { c with clipI := ⟨0, 0, e.w, e.h⟩, clipD := ⟨0, 0, e.w, e.h⟩, clipFixed := boxFixed ⟨0, 0, e.w, e.h⟩ }

/-- `Geometry::intersect`, `geometry/commons_p.h:105-109`. -/
def intersect (a b : Box ℚ) : Box ℚ := ⟨max a.x0 b.x0, max a.y0 b.y0, min a.x1 b.x1, min a.y1 b.y1⟩

/-- `set_clip_box`, the integer box of the edge builder, `edgebuilder_p.h:913-919`. -/
def fixedI (b : Box ℚ) : BoxI := ⟨truncInt b.x0, truncInt b.y0, truncInt b.x1, truncInt b.y1⟩

/-- `clip_to_final_box` after `on_before_clip_box_change`, `rastercontext.cpp:2171-2205`. -/
def clipToFinalBox (c : Core) (b : Box ℚ) : Core :=
  let i := intersect c.clipD b
  let c :=
    if i.x0 < i.x1 ∧ i.y0 < i.y1 then
      let fi := fixedI (boxFixed i)
      { c with
        clipFixed := boxFixed i
        clipD := i
        clipI := ⟨fi.x0 / 256, fi.y0 / 256, (fi.x1 + 255) / 256, (fi.y1 + 255) / 256⟩
        clipMode := if fi.x0 % 256 = 0 ∧ fi.y0 % 256 = 0 ∧ fi.x1 % 256 = 0 ∧ fi.y1 % 256 = 0 then 0 else 1 }
    else
      { c with
        clipD := ⟨0, 0, 0, 0⟩
        clipI := ⟨0, 0, 0, 0⟩
        clipFixed := ⟨0, 0, 0, 0⟩
        flags := c.flags.set [Bit.noClipRect]
        clipMode := 0 }
  { c with flags := c.flags.clear [Bit.weakClip] }

/-- `clip_to_rect_d_impl`, `rastercontext.cpp:2207-2213`. -/
def clipToRectD (c : Ctx) (x y w h : ℚ) : Option (Ctx × Res) :=
  (onBeforeClipBoxChange c.core).map fun k =>
    ({ c with core := clipToFinalBox k (Matrix.mapBox c.core.finalT ⟨x, y, x + w, y + h⟩), fillShared := false }, .ok)

/-- `clip_to_rect_i_impl` after `on_before_clip_box_change`, `rastercontext.cpp:2231-2277`; the 32-bit branch computes
the same box unless it overflows, when it jumps to the 64-bit one. -/
def clipToBoxI (c : Core) (x y w h : Int) : Core :=
  let x0 := c.translationI.1 + x
  let y0 := c.translationI.2 + y
  let b : BoxI := ⟨max x0 c.clipI.x0, max y0 c.clipI.y0, min (x0 + w) c.clipI.x1, min (y0 + h) c.clipI.y1⟩
  let d : Box ℚ := ⟨b.x0, b.y0, b.x1, b.y1⟩
  let c :=
    if b.x0 < b.x1 ∧ b.y0 < b.y1 then { c with clipI := b, clipD := d, clipFixed := boxFixed d }
    else { c with clipI := ⟨0, 0, 0, 0⟩, clipD := d, clipFixed := ⟨0, 0, 0, 0⟩, flags := c.flags.set [Bit.noClipRect] }
  { c with flags := c.flags.clear [Bit.weakClip] }

/-- `clip_to_rect_i_impl`, `rastercontext.cpp:2215-2278`. -/
def clipToRectI (c : Ctx) (x y w h : Int) : Option (Ctx × Res) :=
  if c.core.clipMode ≠ 0 ∨ c.core.flags Bit.integral = false then clipToRectD c x y w h
  else (onBeforeClipBoxChange c.core).map fun k =>
    ({ c with core := clipToBoxI k x y w h, fillShared := false }, .ok)

/-- `restore_clipping_impl`, `rastercontext.cpp:2280-2301`. -/
def restoreClipping (e : Env) (c : Ctx) : Option (Ctx × Res) :=
  if c.core.flags Bit.weakClip = false then
    match c.core.saved with
    | s :: _ =>
      let k := restoreClippingFromState c.core s
      let f := (k.flags.clear [Bit.noClipRect, Bit.weakClip]).setIf (s.prevFlags Bit.noClipRect) Bit.noClipRect
      some ({ c with core := { k with clipMode := s.clipMode, flags := f }, fillShared := false }, .ok)
    | [] =>
      some ({ c with
        core := resetClippingToMeta e { c.core with flags := c.core.flags.clear [Bit.noClipRect] }
        fillShared := false }, .ok)
  else some (c, .ok)

/-! ### Save and restore -/

/-- `Traits::max_value<uint64_t>()`. -/
def idMax : Nat := 2 ^ 64 - 1

/-- `get_num_states_to_restore`, `rastercontext.cpp:1523-1534`; `n` counts from 1. -/
def numStatesToRestore (id : Nat) : Nat → List Saved → Nat
  | _, [] => 0
  | n, s :: rest => if s.stateId ≤ id then (if s.stateId = id then n else 0) else numStatesToRestore id (n + 1) rest

/-- `save_core_state`, `rastercontext.cpp:1538-1560`; the members it does not write are whatever the memory of the
saved state holds (`junk`). -/
def saveCoreState (c : Core) (junk : Saved) : Saved :=
  { junk with
    hints := c.hints, compOp := c.compOp, fillRule := c.fillRule, styleType := c.styleType, clipMode := c.clipMode
    prevFlags := c.flags, types := c.types, globalAlphaI := c.globalAlphaI, styleAlphaI := c.styleAlphaI
    globalAlpha := c.globalAlpha, styleAlpha := c.styleAlpha, translationI := c.translationI }

/-- `kWeakStateAllFlags`, `rasterdefs_p.h:168`. -/
def weakAll : List Nat := [20, 21, 22, 23, 24, 25, 26, 27]

/-- `save_impl`, `rastercontext.cpp:1623-1651`; `mem` is the result of `alloc_saved_state`. The cookie it returns is
`(context_origin_id, idCounter)`. -/
def save (e : Env) (c : Ctx) (cookie : Bool) (mem : Option Saved) : Option (Ctx × Res) :=
  if c.savedCount ≥ e.limit then some (c, .tooManySavedStates)
  else match mem with
  | none => some (c, .outOfMemory)
  | some junk =>
    let id := if cookie then (c.idCounter + 1) % 2 ^ 64 else idMax
    let s := { saveCoreState c.core junk with stateId := id }
    some ({ c with
      core := { c.core with saved := s :: c.core.saved, flags := c.core.flags.set weakAll }
      savedCount := c.savedCount + 1
      idCounter := if cookie then (c.idCounter + 1) % 2 ^ 64 else c.idCounter }, .ok)

/-- `restore_core_state`, `rastercontext.cpp:1562-1581`. -/
def restoreCoreState (c : Core) (s : Saved) : Core :=
  { c with
    hints := s.hints, compOp := s.compOp, fillRule := s.fillRule, styleType := s.styleType, clipMode := s.clipMode
    flags := s.prevFlags, types := s.types, globalAlphaI := s.globalAlphaI, styleAlphaI := s.styleAlphaI
    globalAlpha := s.globalAlpha, styleAlpha := s.styleAlpha, translationI := s.translationI }

/-- Restoring one style slot, `rastercontext.cpp:1700-1718`, without the reference count. -/
def restoreStyle (cur : Flags) (s : Saved) (b : Bool) (c : Core) : Core :=
  if cur (slotBit Bit.weakBaseStyle b) then c else { c with style := c.style.set b (s.style.get b) }

/-- Restoring transformations, `rastercontext.cpp:1728-1744`. -/
def restoreTransforms (cur : Flags) (s : Saved) (c : Core) : Core :=
  if cur Bit.weakUser then c
  else
    let c := { c with user := s.userTransform }
    if cur Bit.weakMeta then updateFinalTransformFixed { c with finalT := s.altTransform }
    else updateFinalTransformFixed (updateMetaTransformFixed (updateFinalTransform { c with metaT := s.altTransform }))

/-- The body of the loop of `restore_impl`, `rastercontext.cpp:1683-1750`, without reference counts. -/
def restoreTop (c : Core) : Core :=
  match c.saved with
  | [] => c
  | s :: rest =>
    let cur := c.flags
    let c := restoreCoreState c s
    let c := if cur Bit.weakConfig then c else onAfterFlattenToleranceChanged { c with approx := s.approx }
    let c := if cur Bit.weakClip then c else restoreClippingFromState c s
    let c := restoreStyle cur s false c
    let c := restoreStyle cur s true c
    let c := if cur Bit.weakStroke then c else { c with stroke := s.stroke }
    let c := restoreTransforms cur s c
    { c with saved := rest }

/-- The `release` of one style slot in the loop, `rastercontext.cpp:1704-1705, 1714-1715`. -/
def restoreRelease (c : Ctx) (b : Bool) : Option Ctx :=
  if !c.core.flags (slotBit Bit.weakBaseStyle b) && c.core.flags (slotBit Bit.fetchBase b) then
    destroyStyle c (c.core.style.get b)
  else some c

/-- The body of the loop of `restore_impl` including what happens to `context_flags_to_keep`. -/
def restoreStep (c : Ctx) : Option Ctx :=
  match restoreRelease c false with
  | none => none
  | some c1 =>
    match restoreRelease c1 true with
    | none => none
    | some c2 =>
      let f := c.core.flags
      some { c2 with
        core := restoreTop c.core
        fillShared := c.fillShared && f Bit.weakConfig && f Bit.weakClip && f Bit.weakUser
        strokeBaseShared := c.strokeBaseShared && f Bit.weakStroke && f Bit.weakUser
        strokeExtShared := c.strokeExtShared && f Bit.weakStroke && f Bit.weakUser }

/-- The loop of `restore_impl`, `rastercontext.cpp:1683-1754`. -/
def restoreLoop : Nat → Ctx → Option Ctx
  | 0, c => some c
  | n + 1, c => match restoreStep c with
    | none => none
    | some c => restoreLoop n c

/-- `restore_impl`, `rastercontext.cpp:1653-1758`; a cookie is `(origin, id)`. -/
def restore (e : Env) (c : Ctx) (cookie : Option (Nat × Nat)) : Option (Ctx × Res) :=
  match c.core.saved with
  | [] => some (c, .noStatesToRestore)
  | s :: _ =>
    match cookie with
    | some (origin, id) =>
      if origin ≠ e.origin then some (c, .noMatchingCookie)
      else
        let n := numStatesToRestore id 1 c.core.saved
        if n = 0 then some (c, .noMatchingCookie)
        else (restoreLoop n { c with savedCount := c.savedCount - n }).map fun c => (c, .ok)
    | none =>
      if s.stateId ≠ idMax then some (c, .noMatchingCookie)
      else (restoreLoop 1 { c with savedCount := c.savedCount - 1 }).map fun c => (c, .ok)

/-! ### States given to asynchronous render jobs -/

/-- `get_shared_fill_state`, `rastercontext.cpp:2339-2356`. -/
def getSharedFill (c : Ctx) : Ctx :=
  if c.fillShared then c
  else { c with
    fillState := some ⟨c.core.clipFixed, lin c.core.finalFixed, c.core.tolFixed⟩
    fillShared := true }

/-- `get_shared_stroke_state`, `rastercontext.cpp:2358-2383`. -/
def getSharedStroke (c : Ctx) : Ctx :=
  let ext : Bool := c.core.stroke.transformOrder ≠ 0
  if c.strokeBaseShared && (!ext || c.strokeExtShared) then c
  else { c with
    strokeState := some ⟨c.core.stroke, c.core.approx,
      if ext then some (lin c.core.user, lin c.core.metaFixed) else none⟩
    strokeBaseShared := true
    strokeExtShared := c.strokeExtShared || ext }

/-- `flush` of an asynchronous context, `rastercontext.cpp:1062-1069`. -/
def flush (c : Ctx) : Ctx :=
  { c with fillShared := false, strokeBaseShared := false, strokeExtShared := false,
           fillState := none, strokeState := none }

/-! ### Operations -/

/-- Calls on the context. -/
inductive Op
  | setHint (hint value : Nat)
  | setHints (h : Hints)
  | setFlattenMode (mode : Nat)
  | setFlattenTolerance (tol : ℚ)
  | setApproximationOptions (o : Approx)
  | setStyleAlpha (slot : Nat) (alpha : ℚ)
  | setGlobalAlpha (alpha : ℚ)
  | setCompOp (op : Nat)
  | setFillRule (r : Nat)
  | disableStyle (slot : Nat)
  | setSolid (slot ty value : Nat)
  | setObject (slot ty obj : Nat) (t : Mat ℚ) (mode : Nat) (nop : Bool) (fd : Option Nat)
  | swapStyles (mode : Nat)
  | stroke (o : StrokeOp)
  | transform (o : Option (Matrix.Op ℚ))
  | userToMeta
  | clipToRectD (x y w h : ℚ)
  | clipToRectI (x y w h : Int)
  | restoreClipping
  | save (cookie : Bool) (mem : Option Saved)
  | restore (cookie : Option (Nat × Nat))
  | fillJob
  | strokeJob
  | flush

/-- Executes one call. -/
def step (e : Env) (c : Ctx) : Op → Option (Ctx × Res)
  | .setHint h v => setHint c h v
  | .setHints h => setHints c h
  | .setFlattenMode m => setFlattenMode c m
  | .setFlattenTolerance t => setFlattenTolerance c t
  | .setApproximationOptions o => setApproximationOptions c o
  | .setStyleAlpha s a => setStyleAlpha e c s a
  | .setGlobalAlpha a => setGlobalAlpha e c a
  | .setCompOp o => setCompOp c o
  | .setFillRule r => setFillRule c r
  | .disableStyle s => disableStyle c s
  | .setSolid s t v => setSolid c s t v
  | .setObject s ty o t m n fd => setObject c s ty o t m n fd
  | .swapStyles m => swapStyles c m
  | .stroke o => strokeOp c o
  | .transform o => applyTransformOp e c o
  | .userToMeta => userToMeta c
  | .clipToRectD x y w h => clipToRectD c x y w h
  | .clipToRectI x y w h => clipToRectI c x y w h
  | .restoreClipping => restoreClipping e c
  | .save k m => save e c k m
  | .restore k => restore e c k
  | .fillJob => some (getSharedFill c, .ok)
  | .strokeJob => some (getSharedStroke (getSharedFill c), .ok)
  | .flush => some (SaveRestore.flush c, .ok)

/-- The state `attach` creates, `rastercontext.cpp:4331-4432`. -/
def init (e : Env) : Ctx where
  core :=
    { hints := ⟨0, 0, 1⟩
      compOp := 0
      fillRule := 0
      styleType := ⟨1, 1⟩
      style := ⟨.solid 0xFF000000, .solid 0xFF000000⟩
      clipMode := 0
      flags := fun i => i = Bit.integral
      types := ⟨.scale, .scale, .translate, .translate⟩
      globalAlphaI := 255
      styleAlphaI := ⟨255, 255⟩
      globalAlpha := 1
      styleAlpha := ⟨1, 1⟩
      translationI := (0, 0)
      approx := ⟨0, 0, 1 / 5, 1 / 20, 414213562 / 1000000000⟩
      tolFixed := 1 / 5 * fpScale
      stroke := ⟨0, 0, 0, 0, 1, 4, 0, []⟩
      user := Matrix.identity
      metaT := Matrix.identity
      finalT := Matrix.identity
      metaFixed := toFixed Matrix.identity
      finalFixed := toFixed Matrix.identity
      clipD := ⟨0, 0, e.w, e.h⟩
      clipI := ⟨0, 0, e.w, e.h⟩
      clipFixed := boxFixed ⟨0, 0, e.w, e.h⟩
      saved := [] }
  rc := fun _ => 0
  obj := fun _ => 0
  savedCount := 0
  idCounter := 0
  fillShared := false
  strokeBaseShared := false
  strokeExtShared := false
  fillState := none
  strokeState := none

end Blend2D.SaveRestore
