import Mathlib.Data.Rat.Floor

/-!
# Fetching pixels of a pattern (`pipeline/pipedefs.cpp`, `pipeline/reference/fetchgeneric_p.h`)

Addresses are byte offsets from the pixel data of the image.  64-bit integers are unbounded here (all of them stay far
below 2^63); 32-bit ones wrap where the code computes with 32 bits.  `double` is an exact rational.
-/

namespace Blend2D.Pattern

/-- Conversion to `int32_t`. -/
def toI32 (x : Int) : Int := Int.bmod x (2 ^ 32)

/-- Conversion to `uint32_t`. -/
def toU32 (x : Int) : Int := x % 2 ^ 32

/-- `FetchData::Pattern`, source image and the simple part with `VertExtendData`, `pipedefs_p.h:863-925`. -/
structure Data where
  w : Int
  h : Int
  stride : Int
  tx : Int
  ty : Int
  rx : Int
  ry : Int
  yRewind : Int
  ptrRewind : Int
  wa : Int
  wb : Int
  wc : Int
  wd : Int

/-- `BLExtendMode` of one axis. -/
inductive Ext
  | pad | rep | reflect
deriving DecidableEq, Repr

/-- `extend_xFromExtendMode`, `pipedefs.cpp:20-33`. -/
def extendX : Nat → Ext
  | 0 => .pad | 1 => .rep | 2 => .reflect | 3 => .pad | 4 => .pad | 5 => .rep | 6 => .rep | 7 => .reflect | _ => .reflect

/-- `extend_yFromExtendMode`, `pipedefs.cpp:35-48`. -/
def extendY : Nat → Ext
  | 0 => .pad | 1 => .rep | 2 => .reflect | 3 => .rep | 4 => .reflect | 5 => .pad | 6 => .reflect | 7 => .pad | _ => .rep

/-- Normalization of `tx` and `ty`, `pipedefs.cpp:69-73, 96-100`. -/
def normT (t r : Int) : Int :=
  let t := if toU32 t ≥ toU32 r then t.tmod r else t
  if t < 0 then t + r else t

/-- Which horizontal context the fetcher has: the fetch type returned by `init_pattern_tx_ty` and the dispatch of
`fetchgeneric_p.h:803-860`; fractional fetchers have no separate repeat. -/
inductive Horz
  | pad | rep | ror
deriving DecidableEq

/-- `if (size <= 1) extend = PAD`, `pipedefs.cpp:62-63`. -/
def effective (size : Int) (m : Ext) : Ext := if size ≤ 1 then .pad else m

/-- `rx` or `ry`, `pipedefs.cpp:66-68, 96`. -/
def period (size : Int) : Ext → Int
  | .pad => 0
  | .rep => size
  | .reflect => size * 2

/-- `init_pattern_tx_ty`, `pipedefs.cpp:53-113`; the table `ix` is only used by the JIT compiler. -/
def initTxTy (w h stride : Int) (mx my : Ext) (tx ty : Int) (fractional : Bool) (wa wb wc wd : Int) : Data × Horz :=
  let ex := effective w mx
  let ey := effective h my
  let rx := period w ex
  let ry := period h ey
  ({ w := w, h := h, stride := stride
     tx := if ex = .pad then tx else normT tx rx
     ty := if ey = .pad then ty else normT ty ry
     rx := rx
     ry := ry
     yRewind := if ey = .pad then 0 else h
     ptrRewind := (if ey = .rep then h - 1 else 0) * stride
     wa := wa, wb := wb, wc := wc, wd := wd },
   match ex with
   | .pad => .pad
   | .rep => if fractional then .ror else .rep
   | .reflect => .ror)

/-- `init_pattern_ax_ay`, `pipedefs.cpp:115-117`. -/
def initAxAy (w h stride : Int) (mx my : Ext) (x y : Int) : Data × Horz :=
  initTxTy w h stride mx my (-x) (-y) false 0 0 0 0

/-- `init_pattern_fx_fy`, `pipedefs.cpp:119-160`; the third component tells whether the fetcher interpolates. -/
def initFxFy (w h stride : Int) (mx my : Ext) (nearest : Bool) (tx64 ty64 : Int) : Data × Horz × Bool :=
  let wx := tx64 % 256
  let wy := ty64 % 256
  let tx := -toI32 (tx64 / 256)
  let ty := -toI32 (ty64 / 256)
  if wx = 0 ∧ wy = 0 then
    let d := initTxTy w h stride mx my tx ty false 0 0 0 0
    (d.1, d.2, false)
  else if nearest then
    let d := initTxTy w h stride mx my (tx - (if wx ≥ 128 then 1 else 0)) (ty - (if wy ≥ 128 then 1 else 0)) false 0 0 0 0
    (d.1, d.2, false)
  else
    let d := initTxTy w h stride mx my (tx - 1) (ty - 1) true
      (wy * wx / 256) ((wy * (256 - wx) + 255) / 256) ((256 - wy) * wx / 256) (((256 - wy) * (256 - wx) + 255) / 256)
    (d.1, d.2, true)

/-! ### Vertical context -/

/-- `FetchPatternVertAAExtendCtxAny`, `fetchgeneric_p.h:80-91`. -/
structure Vert where
  ptr : Int
  stride0 : Int
  stride1 : Int
  yStop0 : Int
  yStop1 : Int
  yRewind : Int
  ptrRewind : Int
  y : Int

/-- `bl_clamp`. -/
def clamp (x lo hi : Int) : Int := min (max x lo) hi

/-- `FetchPatternVertAAExtendCtxAny::init`, `fetchgeneric_p.h:93-149`. -/
def Vert.init (d : Data) (yPos : Int) : Vert :=
  let y := yPos + d.ty
  if d.ry = 0 then
    let cy := clamp y 0 (d.h - 1)
    if y ≠ cy then
      { ptr := cy * d.stride, stride0 := 0, stride1 := d.stride, yStop0 := 0, yStop1 := d.h,
        yRewind := d.yRewind, ptrRewind := d.ptrRewind, y := y }
    else
      { ptr := cy * d.stride, stride0 := d.stride, stride1 := 0, yStop0 := d.h, yStop1 := 0,
        yRewind := d.yRewind, ptrRewind := d.ptrRewind, y := y }
  else
    let y := toU32 y % toU32 d.ry
    if y ≥ d.h then
      { ptr := (d.h - 1) * d.stride + (y - d.h) * (-d.stride), stride0 := -d.stride, stride1 := d.stride,
        yStop0 := d.h, yStop1 := d.h, yRewind := d.yRewind, ptrRewind := d.ptrRewind, y := y - d.h }
    else
      { ptr := y * d.stride, stride0 := d.stride, stride1 := if d.h ≠ d.ry then -d.stride else d.stride,
        yStop0 := d.h, yStop1 := d.h, yRewind := d.yRewind, ptrRewind := d.ptrRewind, y := y }

/-- `FetchPatternVertAAExtendCtxAny::advance1`, `fetchgeneric_p.h:151-162`. -/
def Vert.advance1 (v : Vert) : Vert :=
  let y := v.y + 1
  if y = v.yStop0 then
    { v with yStop0 := v.yStop1, yStop1 := v.yStop0, stride0 := v.stride1, stride1 := v.stride0,
             y := y - v.yRewind, ptr := v.ptr - v.ptrRewind }
  else { v with y := y, ptr := v.ptr + v.stride0 }

/-! ### Horizontal contexts -/

/-- `FetchPatternHorzExtendCtxPad`, `FetchPatternHorzExtendCtxRepeat` and `FetchPatternHorzExtendCtxRoR`; `w` is `_mx` of
the first one. -/
structure HCtx where
  x : Int
  tx : Int
  rx : Int
  w : Int

/-- `_init_pattern` of the three contexts, `fetchgeneric_p.h:194-197, 241-244, 292-296`. -/
def HCtx.init (bpp : Int) (d : Data) : Horz → HCtx
  | .pad => { x := 0, tx := d.tx * bpp, rx := 0, w := (d.w - 1) * bpp }
  | .rep => { x := 0, tx := d.tx * bpp, rx := 0, w := d.w * bpp }
  | .ror => { x := 0, tx := d.tx, rx := d.rx, w := d.w }

/-- `rect_init`, `fetchgeneric_p.h:199-204, 246-251, 298-305`. -/
def HCtx.rectInit (bpp : Int) (d : Data) (k : Horz) (xPos : Int) : HCtx :=
  let c := HCtx.init bpp d k
  match k with
  | .pad => { c with tx := c.tx + xPos * bpp }
  | .rep => { c with tx := (xPos * bpp + c.tx) % c.w }
  | .ror =>
    let t := (xPos + c.tx) % c.rx
    { c with tx := if t ≥ c.w then t - c.rx else t }

/-- `rect_start`, `fetchgeneric_p.h:206-209, 253-256, 307-310`. -/
def HCtx.rectStart (c : HCtx) : HCtx := { c with x := c.tx }

/-- `span_start`, `fetchgeneric_p.h:215-217, 262-264, 316-320`. -/
def HCtx.spanStart (bpp : Int) (k : Horz) (c : HCtx) (xPos : Int) : HCtx :=
  match k with
  | .pad => { c with x := xPos * bpp + c.tx }
  | .rep => { c with x := (xPos * bpp + c.tx) % c.w }
  | .ror =>
    let x := (xPos + c.tx) % c.rx
    { c with x := if x ≥ c.w then x - c.rx else x }

/-- `span_advance`, `fetchgeneric_p.h:219-222, 266-272, 322-332`. -/
def HCtx.spanAdvance (bpp : Int) (k : Horz) (c : HCtx) (xDiff : Int) : HCtx :=
  match k with
  | .pad => { c with x := c.x + xDiff * bpp }
  | .rep =>
    let x := c.x + toU32 (xDiff * bpp)
    { c with x := if x ≥ c.w then x % c.w else x }
  | .ror =>
    let x := c.x + xDiff
    if x ≥ c.w then
      let x := x % c.rx
      { c with x := if x ≥ c.w then x - c.rx else x }
    else { c with x := x }

/-- `index`, `fetchgeneric_p.h:228-230, 278-280, 338-341`; `~x` is `-x - 1`. -/
def HCtx.index (bpp : Int) (k : Horz) (c : HCtx) : Int :=
  match k with
  | .pad => clamp c.x 0 c.w
  | .rep => c.x
  | .ror => (if c.x < 0 then -c.x - 1 else c.x) * bpp

/-- `advance1`, `fetchgeneric_p.h:232-234, 282-286, 343-347`. -/
def HCtx.advance1 (bpp : Int) (k : Horz) (c : HCtx) : HCtx :=
  match k with
  | .pad => { c with x := c.x + bpp }
  | .rep => { c with x := if c.x + bpp ≥ c.w then 0 else c.x + bpp }
  | .ror => { c with x := if c.x + 1 ≥ c.w then c.x + 1 - c.rx else c.x + 1 }

/-! ### Fetchers -/

/-- What the pipeline calls on a fetcher: `advance_y`, `rectStartX`, `spanStartX`, `spanAdvanceX` and `fetch`. -/
inductive Call
  | advanceY
  | rectStart
  | spanStart (x : Int)
  | spanAdvance (diff : Int)
  | fetch
deriving DecidableEq

/-- `FetchPatternAlignedAny`, `fetchgeneric_p.h:521-576`. -/
structure Aligned where
  v : Vert
  c : HCtx

/-- `FetchPatternAlignedAny::rect_init_fetch` (`rect`) and `spanInitY`, `fetchgeneric_p.h:528-548`. -/
def Aligned.init (bpp : Int) (d : Data) (k : Horz) (rect : Option Int) (yPos : Int) : Aligned :=
  ⟨Vert.init d yPos, match rect with
    | some x => HCtx.rectInit bpp d k x
    | none => HCtx.init bpp d k⟩

/-- One call on `FetchPatternAlignedAny` and the address it fetches from, `fetchgeneric_p.h:540-575`. -/
def Aligned.call (bpp : Int) (k : Horz) (s : Aligned) : Call → Aligned × Option Int
  | .advanceY => ({ s with v := s.v.advance1 }, none)
  | .rectStart => ({ s with c := s.c.rectStart }, none)
  | .spanStart x => ({ s with c := s.c.spanStart bpp k x }, none)
  | .spanAdvance n => ({ s with c := s.c.spanAdvance bpp k n }, none)
  | .fetch => ({ s with c := s.c.advance1 bpp k }, some (s.v.ptr + s.c.index bpp k))

/-- `FetchPatternFxFyAny`, `fetchgeneric_p.h:585-670`, for one colour channel; `acc` is `_pAcc`. -/
structure FxFy where
  ptr0 : Int
  v : Vert
  c : HCtx
  acc : Nat

/-- `rect_init_fetch` and `spanInitY` with `FetchPatternVertFyExtendCtxAny::init`, `fetchgeneric_p.h:171-175, 621-645`. -/
def FxFy.init (bpp : Int) (d : Data) (k : Horz) (rect : Option Int) (yPos : Int) : FxFy :=
  let v := Vert.init d yPos
  { ptr0 := v.ptr
    v := v.advance1
    c := match rect with
      | some x => HCtx.rectInit bpp d k x
      | none => HCtx.init bpp d k
    acc := 0 }

/-- `_initAccX`, `fetchgeneric_p.h:599-607`; `img` is the channel of the pixel at an address. -/
def FxFy.initAcc (img : Int → Nat) (bpp : Int) (d : Data) (k : Horz) (s : FxFy) : FxFy :=
  { s with acc := (img (s.ptr0 + s.c.index bpp k) * d.wa.toNat + img (s.v.ptr + s.c.index bpp k) * d.wc.toNat) % 65536 }

/-- One call on `FetchPatternFxFyAny` and the channel it returns, `fetchgeneric_p.h:631-668`.  Each channel has 16 bits
of its own in `_pAcc` and the sum. -/
def FxFy.call (img : Int → Nat) (bpp : Int) (d : Data) (k : Horz) (s : FxFy) : Call → FxFy × Option Nat
  | .advanceY => ({ s with ptr0 := s.v.ptr, v := s.v.advance1 }, none)
  | .rectStart => (FxFy.initAcc img bpp d k { s with c := s.c.rectStart }, none)
  | .spanStart x => (FxFy.initAcc img bpp d k { s with c := s.c.spanStart bpp k x }, none)
  | .spanAdvance n => (FxFy.initAcc img bpp d k { s with c := s.c.spanAdvance bpp k n }, none)
  | .fetch =>
    let c := s.c.advance1 bpp k
    let i := c.index bpp k
    let p0 := img (s.ptr0 + i)
    let p1 := img (s.v.ptr + i)
    ({ s with c := c, acc := (p0 * d.wa.toNat + p1 * d.wc.toNat) % 65536 },
     some ((p0 * d.wb.toNat + p1 * d.wd.toNat + s.acc) % 65536 / 256))

/-! ### Affine -/

/-- One axis of `FetchData::Pattern::Affine`, `pipedefs_p.h:928-955`: 32.32 fixed point steps and offset, `ox`, `rx` (integer
parts), `min_x`, `max_x`, `cor_x`, `tw`. -/
structure Axis where
  xx : Int
  yx : Int
  tx : Int
  o : Int
  r : Int
  mn : Int
  mx : Int
  cor : Int
  tw : Int

/-- `fmod`. -/
def fmod (x y : ℚ) : ℚ := x - y * (if 0 ≤ x / y then ⌊x / y⌋ else ⌈x / y⌉ : Int)

/-- `INT32_MAX`. -/
def i32Max : Int := 2147483647
/-- `INT32_MIN`. -/
def i32Min : Int := -2147483648

/-- One axis of `init_pattern_affine`, `pipedefs.cpp:217-346`; `xx` and `yx` are the steps of the inverse matrix, `tx` its
offset at the first pixel centre, `nearest` the quality.  That all values fit into 64 bits is checked for both axes
at once by the caller (`fits`). -/
def initAxis (w : Int) (m : Ext) (xx yx tx : ℚ) (nearest : Bool) (fits : Bool) : Axis :=
  let neg : Bool := m ≠ .pad ∧ xx < 0
  let tw : Int := if m = .reflect then w * 2 else w
  let xx' := if neg then -xx else xx
  let yx' := if neg then -yx else yx
  let tx' := if neg then (tw : ℚ) - tx else tx
  let tx' := if nearest then tx' else tx' - 1 / 2
  let tx' := if m = .pad then tx' else fmod tx' tw
  let xx' := if m ≠ .pad ∧ xx' ≥ tw then fmod xx' tw else xx'
  { xx := if fits then ⌊xx' * 4294967296⌋ else 0
    yx := if fits then ⌊yx' * 4294967296⌋ else 0
    tx := if fits then ⌊tx' * 4294967296⌋ else 0
    o := if m = .pad then i32Max else if neg ∧ m = .rep then -1 else w - 1
    r := if m = .pad then 0 else tw
    mn := if m = .pad then 0 else i32Min
    mx := if neg ∧ m = .rep then -1 else w - 1
    cor := if m = .rep ∧ ¬ neg then 0 else w - 1
    tw := if m = .pad then i32Max else tw }

/-- Wrap-around of 64-bit integers, seen as signed. -/
def wrap64 (x : Int) : Int := Int.bmod x (2 ^ 64)

/-- `int32_t(v >> 32)`. -/
def hi (v : Int) : Int := v / 4294967296

/-- `v & 0xFFFFFFFF`. -/
def lo (v : Int) : Int := v % 4294967296

/-- One axis of `normalize_px_py`, `fetchgeneric_p.h:378-389`. -/
def normalize (a : Axis) (v : Int) : Int :=
  let x := (hi v).tmod a.tw
  let x := if x < 0 then x + a.r else x
  let x := if x > a.o then x - a.r else x
  wrap64 (x * 4294967296 + lo v)

/-- `tx_ty` after `rectInitY`, `fetchgeneric_p.h:391-396`. -/
def rectInit (a : Axis) (x y : Int) : Int := wrap64 (a.tx + (a.yx * y + a.xx * x))

/-- `tx_ty` after `spanInitY`, `fetchgeneric_p.h:404-409`. -/
def spanInit (a : Axis) (y : Int) : Int := wrap64 (a.tx + a.yx * y)

/-- `spanStartX`, `fetchgeneric_p.h:411-413`. -/
def spanStart (a : Axis) (t x : Int) : Int := normalize a (wrap64 (t + a.xx * x))

/-- `spanAdvanceX`, `fetchgeneric_p.h:415-419`. -/
def spanAdvance (a : Axis) (p d : Int) : Int := normalize a (wrap64 (p + a.xx * d))

/-- `advance_y`, `fetchgeneric_p.h:425-427`. -/
def advanceY (a : Axis) (t : Int) : Int := wrap64 (t + a.yx)

/-- One axis of `advance_x`, `fetchgeneric_p.h:452-463`. -/
def advanceX (a : Axis) (p : Int) : Int :=
  let p := wrap64 (p + a.xx)
  let x := hi p
  wrap64 ((if x > a.o then x - a.r else x) * 4294967296 + lo p)

/-- One axis of `index`, `fetchgeneric_p.h:432-450`. -/
def index (a : Axis) (p off : Int) : Int :=
  let x := toI32 (hi p + off)
  let x := max x a.mn
  let x := if x > a.mx then a.cor else x
  if x < 0 then -x - 1 else x

end Blend2D.Pattern

namespace Blend2D.Pattern

/-- One axis of `FetchPatternAffineCtx`: `tx_ty` and `px_py`. -/
structure Aff where
  t : Int
  p : Int

/-- `rectInitY` (`rect`) and `spanInitY`, `fetchgeneric_p.h:391-396, 404-409`. -/
def Aff.init (a : Axis) (rect : Option Int) (y : Int) : Aff :=
  match rect with
  | some x => ⟨rectInit a x y, 0⟩
  | none => ⟨spanInit a y, 0⟩

/-- One call on the affine fetchers (`fetchgeneric_p.h:695-800`); `advance_x` follows the reads of `fetch`. -/
def Aff.call (a : Axis) (s : Aff) : Call → Aff
  | .advanceY => { s with t := advanceY a s.t }
  | .rectStart => { s with p := normalize a s.t }
  | .spanStart x => { s with p := Pattern.spanStart a s.t x }
  | .spanAdvance d => { s with p := Pattern.spanAdvance a s.p d }
  | .fetch => { s with p := advanceX a s.p }

/-- What one fetch reads along one axis: the pixels `index(0)` and `index(1)` and the weight `frac` of the latter,
`fetchgeneric_p.h:429-430, 722-728, 780-792`. -/
def Aff.read (a : Axis) (s : Aff) : Int × Int × Int := (index a s.p 0, index a s.p 1, lo s.p / 2 ^ 24)

/-- What the fetches of a sequence of calls read along one axis. -/
def Aff.run (a : Axis) (s : Aff) : List Call → List (Int × Int × Int)
  | [] => []
  | .fetch :: cs => s.read a :: Aff.run a (s.call a .fetch) cs
  | c :: cs => Aff.run a (s.call a c) cs

end Blend2D.Pattern
