import Verif.Glyf.Model
/-! Model of what a font face takes from its tables besides outlines and layout: `blend2d/opentype/otcore.cpp`
(tables `head`, `maxp`, `OS/2`, `post`), `blend2d/opentype/otmetrics.cpp` (tables `hhea`, `hmtx`, `vhea`, `vmtx`),
and of the metrics of fonts and texts: `blend2d/core/font.cpp` (`bl_font_calc_properties`, `bl_font_shape`,
`bl_font_position_glyphs`, `bl_font_get_text_metrics`).

Conventions:
* Tables are lists of bytes, a table that the font does not have is empty; reading outside of a table, and reading
  placements that were never written, is the error `ub`.
* `float` and `double` are rational numbers: nothing is rounded.
* Failing allocations are not modelled. -/
namespace Blend2D.FaceMetrics
open Blend2D.Kern (u8 u16 u32 i16)
open Blend2D.Glyf (Box Pt)

/-- How functions can fail: undefined behaviour, `BL_ERROR_INVALID_DATA`,
`BL_ERROR_FONT_MISSING_IMPORTANT_TABLE`, `BL_ERROR_FONT_NOT_INITIALIZED`, `BL_ERROR_INVALID_STATE`. -/
inductive Err where
  | ub | invalidData | missingTable | notInitialized | invalidState
  deriving DecidableEq, Repr

/-- A read that is undefined behaviour outside of the table. -/
def get {α : Type} : Option α → Except Err α
  | some a => .ok a
  | none => .error .ub

/-- The tables of `OTFaceTables` that are used here (`opentype/otface_p.h:109-171`). -/
structure Tables where
  head : List UInt8
  maxp : List UInt8
  os2 : List UInt8
  post : List UInt8
  hhea : List UInt8
  hmtx : List UInt8
  vhea : List UInt8
  vmtx : List UInt8

/-- `BLFontDesignMetrics` (`core/fontdefs.h:677-744`). -/
@[ext] structure Design where
  unitsPerEm : Int := 0
  lowestPpem : Int := 0
  lineGap : Int := 0
  xHeight : Int := 0
  capHeight : Int := 0
  ascent : Int := 0
  vAscent : Int := 0
  descent : Int := 0
  vDescent : Int := 0
  hMinLsb : Int := 0
  vMinLsb : Int := 0
  hMinTsb : Int := 0
  vMinTsb : Int := 0
  hMaxAdvance : Int := 0
  vMaxAdvance : Int := 0
  box : Box := ⟨0, 0, 0, 0⟩
  underlinePosition : Int := 0
  underlineThickness : Int := 0
  strikePosition : Int := 0
  strikeThickness : Int := 0
  deriving DecidableEq, Repr

/-- The members of `OTFaceImpl` that are written by the functions below; all are zero at first
(`opentype/otface.cpp:96`).  `advances`: `funcs.get_glyph_advances` is that of `otmetrics.cpp`.
`metrics.lsb_array_size` is left out, as nothing reads it. -/
structure Face where
  dm : Design := {}
  revision : Nat := 0
  glyphCount : Nat := 0
  lastResort : Bool := false
  baselineY0 : Bool := false
  lsbX0 : Bool := false
  typographic : Bool := false
  hasPanose : Bool := false
  hasCoverage : Bool := false
  weight : Nat := 0
  stretch : Nat := 0
  style : Nat := 0
  panose : List Nat := [0, 0, 0, 0, 0, 0, 0, 0, 0, 0]
  coverage : List Nat := [0, 0, 0, 0]
  short : Bool := false
  advances : Bool := false
  hTable : List UInt8 := []
  hCount : Nat := 0
  vTable : List UInt8 := []
  vCount : Nat := 0
  deriving DecidableEq, Repr

/-- `init_head` (`otcore.cpp:39-106`), offsets: `otcore_p.h:81-142`. -/
def initHead (T : Tables) (f : Face) : Except Err Face :=
  if T.head.length < 54 then .error (if T.head.length ≠ 0 then .invalidData else .missingTable)
  else do
    let revision ← get (u32 T.head 4)
    let flags ← get (u16 T.head 16)
    let upem ← get (u16 T.head 18)
    let ppem ← get (u16 T.head 46)
    let xMin ← get (i16 T.head 36)
    let yMax ← get (i16 T.head 42)
    let xMax ← get (i16 T.head 40)
    let yMin ← get (i16 T.head 38)
    let box : Box := if xMin > xMax ∨ -yMax > -yMin then ⟨0, 0, 0, 0⟩ else ⟨xMin, -yMax, xMax, -yMin⟩
    if upem < 16 ∨ upem > 16384 then .error .invalidData
    else do
      let dataFormat ← get (u16 T.head 52)
      let locFormat ← get (u16 T.head 50)
      if dataFormat ≠ 0 then .error .invalidData
      else if locFormat > 1 then .error .invalidData
      else .ok { f with
        lastResort := f.lastResort || flags &&& 0x4000 != 0
        baselineY0 := f.baselineY0 || flags &&& 1 != 0
        lsbX0 := f.lsbX0 || flags &&& 2 != 0
        revision := revision
        dm := { f.dm with unitsPerEm := upem, lowestPpem := ppem, box := box }
        short := locFormat == 0 }

/-- `initMaxP` (`otcore.cpp:108-133`), offsets: `otcore_p.h:144-177`. -/
def initMaxp (T : Tables) (f : Face) : Except Err Face :=
  if T.maxp.length < 6 then .error (if T.maxp.length ≠ 0 then .invalidData else .missingTable)
  else do
    let count ← get (u16 T.maxp 4)
    if count = 0 then .error .invalidData
    else .ok { f with glyphCount := count % 65536 }

/-- Weight class (`otcore.cpp:149-159`). -/
def weightOf (w : Nat) : Nat :=
  let w := if 1 ≤ w ∧ w ≤ 9 then w * 100 else w
  let w := if w = 0 then 400 else w
  min (max w 1) 999

/-- Width class (`otcore.cpp:150-160`). -/
def stretchOf (s : Nat) : Nat :=
  let s := if s = 0 then 5 else s
  min (max s 1) 9

/-- Reads `n` bytes (`memcpy`). -/
def readBytes (d : List UInt8) (o : Nat) : Nat → Except Err (List Nat)
  | 0 => .ok []
  | n + 1 => do
    let b ← get (u8 d o)
    let bs ← readBytes d (o + 1) n
    .ok (b :: bs)

/-- The first half of `initOS_2` (`otcore.cpp:148-184`), offsets: `otcore_p.h:197-222`. -/
def initOs2A (T : Tables) (f : Face) : Except Err Face := do
  let w ← get (u16 T.os2 4)
  let s ← get (u16 T.os2 6)
  let panose ← readBytes T.os2 32 10
  let c0 ← get (u32 T.os2 42)
  let c1 ← get (u32 T.os2 46)
  let c2 ← get (u32 T.os2 50)
  let c3 ← get (u32 T.os2 54)
  let thickness ← get (i16 T.os2 26)
  let position ← get (i16 T.os2 28)
  .ok { f with
    weight := weightOf w
    stretch := stretchOf s
    panose := panose
    hasPanose := f.hasPanose || panose.any (· != 0)
    coverage := [c0, c1, c2, c3]
    hasCoverage := f.hasCoverage || [c0, c1, c2, c3].any (· != 0)
    dm := { f.dm with strikePosition := -(position + thickness), strikeThickness := thickness } }

/-- The second half of `initOS_2` (`otcore.cpp:186-220`), offsets: `otcore_p.h:222-253`. -/
def initOs2B (T : Tables) (f : Face) : Except Err Face := do
  let version ← get (u16 T.os2 0)
  if T.os2.length < 78 then .ok f
  else do
    let sel ← get (u16 T.os2 62)
    let ascent ← get (i16 T.os2 68)
    let descent ← get (i16 T.os2 70)
    let gap ← get (i16 T.os2 72)
    let f := { f with
      style := if sel &&& 1 ≠ 0 then 2 else if sel &&& 0x200 ≠ 0 then 1 else f.style
      typographic := f.typographic || sel &&& 0x80 != 0
      dm := { f.dm with ascent := ascent, descent := |descent|, lineGap := gap } }
    if 96 ≤ T.os2.length ∧ version ≥ 2 then do
      let xHeight ← get (i16 T.os2 86)
      let capHeight ← get (i16 T.os2 88)
      .ok { f with dm := { f.dm with xHeight := xHeight, capHeight := capHeight } }
    else .ok f

/-- `initOS_2` (`otcore.cpp:135-224`): a missing or short table is ignored. -/
def initOs2 (T : Tables) (f : Face) : Except Err Face :=
  if T.os2.length < 68 then .ok f
  else do
    let f ← initOs2A T f
    initOs2B T f

/-- `init_post` (`otcore.cpp:226-249`), offsets: `otcore_p.h:277-289`. -/
def initPost (T : Tables) (f : Face) : Except Err Face :=
  if T.post.length < 32 then .ok f
  else do
    let thickness ← get (i16 T.post 10)
    let position ← get (i16 T.post 8)
    .ok { f with dm := { f.dm with underlinePosition := -(position + thickness), underlineThickness := thickness } }

/-- The horizontal half of `MetricsImpl::init` (`otmetrics.cpp:75-107`), offsets: `otmetrics_p.h:22-39`. -/
def initH (T : Tables) (f : Face) : Except Err Face :=
  if T.hhea.length = 0 then .ok f
  else if T.hhea.length < 36 then .error .invalidData
  else do
    let ascent ← get (i16 T.hhea 4)
    let descent ← get (i16 T.hhea 6)
    let gap ← get (i16 T.hhea 8)
    let f := if f.typographic then f
      else { f with dm := { f.dm with ascent := ascent, descent := |descent|, lineGap := gap } }
    let lsb ← get (i16 T.hhea 12)
    let tsb ← get (i16 T.hhea 14)
    let adv ← get (u16 T.hhea 10)
    let f := { f with dm := { f.dm with hMinLsb := lsb, hMinTsb := tsb, hMaxAdvance := adv } }
    if T.hmtx.length ≠ 0 then do
      let n ← get (u16 T.hhea 34)
      let n := min n f.glyphCount
      if T.hmtx.length < n * 4 then .error .invalidData
      else .ok { f with hTable := T.hmtx, hCount := n % 65536, advances := true }
    else .ok { f with advances := true }

/-- The vertical half of `MetricsImpl::init` (`otmetrics.cpp:109-132`). -/
def initV (T : Tables) (f : Face) : Except Err Face :=
  if T.vhea.length = 0 then .ok f
  else if T.vhea.length < 36 then .error .invalidData
  else do
    let ascent ← get (i16 T.vhea 4)
    let descent ← get (i16 T.vhea 6)
    let lsb ← get (i16 T.vhea 12)
    let tsb ← get (i16 T.vhea 14)
    let adv ← get (u16 T.vhea 10)
    let f := { f with dm := { f.dm with
      vAscent := ascent, vDescent := descent, vMinLsb := lsb, vMinTsb := tsb, vMaxAdvance := adv } }
    if T.vmtx.length ≠ 0 then do
      let n ← get (u16 T.vhea 34)
      let n := min n f.glyphCount
      if T.vmtx.length < n * 4 then .error .invalidData
      else .ok { f with vTable := T.vmtx, vCount := n % 65536 }
    else .ok f

/-- `init_open_type_face` (`otface.cpp:39-79`), reduced to `CoreImpl::init` (`otcore.cpp:251-258`) and
`MetricsImpl::init` (`otmetrics.cpp:67-135`): the other functions do not write the members above. -/
def init (T : Tables) : Except Err Face := do
  let f ← initHead T {}
  let f ← initMaxp T f
  let f ← initOs2 T f
  let f ← initPost T f
  let f ← initH T f
  initV T f

/-- `BLGlyphPlacement`. -/
structure Placement where
  px : Int
  py : Int
  ax : Int
  ay : Int
  deriving DecidableEq, Repr

/-- The loop of `get_glyph_advances` (`otmetrics.cpp:50-59`). -/
def advanceLoop (f : Face) : List Nat → Except Err (List Placement)
  | [] => .ok []
  | g :: gs => do
    let a ← get (u16 f.hTable (min g (f.hCount - 1) * 4))
    let l ← advanceLoop f gs
    .ok (⟨0, 0, a, 0⟩ :: l)

/-- `get_glyph_advances` (`otmetrics.cpp:39-62`; `core/fontface.cpp:59-67` if there is no table `hhea`). -/
def glyphAdvances (f : Face) (gs : List Nat) : Except Err (List Placement) :=
  if f.advances = false then .error .notInitialized
  else if f.hCount = 0 then .error .invalidData
  else advanceLoop f gs

/-- `BLFontMetrics` and the diagonal of the font matrix (`bl_font_calc_properties`, `core/font.cpp:34-57`). -/
structure Metrics where
  size : Rat
  ascent : Rat
  descent : Rat
  lineGap : Rat
  xHeight : Rat
  capHeight : Rat
  vAscent : Rat
  vDescent : Rat
  xMin : Rat
  yMin : Rat
  xMax : Rat
  yMax : Rat
  underlinePosition : Rat
  underlineThickness : Rat
  strikePosition : Rat
  strikeThickness : Rat
  m00 : Rat
  m11 : Rat
  deriving DecidableEq, Repr

/-- `bl_font_calc_properties` (`core/font.cpp:34-57`). -/
def fontMetrics (dm : Design) (size : Rat) : Metrics :=
  let s := if dm.unitsPerEm ≠ 0 then size / dm.unitsPerEm else 0
  { size := size, ascent := dm.ascent * s, descent := dm.descent * s, lineGap := dm.lineGap * s,
    xHeight := dm.xHeight * s, capHeight := dm.capHeight * s, vAscent := dm.vAscent * s,
    vDescent := dm.vDescent * s, xMin := dm.box.x0 * s, yMin := dm.box.y0 * s, xMax := dm.box.x1 * s,
    yMax := dm.box.y1 * s, underlinePosition := dm.underlinePosition * s,
    underlineThickness := dm.underlineThickness * s, strikePosition := dm.strikePosition * s,
    strikeThickness := dm.strikeThickness * s, m00 := s, m11 := -s }

/-- The members of a glyph buffer that matter here (`core/glyphbuffer_p.h:19-60`): `content`, the flag
`BL_GLYPH_RUN_FLAG_UCS4_CONTENT`, the flag `BL_GLYPH_BUFFER_GLYPH_ADVANCES`, and the placements; `none` if the
memory has not been written. -/
structure Buf where
  content : List Nat
  text : Bool
  positioned : Bool
  placements : Option (List Placement)
  deriving DecidableEq, Repr

/-- What the layout tables do, as functions: `map_text_to_glyphs` and `apply_gsub`, and `apply_gpos` or
`apply_kern`, if there is any.  They are taken to succeed, and read all glyphs and placements. -/
structure Layout where
  map : List Nat → List Nat
  gsub : List Nat → List Nat
  gpos : Option (List Nat → List Placement → List Placement)

/-- The font: its face, its outlines, what its layout tables do, and its size. -/
structure Font where
  face : Face
  glyf : Blend2D.Glyf.Font
  layout : Layout
  size : Rat

/-- `bl_font_position_glyphs` (`core/font.cpp:456-498`).  The result of `get_glyph_advances` is not checked. -/
def position (F : Font) (b : Buf) : Except Err Buf :=
  if b.content.length = 0 then .ok b
  else if b.text then .error .invalidState
  else do
    let b ← if b.positioned = false then
        match glyphAdvances F.face b.content with
        | .error .ub => .error .ub
        | .error _ => .ok { b with positioned := true, placements := none }
        | .ok p => .ok { b with positioned := true, placements := some p }
      else .ok b
    match F.layout.gpos with
    | none => .ok b
    | some g =>
      match b.placements with
      | none => .error .ub
      | some p => .ok { b with placements := some (g b.content p) }

/-- `bl_font_map_text_to_glyphs` (`core/font.cpp:429-454`). -/
def mapText (F : Font) (b : Buf) : Except Err Buf :=
  if b.content.length = 0 then .ok b
  else if b.text = false then .error .invalidState
  else .ok { b with content := F.layout.map b.content, text := false }

/-- `bl_font_shape` (`core/font.cpp:413-427`). -/
def shape (F : Font) (b : Buf) : Except Err Buf := do
  let b ← mapText F b
  position F { b with content := F.layout.gsub b.content }

/-- `BLTextMetrics`. -/
structure TextMetrics where
  advance : Pt
  leading : Pt
  trailing : Pt
  x0 : Rat
  y0 : Rat
  x1 : Rat
  y1 : Rat
  deriving DecidableEq, Repr

/-- The sum of the advances (`core/font.cpp:564-566`). -/
def sumAdvances : List Placement → Pt → Pt
  | [], a => a
  | p :: ps, a => sumAdvances ps ⟨a.x + p.ax, a.y + p.ay⟩

/-- `bl_font_get_text_metrics` from `size_t size` on (`core/font.cpp:555-590`). -/
def measure (F : Font) (b : Buf) : Except Err TextMetrics :=
  match b.content with
  | [] => .ok ⟨⟨0, 0⟩, ⟨0, 0⟩, ⟨0, 0⟩, 0, 0, 0, 0⟩
  | first :: rest => do
    let pl ← get b.placements
    let adv ← if pl.length < (first :: rest).length then .error .ub
      else .ok (sumAdvances (pl.take (first :: rest).length) ⟨0, 0⟩)
    match Blend2D.Glyf.glyphBounds F.glyf [first, (first :: rest).getLast (List.cons_ne_nil _ _)] with
    | .error _ => .error .ub
    | .ok (boxes, ok) =>
      if ok = false then .error .invalidData
      else do
        let b0 ← get (boxes[0]?)
        let b1 ← get (boxes[1]?)
        let last ← get (pl[(first :: rest).length - 1]?)
        let lsb : Rat := b0.x0
        let rsb : Rat := last.ax - b1.x1
        let m := fontMetrics F.face.dm F.size
        .ok { advance := ⟨adv.x * m.m00, adv.y * m.m11⟩
              leading := ⟨lsb * m.m00, 0 * m.m11⟩
              trailing := ⟨rsb * m.m00, 0 * m.m11⟩
              x0 := b0.x0 * m.m00, y0 := 0 * m.m11, x1 := (adv.x - rsb) * m.m00, y1 := 0 * m.m11 }

/-- `bl_font_get_text_metrics` (`core/font.cpp:542-590`): the metrics and the buffer. -/
def textMetrics (F : Font) (b : Buf) : Except Err (TextMetrics × Buf) := do
  let b ← if b.positioned = false then shape F b else .ok b
  let m ← measure F b
  .ok (m, b)

end Blend2D.FaceMetrics
