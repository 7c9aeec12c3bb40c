import Verif.Pixel.Model

/-!
# Pixel formats and pixel converters (`blend2d/core/format.cpp`, `blend2d/core/pixelconverter.cpp`)

Formats described by component sizes and shifts, their validation, the choice of a converter and the conversion of a row of
pixels.

Simplified: the host is little endian; SIMD converters are left out (the portable code is modelled); the aligned and the
unaligned loops of a converter do the same and are one function here; loops that handle several pixels at once are loops over
single pixels; a row is a list of bytes, `none` is a read outside of the row or a call of a null function.
-/
namespace Blend2D.PixConv
open Pixel (unpremultiplyRcp)

/-- One component: `sizes[i]` and `shifts[i]` of `BLFormatInfo` (format.h). -/
structure Ch where
  size : Nat
  shift : Nat
deriving DecidableEq

/-- `BLFormatInfo`: the flags of `BLFormatFlags` (format.h:48-94) are single booleans. -/
structure Fmt where
  depth : Nat
  rgb : Bool := false
  alpha : Bool := false
  lum : Bool := false
  indexed : Bool := false
  prem : Bool := false
  swap : Bool := false
  aligned : Bool := false
  undef : Bool := false
  r : Ch := ⟨0, 0⟩
  g : Ch := ⟨0, 0⟩
  b : Ch := ⟨0, 0⟩
  a : Ch := ⟨0, 0⟩
  palette : List UInt32 := []
deriving DecidableEq

/-- `bl_format_info[BL_FORMAT_PRGB32]` (format.cpp:16, flags of format_p.h:88-90). -/
def prgb32 : Fmt :=
  { depth := 32, rgb := true, alpha := true, prem := true, aligned := true, r := ⟨8, 16⟩, g := ⟨8, 8⟩, b := ⟨8, 0⟩, a := ⟨8, 24⟩ }

/-- `bl_format_info[BL_FORMAT_XRGB32]` (format.cpp:17, flags of format_p.h:91-93). -/
def xrgb32 : Fmt :=
  { depth := 32, rgb := true, aligned := true, undef := true, r := ⟨8, 16⟩, g := ⟨8, 8⟩, b := ⟨8, 0⟩ }

/-- `bl_format_info[BL_FORMAT_A8]` (format.cpp:18, flags of format_p.h:94-95). -/
def a8 : Fmt := { depth := 8, alpha := true, aligned := true, a := ⟨8, 0⟩ }

/-- `IntOps::non_zero_lsb_mask` (intops_p.h:261-265). -/
def lsb (n : Nat) : Nat := 2 ^ n - 1

/-- `bl_pixel_converter_component_indexes_table` (format.cpp:40-51): whether red, green and blue, and whether alpha must be given;
`none` is zero. -/
def components (f : Fmt) : Option (Bool × Bool) :=
  match f.rgb, f.alpha, f.lum with
  | true, false, false => some (true, false)
  | false, true, false => some (false, true)
  | true, true, false => some (true, true)
  | false, false, true => some (true, false)
  | false, true, true => some (true, true)
  | _, _, _ => none

/-- What the loop over the components collects (format.cpp:88-92, 108). -/
structure Acc where
  masks : Nat := 0
  overlap : Bool := false
  unaligned : Bool := false
  crosses : Bool := false

/-- One turn of the loop over the components (format.cpp:115-158). -/
def check (depth : Nat) (need isAlpha : Bool) (c : Ch) (s : Acc) : Option Acc :=
  if c.size = 0 then
    if need then none else if c.shift ≠ 0 then none else some s
  else if ¬ need then none
  else if c.size > 16 then none
  else if c.shift + c.size > depth then none
  else
    let m := lsb c.size * 2 ^ c.shift
    let hit := decide (s.masks &&& m ≠ 0)
    if hit ∧ isAlpha then none
    else some
      { masks := s.masks ||| m
        overlap := s.overlap || hit
        unaligned := s.unaligned || decide (c.size ≠ 8 ∨ c.shift % 8 ≠ 0)
        crosses := s.crosses || decide (c.shift / 8 ≠ (c.shift + c.size - 1) / 8) }

/-- All four components (format.cpp:115-158). -/
def checkAll (f : Fmt) (need : Bool × Bool) : Option Acc := do
  let s ← check f.depth need.1 false f.r {}
  let s ← check f.depth need.1 false f.g s
  let s ← check f.depth need.1 false f.b s
  check f.depth need.2 true f.a s

/-- A component after the byte order has been switched (format.cpp:183-188). -/
def Ch.swapped (depth : Nat) (c : Ch) : Ch := if c.size = 0 then c else ⟨c.size, depth - c.shift - c.size⟩

/-- The end of `bl_format_info_sanitize` (format.cpp:178-206). -/
def finish (f : Fmt) (s : Acc) (undef : Bool) : Fmt :=
  let f :=
    if f.swap then
      if f.depth ≤ 8 then { f with swap := false }
      else if !s.crosses then
        { f with swap := false, r := f.r.swapped f.depth, g := f.g.swapped f.depth, b := f.b.swapped f.depth, a := f.a.swapped f.depth }
      else f
    else f
  { f with aligned := !s.unaligned, undef := undef }

/-- The valid depths (format.cpp:70-84). -/
def depthOk (d : Nat) : Bool := [1, 2, 4, 8, 16, 24, 32].contains d

/-- `bl_format_info_sanitize` (format.cpp:86-207); an empty palette is a null pointer. -/
def sanitize (f : Fmt) : Option Fmt :=
  if !depthOk f.depth then none
  else if f.indexed then
    if f.depth > 8 ∨ f.palette = [] then none else some (finish f {} false)
  else do
    let need ← components f
    let s ← checkAll f need
    let undef := decide (lsb f.depth ≠ s.masks)
    let prem := f.prem && f.alpha
    if f.lum ≠ s.overlap then none
    else if f.lum ∧ (f.r ≠ f.g ∨ f.g ≠ f.b) then none
    else some (finish { f with prem } s undef)

/-- One component of `NativeFromForeign` (pixelconverter_p.h:158-168): `masks[i]`, `shifts[i]`, `scale[i]`. -/
structure Tab where
  mask : UInt32
  shift : UInt32
  scale : UInt32

/-- The loop that computes a scale (pixelconverter.cpp:1969-1975); `size` is at least 1, so eight turns are enough. -/
def scaleLoop (size : Nat) : Nat → UInt32 → Nat → UInt32 × Nat
  | 0, s, n => (s, n)
  | k + 1, s, n => if n < 8 then scaleLoop size k ((s <<< UInt32.ofNat size) ||| 1) (n + size) else (s, n)

/-- The parameters of a component of at most 8 bits (pixelconverter.cpp:1962-1980); `base` is the entry of
`bl_pixel_converter_native32_from_foreign_shift_table` (lines 31-36). -/
def tabOf (base size shift : Nat) : Tab :=
  let s := scaleLoop size 8 1 size
  ⟨UInt32.ofNat (lsb size), UInt32.ofNat shift, s.1 <<< UInt32.ofNat (base - (s.2 - 8))⟩

/-- The parameters of a component (pixelconverter.cpp:1944-1981). -/
def nffChan (base : Nat) (c : Ch) : Tab :=
  if c.size = 0 then ⟨0, UInt32.ofNat c.shift, 0⟩
  else if c.size > 8 then tabOf base 8 (c.shift + (c.size - 8))
  else tabOf base c.size c.shift

/-- `NativeFromForeign`. -/
structure Nff where
  r : Tab
  g : Tab
  b : Tab
  a : Tab
  fill : UInt32

/-- The initialisation of `NativeFromForeign` (pixelconverter.cpp:1938-1981). -/
def nff (s : Fmt) : Nff :=
  ⟨nffChan 16 s.r, nffChan 8 s.g, nffChan 8 s.b, nffChan 24 s.a, if s.alpha then 0 else 0xFF000000⟩

/-- A component moved to its place in a native pixel, `((pix >> shift) & mask) * scale`. -/
def part (t : Tab) (pix : UInt32) : UInt32 := ((pix >>> t.shift) &&& t.mask) * t.scale

/-- `bl_convert_xrgb32_from_xrgb_any` (pixelconverter.cpp:926-929). -/
def fromXrgb (t : Nff) (pix : UInt32) : UInt32 :=
  (part t.r pix &&& (0x00FF0000 : UInt32)) ||| (part t.g pix &&& (0x0000FF00 : UInt32)) ||| (part t.b pix >>> (8 : UInt32)) ||| t.fill

/-- `bl_convert_prgb32_from_argb_any` (pixelconverter.cpp:1016-1034). -/
def fromArgb (t : Nff) (pix : UInt32) : UInt32 :=
  let a := part t.a pix >>> 24
  let ag := part t.g pix >>> 8
  let rb := (part t.r pix &&& (0x00FF0000 : UInt32)) ||| (part t.b pix >>> (8 : UInt32))
  let ag := ag ||| 0x00FF0000
  let rb := rb * a
  let ag := ag * a
  let rb := rb + 0x00800080
  let ag := ag + 0x00800080
  let rb := (rb + ((rb >>> 8) &&& 0x00FF00FF)) &&& 0xFF00FF00
  let ag := (ag + ((ag >>> 8) &&& 0x00FF00FF)) &&& 0xFF00FF00
  ag ||| (rb >>> 8)

/-- `bl_convert_prgb32_from_prgb_any` (pixelconverter.cpp:1096-1105). -/
def fromPrgb (t : Nff) (pix : UInt32) : UInt32 :=
  let ag := (part t.a pix + part t.g pix) &&& 0xFF00FF00
  let rb := (part t.r pix + (part t.b pix >>> 8)) &&& 0x00FF00FF
  ag ||| rb

/-- One component of `ForeignFromNative` (pixelconverter.cpp:2052-2064): `masks[i]`, `shifts[i]`. -/
structure Put where
  mask : UInt32
  shift : UInt32

/-- The parameters of a component (pixelconverter.cpp:2052-2064). -/
def ffnChan (c : Ch) : Put :=
  if c.size ≠ 0 then ⟨UInt32.ofNat (lsb c.size * 2 ^ c.shift), UInt32.ofNat (32 - c.size - c.shift)⟩
  else ⟨0, UInt32.ofNat c.shift⟩

/-- `ForeignFromNative`; `fill_mask` is zero. -/
structure Ffn where
  r : Put
  g : Put
  b : Put
  a : Put

/-- The initialisation of `ForeignFromNative` (pixelconverter.cpp:2052-2064). -/
def ffn (d : Fmt) : Ffn := ⟨ffnChan d.r, ffnChan d.g, ffnChan d.b, ffnChan d.a⟩

/-- A component of a native pixel moved to its place, `((c * 0x01010101) >> shift) & mask`. -/
def place (p : Put) (c : UInt32) : UInt32 := ((c * 0x01010101) >>> p.shift) &&& p.mask

/-- `bl_convert_xrgb_any_from_xrgb32` (pixelconverter.cpp:1224-1232). -/
def toXrgb (t : Ffn) (pix : UInt32) : UInt32 :=
  place t.r ((pix >>> 16) &&& 0xFF) ||| place t.g ((pix >>> 8) &&& 0xFF) ||| place t.b (pix &&& 0xFF)

/-- `bl_convert_argb_any_from_prgb32` (pixelconverter.cpp:1288-1304). -/
def toArgb (t : Ffn) (pix : UInt32) : UInt32 :=
  let a := pix >>> 24
  let rcp := unpremultiplyRcp.getD a.toNat 0
  let un (c : UInt32) : UInt32 := (c * rcp + 0x8000) >>> 16
  place t.r (un ((pix >>> 16) &&& 0xFF)) ||| place t.g (un ((pix >>> 8) &&& 0xFF)) ||| place t.b (un (pix &&& 0xFF)) |||
    place t.a a

/-- `bl_convert_prgb_any_from_prgb32` (pixelconverter.cpp:1363-1374). -/
def toPrgb (t : Ffn) (pix : UInt32) : UInt32 :=
  place t.r ((pix >>> 16) &&& 0xFF) ||| place t.g ((pix >>> 8) &&& 0xFF) ||| place t.b (pix &&& 0xFF) ||| place t.a (pix >>> 24)

/-- `bl_convert_premultiply_8888` (pixelconverter.cpp:445-457). -/
def premultiply (shift fill pix : UInt32) : UInt32 :=
  let a := (pix >>> shift) &&& 0xFF
  let pix := pix ||| ((0xFF : UInt32) <<< shift)
  let c0 := (pix &&& 0x00FF00FF) * a + 0x00800080
  let c1 := ((pix >>> 8) &&& 0x00FF00FF) * a + 0x00800080
  let c0 := (c0 + ((c0 >>> 8) &&& 0x00FF00FF)) &&& 0xFF00FF00
  let c1 := (c1 + ((c1 >>> 8) &&& 0x00FF00FF)) &&& 0xFF00FF00
  (c0 >>> 8) ||| c1 ||| fill

/-- `bl_convert_unpremultiply_8888` (pixelconverter.cpp:486-516), `unpremultiply_rgb_8bit` (scalar_p.h:48-53). -/
def unpremultiply (shift pix : UInt32) : UInt32 :=
  let rs := (shift + 8) % 32
  let gs := (shift + 16) % 32
  let bs := (shift + 24) % 32
  let a := (pix >>> shift) &&& 0xFF
  let rcp := unpremultiplyRcp.getD a.toNat 0
  let un (c : UInt32) : UInt32 := (c * rcp + 0x8000) >>> 16
  (un ((pix >>> rs) &&& 0xFF) <<< rs) ||| (un ((pix >>> gs) &&& 0xFF) <<< gs) ||| (un ((pix >>> bs) &&& 0xFF) <<< bs) ||| (a <<< shift)

/-- The converters that map one pixel to one pixel. -/
inductive PixFn where
  /-- `bl_convert_copy_or_8888` -/
  | copyOr (fill : UInt32)
  /-- `bl_convert_premultiply_8888` -/
  | premul (shift fill : UInt32)
  /-- `bl_convert_unpremultiply_8888` -/
  | unpremul (shift : UInt32)
  /-- `bl_convert_a8_from_8888` -/
  | toA8 (shift : UInt32)
  /-- `bl_convert_8888_from_x8` -/
  | fromX8 (fill zero : UInt32)
  | fromXrgb (t : Nff)
  | fromArgb (t : Nff)
  | fromPrgb (t : Nff)
  | toXrgb (t : Ffn)
  | toArgb (t : Ffn)
  | toPrgb (t : Ffn)

/-- One pixel (pixelconverter.cpp:382, 445-457, 486-516, 560 as a shift instead of a byte offset, 591, and the functions above). -/
def PixFn.eval : PixFn → UInt32 → UInt32
  | .copyOr fill, p => p ||| fill
  | .premul shift fill, p => premultiply shift fill p
  | .unpremul shift, p => unpremultiply shift p
  | .toA8 shift, p => p >>> shift
  | .fromX8 fill zero, p => ((p * 0x01010101) &&& zero) ||| fill
  | .fromXrgb t, p => PixConv.fromXrgb t p
  | .fromArgb t, p => PixConv.fromArgb t p
  | .fromPrgb t, p => PixConv.fromPrgb t p
  | .toXrgb t, p => PixConv.toXrgb t p
  | .toArgb t, p => PixConv.toArgb t p
  | .toPrgb t, p => PixConv.toPrgb t p

/-- A converter: `convert_func` and its data. -/
inductive Conv where
  /-- `bl_convert_copy`: bytes per pixel -/
  | copy (bpp : Nat)
  /-- bytes and byte order of the source and of the destination, and the pixel function -/
  | map (sb : Nat) (sswap : Bool) (db : Nat) (dswap : Bool) (f : PixFn)
  /-- `bl_convert_any_from_indexed{1,2,4,8}`: source depth, bytes of the destination, colours in the destination format -/
  | indexed (depth db : Nat) (table : List UInt32)
  /-- `bl_convert_a8_from_indexed8_pal32` -/
  | a8Indexed (palette : List UInt32)
  /-- `bl_convert_multi_step`: both `convert_func`, `none` is a null pointer -/
  | multi (first : Conv) (second : Option Conv)

/-- A little endian number. -/
def leVal : List UInt8 → Nat
  | [] => 0
  | b :: l => b.toNat + 256 * leVal l

/-- `n` bytes of a number, little endian. -/
def leBytes : Nat → Nat → List UInt8
  | 0, _ => []
  | n + 1, v => UInt8.ofNat v :: leBytes n (v / 256)

/-- `PixelAccess::fetchA`, `fetchU` (pixelconverter.cpp:193-234). -/
def fetch (swap : Bool) (bytes : List UInt8) : UInt32 := UInt32.ofNat (leVal (if swap then bytes.reverse else bytes))

/-- `PixelAccess::storeA`, `storeU` (pixelconverter.cpp:193-234). -/
def store (n : Nat) (swap : Bool) (v : UInt32) : List UInt8 :=
  if swap then (leBytes n v.toNat).reverse else leBytes n v.toNat

/-- A row of `w` pixels. -/
def mapRow (sb : Nat) (sswap : Bool) (db : Nat) (dswap : Bool) (f : UInt32 → UInt32) : Nat → List UInt8 → Option (List UInt8)
  | 0, _ => some []
  | w + 1, src =>
    if src.length < sb then none
    else do
      let rest ← mapRow sb sswap db dswap f w (src.drop sb)
      some (store db dswap (f (fetch sswap (src.take sb))) ++ rest)

/-- `IntOps::sar(b, 31)`: all bits are the most significant one. -/
def sar31 (b : UInt32) : UInt32 := if b &&& 0x80000000 ≠ 0 then 0xFFFFFFFF else 0

/-- The colour of an index of one bit (pixelconverter.cpp:632-636, 650-657, 666, 690-697, 706): `c` are the two colours, the special
case of lines 635-636 compares with the number of *bytes* of a pixel. -/
def color1 (db : Nat) (c0 c1 b : UInt32) : UInt32 :=
  let cm := c1 ^^^ c0
  if c0 = 0 ∧ cm = (0xFFFFFFFF : UInt32) >>> UInt32.ofNat (32 - db) then sar31 b else c0 ^^^ (cm &&& sar31 b)

/-- The colour of the `k`-th pixel of a source byte (pixelconverter.cpp:650-670, 745-757, 804-809, 887-891). -/
def pick (depth db : Nat) (table : List UInt32) (byte : UInt8) (k : Nat) : Option UInt32 :=
  if depth = 1 then do
    let c0 ← table[0]?
    let c1 ← table[1]?
    some (color1 db c0 c1 (UInt32.ofNat (byte.toNat * 2 ^ (24 + k))))
  else table[byte.toNat / 2 ^ (8 - depth * (k + 1)) % 2 ^ depth]?

/-- The pixels of one source byte (pixelconverter.cpp:646-670, 738-766, 798-817, 887-891): `n` pixels of `depth` bits, the
most significant bits first. -/
def unpack (depth db : Nat) (table : List UInt32) (byte : UInt8) : Nat → Nat → Option (List UInt32)
  | _, 0 => some []
  | k, n + 1 => do
    let c ← pick depth db table byte k
    let rest ← unpack depth db table byte (k + 1) n
    some (c :: rest)

/-- A row of `w` pixels; `8 / depth` pixels per byte. -/
def indexedRow (depth db : Nat) (table : List UInt32) : List UInt8 → Nat → Option (List UInt8)
  | [], w => if w = 0 then some [] else none
  | byte :: src, w =>
    if w = 0 then some []
    else do
      let px ← unpack depth db table byte 0 (min w (8 / depth))
      let rest ← indexedRow depth db table src (w - 8 / depth)
      some (px.flatMap (fun c => store db false c) ++ rest)

/-- `bl_convert_a8_from_indexed8_pal32` (pixelconverter.cpp:829-856). -/
def a8Row (palette : List UInt32) : Nat → List UInt8 → Option (List UInt8)
  | 0, _ => some []
  | w + 1, src => do
    let i ← src[0]?
    let c ← palette[i.toNat]?
    let rest ← a8Row palette w (src.drop 1)
    some (UInt8.ofNat (c.toNat / 2 ^ 24) :: rest)

/-- `convert_func` for one row of `w` pixels, without the gap (the multi-step converter goes through parts of the row,
pixelconverter.cpp:2117-2193, which is one step here). -/
def Conv.row : Conv → Nat → List UInt8 → Option (List UInt8)
  | .copy bpp, w, src => if src.length < w * bpp then none else some (src.take (w * bpp))
  | .map sb sswap db dswap f, w, src => mapRow sb sswap db dswap f.eval w src
  | .indexed depth db table, w, src => indexedRow depth db table src w
  | .a8Indexed palette, w, src => a8Row palette w src
  | .multi first (some second), w, src => (first.row w src).bind fun mid => second.row w mid
  | .multi first none, w, src => (first.row w src).bind fun _ => none

/-- `bl_pixel_converter_calc_rgb_mask32` (pixelconverter.cpp:1420-1426). -/
def rgbMask (f : Fmt) : UInt32 :=
  let m (c : Ch) : UInt32 := if c.size = 0 then 0 else UInt32.ofNat (lsb c.size) <<< UInt32.ofNat c.shift
  m f.r ||| m f.g ||| m f.b

/-- `bl_pixel_converter_calc_fill_mask32` (pixelconverter.cpp:1428-1434). -/
def fillMask (f : Fmt) : UInt32 :=
  let m (c : Ch) : UInt32 := if c.size = 0 then 0 else UInt32.ofNat (lsb c.size) <<< UInt32.ofNat c.shift
  ~~~(m f.r ||| m f.g ||| m f.b ||| m f.a)

/-- The result of an initialisation: an error, `BL_RESULT_NOTHING`, or a converter and whether it is a raw copy. -/
inductive Init where
  | error
  | nothing
  | conv (c : Conv)

/-- `BL_PROPAGATE_IF_NOT_NOTHING`. -/
def Init.orElse (x y : Init) : Init := match x with | .nothing => y | x => x

/-- `bl_pixel_converter_init_copy_8888_with_fill_mask` (pixelconverter.cpp:1617-1648). -/
def initCopyOr (d s : Fmt) : Conv :=
  .map 4 false 4 false (.copyOr
    (if d.alpha && s.alpha then 0
     else if d.alpha then (0xFF : UInt32) <<< UInt32.ofNat d.a.shift else fillMask d))

/-- `bl_pixel_converter_init_premultiply_8888` (pixelconverter.cpp:1650-1675). -/
def initPremul (d s : Fmt) : Conv :=
  let sh := UInt32.ofNat (if d.alpha then d.a.shift else s.a.shift)
  .map 4 false 4 false (.premul sh ((if d.alpha then 0 else 0xFF) <<< sh))

/-- `bl_pixel_converter_init_unpremultiply8888` (pixelconverter.cpp:1677-1709). -/
def initUnpremul (d : Fmt) : Init :=
  if d.a.shift = 0 ∨ d.a.shift = 24 then .conv (.map 4 false 4 false (.unpremul (UInt32.ofNat d.a.shift))) else .nothing

/-- Equality of the flags (`di.flags == si.flags`), the premultiplied flag excluded. -/
def sameFlags (d s : Fmt) : Bool :=
  d.rgb = s.rgb ∧ d.alpha = s.alpha ∧ d.lum = s.lum ∧ d.indexed = s.indexed ∧ d.swap = s.swap ∧ d.aligned = s.aligned ∧ d.undef = s.undef

/-- `bl_pixel_converter_init_simple` (pixelconverter.cpp:1711-1835), both depths are the same. -/
def initSimple (d s : Fmt) : Init :=
  if d.r = s.r ∧ d.g = s.g ∧ d.b = s.b then
    if d.a = s.a then
      if sameFlags d s ∧ d.prem = s.prem then
        if d.depth = 32 ∧ !d.alpha ∧ d.undef then .conv (initCopyOr d s) else .conv (.copy (d.depth / 8))
      else if (d.rgb ∧ d.alpha ∧ d.aligned) ∧ (s.rgb ∧ s.alpha ∧ s.aligned) ∧ sameFlags d s ∧ d.prem ≠ s.prem ∧ d.depth = 32 then
        if d.prem then .conv (initPremul d s) else initUnpremul d
      else .nothing
    else if d.depth = 32 ∧ (d.rgb ∧ d.aligned) ∧ (s.rgb ∧ s.aligned) then
      if (!d.alpha ∧ s.prem) ∨ (!s.alpha ∧ d.alpha) then .conv (initCopyOr d s)
      else if !d.alpha ∧ s.alpha then .conv (initPremul d s)
      else .nothing
    else .nothing
  else .nothing

/-- `bl_pixel_converter_init_8888_from_8` (pixelconverter.cpp:1857-1885). -/
def initFrom8 (d s : Fmt) : Conv :=
  .map 1 false 4 false (.fromX8
    (if !s.alpha then ~~~rgbMask d
     else if d.alpha ∧ d.prem then 0
     else if d.alpha then rgbMask d
     else ~~~rgbMask d) 0xFFFFFFFF)

/-- `bl_pixel_converter_init_8888_from_foreign` (pixelconverter.cpp:1925-2031). -/
def initFromForeign (d s : Fmt) : Init :=
  if d.r.shift ≠ 16 ∨ d.g.shift ≠ 8 ∨ d.b.shift ≠ 0 then .nothing
  else if s.depth = 16 ∨ s.depth = 24 ∨ s.depth = 32 then
    .conv (.map (s.depth / 8) s.swap 4 false
      (if s.prem then .fromPrgb (nff s) else if s.alpha then .fromArgb (nff s) else .fromXrgb (nff s)))
  else .error

/-- `bl_pixel_converter_init_foreign_from_8888` (pixelconverter.cpp:2034-2112). -/
def initToForeign (d s : Fmt) : Init :=
  if s.r.shift ≠ 16 ∨ s.g.shift ≠ 8 ∨ s.b.shift ≠ 0 then .nothing
  else if d.depth = 16 ∨ d.depth = 24 ∨ d.depth = 32 then
    .conv (.map 4 false (d.depth / 8) d.swap
      (if d.prem then .toPrgb (ffn d) else if d.alpha then .toArgb (ffn d) else .toXrgb (ffn d)))
  else .error

/-- `bl_pixel_converter_init_internal` (pixelconverter.cpp:2256-2302) for formats that are not indexed, up to the multi-step
converter. `bl_pixel_converter_init_8888_from_888` (lines 1891-1921) does nothing without SIMD. -/
def initDirect (d s : Fmt) : Init :=
  (if d.depth = s.depth then initSimple d s else Init.nothing).orElse
    ((if d.depth = 8 ∧ s.depth = 32 then
        (if (d.alpha ∧ d.aligned) ∧ (s.alpha ∧ s.aligned) then
          Init.conv (.map 4 false 1 false (.toA8 (UInt32.ofNat s.a.shift))) else .nothing)
      else Init.nothing).orElse
    ((if d.depth = 32 ∧ s.depth = 8 ∧ (d.aligned ∧ s.aligned) ∧ d.rgb then Init.conv (initFrom8 d s) else Init.nothing).orElse
    ((if d.depth = 32 ∧ d.aligned then initFromForeign d s else Init.nothing).orElse
     (if s.depth = 32 ∧ s.aligned then initToForeign d s else Init.nothing))))

/-- The format between the two steps (pixelconverter.cpp:2239-2246). -/
def between (d s : Fmt) : Fmt :=
  if !d.alpha ∨ !s.alpha then xrgb32
  else if d.alpha ∧ !d.prem then { prgb32 with prem := false } else prgb32

/-- `bl_pixel_converter_init_multi_step` (pixelconverter.cpp:2195-2254): the second initialisation also goes to `ctx->first`, so
`ctx->second` keeps its null `convert_func`. -/
def initMulti (d s : Fmt) : Init :=
  if d.rgb ∧ s.rgb then
    match initDirect (between d s) s, initDirect d (between d s) with
    | .conv _, .conv c2 => .conv (.multi c2 none)
    | _, _ => .error
  else .nothing

/-- `bl_pixel_converter_init_internal` (pixelconverter.cpp:2256-2302) for formats that are not indexed. -/
def initPlain (d s : Fmt) : Option Conv :=
  match (initDirect d s).orElse (initMulti d s) with
  | .conv c => some c
  | _ => none

/-- `bl_pixel_converter_palette_format_from_format_flags` (pixelconverter.cpp:57-80). -/
def paletteFmt (f : Fmt) : Option Fmt :=
  match f.rgb, f.alpha with
  | false, true => some { prgb32 with prem := false }
  | true, false => some { prgb32 with prem := false, alpha := false, a := ⟨0, 0⟩ }
  | true, true => some { prgb32 with prem := f.prem }
  | false, false => none

/-- The colours of a palette in the destination format (pixelconverter.cpp:1539, 1563-1564): `pal_cvt` runs over `1 << depth`
entries. -/
def tableOf (c : Conv) (db n : Nat) (palette : List UInt32) : Option (List UInt32) := do
  let row ← c.row n (palette.flatMap fun p => store 4 false p)
  some ((List.range n).map fun i => fetch false ((row.drop (i * db)).take db))

/-- `bl_pixel_converter_init_indexed` (pixelconverter.cpp:1497-1612); where the palette is stored is not modelled, `dontCopy` is
`BL_PIXEL_CONVERTER_CREATE_FLAG_DONT_COPY_PALETTE`. -/
def initIndexed (d s : Fmt) (dontCopy : Bool) : Option Conv :=
  if ![1, 2, 4, 8].contains s.depth then none
  else do
    let p ← paletteFmt s
    if d.depth = 8 ∧ s.depth = 8 ∧ dontCopy ∧ !d.rgb ∧ d.alpha ∧ d.aligned then some (.a8Indexed s.palette)
    else do
      let c ← initPlain d p
      let t ← tableOf c (d.depth / 8) (2 ^ s.depth) s.palette
      if [8, 16, 24, 32].contains d.depth then some (.indexed s.depth (d.depth / 8) t) else none

/-- `bl_pixel_converter_create` (pixelconverter.cpp:163-178) with `bl_pixel_converter_init_internal` (lines 2256-2302). -/
def create (dst src : Fmt) (dontCopy : Bool) : Option Conv := do
  let d ← sanitize dst
  let s ← sanitize src
  if d.indexed then none
  else if s.indexed then initIndexed d s dontCopy
  else initPlain d s

end Blend2D.PixConv
