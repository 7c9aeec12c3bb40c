import Verif.Pixel.Model
/-!
# Model of the reference compositing pipeline (`blend2d/pipeline/reference`)

64-bit targets (`BL_TARGET_ARCH_BITS >= 64`): an unpacked 32-bit pixel is one `uint64_t` holding four
16-bit lanes `[.3.1.2.0]`.  A8 destinations use `P8_Alpha`/`U8_Alpha`.
-/
namespace Blend2D.Comp
open Pixel (neg255 udiv255)

/-! ## `P32_8888` / `U32_8888` -/

/-- `pixelgeneric_p.h:33-38` `Repeat::u16x2`, `Repeat::u16x4`. -/
def u16x2 (v : UInt32) : UInt32 := v ||| (v <<< 16)
def u16x4 (v : UInt32) : UInt64 := (u16x2 v).toUInt64 ||| ((u16x2 v).toUInt64 <<< 32)

/-- `pixelgeneric_p.h:402-405` `P32_8888::unpack` (64-bit). -/
def unpack (p : UInt32) : UInt64 :=
  (p &&& 0x00FF00FF).toUInt64 ||| ((p &&& 0xFF00FF00).toUInt64 <<< 24)

/-- `pixelgeneric_p.h:331` `U32_8888::pack` (64-bit). -/
def pack (u : UInt64) : UInt32 := (((u >>> 24) ||| u) &&& 0xFFFFFFFF).toUInt32

/-- `pixelgeneric_p.h:342` `U32_8888::operator*(const Repeat&)`: multiplication by the 32-bit `x.v`. -/
def mulRepeat (u : UInt64) (v : UInt32) : UInt64 := u * v.toUInt64

/-- `pixelgeneric_p.h:386-389` `U32_8888::div255` (64-bit). -/
def div255 (x : UInt64) : UInt64 :=
  let u := x + u16x4 0x80
  ((u + ((u >>> 8) &&& u16x4 0xFF)) >>> 8) &&& u16x4 0xFF

/-- `pixelgeneric_p.h:395-399` `U32_8888::addus8` (64-bit). -/
def addus8 (a b : UInt64) : UInt64 :=
  let val := a + b
  let msk := mulRepeat ((val >>> 8) &&& u16x4 0x1) 0xFF
  (val ||| msk) &&& u16x4 0xFF

/-- `pixelgeneric_p.h:261` `P32_8888::a` for `Format_A8R8G8B8` (`kAShift = 24`). -/
def alphaOf (p : UInt32) : UInt32 := (p >>> 24) &&& 0xFF

/-! ## Operators on PRGB32 pixels -/

/-- `compopgeneric_p.h:33-36` `CompOp_SrcCopy_Op::op_prgb32_prgb32(d, s)`. -/
def srcCopy (_d s : UInt32) : UInt32 := s

/-- `compopgeneric_p.h:38-40` `CompOp_SrcCopy_Op::op_prgb32_prgb32(d, s, m)`. -/
def srcCopyMask (d s m : UInt32) : UInt32 :=
  pack (div255 (mulRepeat (unpack d) (m ^^^ 0xFF) + mulRepeat (unpack s) m))

/-- `compopgeneric_p.h:54-56` `CompOp_SrcOver_Op::op_prgb32_prgb32(d, s)`. -/
def srcOver (d s : UInt32) : UInt32 :=
  s + pack (div255 (mulRepeat (unpack d) (neg255 (alphaOf s))))

/-- `compopgeneric_p.h:60-62` `CompOp_SrcOver_Op::op_prgb32_prgb32(d, s, m)`. -/
def srcOverMask (d s m : UInt32) : UInt32 :=
  srcOver d (pack (div255 (mulRepeat (unpack s) m)))

/-- `compopgeneric_p.h:74-76` `CompOp_Plus_Op::op_prgb32_prgb32(d, s)`. -/
def plus (d s : UInt32) : UInt32 := pack (addus8 (unpack d) (unpack s))

/-- `compopgeneric_p.h:78-80` `CompOp_Plus_Op::op_prgb32_prgb32(d, s, m)`. -/
def plusMask (d s m : UInt32) : UInt32 :=
  pack (addus8 (unpack d) (div255 (mulRepeat (unpack s) m)))

/-! ## `P8_Alpha` / `U8_Alpha` (A8 destinations): `uint8_t` packed, `uint16_t` unpacked -/

/-- `pixelgeneric_p.h:236` `P8_Alpha::unpack`. -/
def unpackA (p : UInt8) : UInt16 := p.toUInt16

/-- `pixelgeneric_p.h:165` `U8_Alpha::pack`. -/
def packA (u : UInt16) : UInt8 := (u &&& 0xFF).toUInt8

/-- `pixelgeneric_p.h:182` `U8_Alpha::operator*(const Repeat&)`. -/
def mulA (u : UInt16) (v : UInt32) : UInt16 := ((u.toUInt32 * v) &&& 0xFFFF).toUInt16

/-- `pixelgeneric_p.h:180,192` `U8_Alpha::operator+`. -/
def addA (u v : UInt16) : UInt16 := ((u.toUInt32 + v.toUInt32) &&& 0xFFFF).toUInt16

/-- `pixelgeneric_p.h:221-224` `U8_Alpha::div255`. -/
def div255A (x : UInt16) : UInt16 :=
  let u := addA x 0x80
  ((addA u ((u >>> 8) &&& 0xFF)) >>> 8) &&& 0xFF

/-- `pixelgeneric_p.h:230-234` `U8_Alpha::addus8`. -/
def addus8A (a b : UInt16) : UInt16 :=
  let val := addA a b
  let msk := mulA ((val >>> 8) &&& 0x1) 0xFF
  (val ||| msk) &&& 0xFF

/-- `pixelgeneric_p.h:110` `P8_Alpha::operator+(const Packed&)`: wraps at 8 bits. -/
def addP8 (a b : UInt8) : UInt8 := a + b

/-- `compopgeneric_p.h:38-40` for `P8_Alpha`. -/
def srcCopyMaskA (d s : UInt8) (m : UInt32) : UInt8 :=
  packA (div255A (addA (mulA (unpackA d) (m ^^^ 0xFF)) (mulA (unpackA s) m)))

/-- `compopgeneric_p.h:54-56` for `P8_Alpha`. -/
def srcOverA (d s : UInt8) : UInt8 :=
  addP8 s (packA (div255A (mulA (unpackA d) (neg255 s.toUInt32))))

/-- `compopgeneric_p.h:60-62` for `P8_Alpha`. -/
def srcOverMaskA (d s : UInt8) (m : UInt32) : UInt8 :=
  srcOverA d (packA (div255A (mulA (unpackA s) m)))

/-- `compopgeneric_p.h:74-76` for `P8_Alpha`. -/
def plusA (d s : UInt8) : UInt8 := packA (addus8A (unpackA d) (unpackA s))

/-- `compopgeneric_p.h:78-80` for `P8_Alpha`. -/
def plusMaskA (d s : UInt8) (m : UInt32) : UInt8 :=
  packA (addus8A (unpackA d) (div255A (mulA (unpackA s) m)))

/-! ## Span loops (`CompOp_Base`) -/

/-- The three operators of the reference pipeline. -/
inductive Op | srcCopy | srcOver | plus
  deriving DecidableEq, Repr

/-- `compopgeneric_p.h:30,48,70` `kOptimizeOpaque`. -/
def Op.optimizeOpaque : Op → Bool
  | .srcCopy => true
  | _ => false

/-- `OpT::op_prgb32_prgb32(d, s)`. -/
def Op.opaque : Op → UInt32 → UInt32 → UInt32
  | .srcCopy => Comp.srcCopy
  | .srcOver => Comp.srcOver
  | .plus => Comp.plus

/-- `OpT::op_prgb32_prgb32(d, s, m)`. -/
def Op.masked : Op → UInt32 → UInt32 → UInt32 → UInt32
  | .srcCopy => Comp.srcCopyMask
  | .srcOver => Comp.srcOverMask
  | .plus => Comp.plusMask

/-- `compopgeneric_p.h:122-131, 138-144` `compositeCSpanOpaque` over a destination row with the fetched
source pixels.  (The `do ... while (--i)` loop requires `w > 0`; a zero length span is the empty row.) -/
def cspanOpaque (op : Op) : List UInt32 → List UInt32 → List UInt32
  | d :: ds, s :: ss => op.opaque d s :: cspanOpaque op ds ss
  | ds, _ => ds

/-- `compopgeneric_p.h:133-136, 146-152` `compositeCSpanMasked`. -/
def cspanMasked (op : Op) (m : UInt32) : List UInt32 → List UInt32 → List UInt32
  | d :: ds, s :: ss => op.masked d s m :: cspanMasked op m ds ss
  | ds, _ => ds

/-- `compopgeneric_p.h:154-159` `compositeCSpan`. -/
def cspan (op : Op) (m : UInt32) (ds ss : List UInt32) : List UInt32 :=
  if op.optimizeOpaque && m == 255 then cspanOpaque op ds ss else cspanMasked op m ds ss

/-- `compopgeneric_p.h:161-169` `compositeVSpanWithGA`: the mask values already contain the global alpha. -/
def vspanWithGA (op : Op) : List UInt8 → List UInt32 → List UInt32 → List UInt32
  | m :: ms, d :: ds, s :: ss => op.masked d s m.toUInt32 :: vspanWithGA op ms ds ss
  | _, ds, _ => ds

/-- `compopgeneric_p.h:171-179` `compositeVSpanWithoutGA`. -/
def vspanWithoutGA (op : Op) (ga : UInt32) : List UInt8 → List UInt32 → List UInt32 → List UInt32
  | m :: ms, d :: ds, s :: ss =>
      op.masked d s (udiv255 (m.toUInt32 * ga)) :: vspanWithoutGA op ga ms ds ss
  | _, ds, _ => ds

end Blend2D.Comp
