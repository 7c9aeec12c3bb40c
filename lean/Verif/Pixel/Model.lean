/-!
# Model of `blend2d/pixelops/scalar_p.h` and the unpremultiply table of `blend2d/tables/tables_p.h`

Non-SIMD code paths; `uint32_t`/`uint64_t` are `UInt32`/`UInt64`.
-/
namespace Blend2D.Pixel

/-- `scalar_p.h:26` `neg255`. -/
def neg255 (x : UInt32) : UInt32 := x ^^^ 0xFF

/-- `scalar_p.h:34` `udiv255`. -/
def udiv255 (x : UInt32) : UInt32 := ((x + 0x80) * (0x101 : UInt32)) >>> 16

/-- `scalar_p.h:37` `udiv65535`. -/
def udiv65535 (x : UInt32) : UInt32 := ((x + (0x8000 : UInt32)) + ((x + (0x8000 : UInt32)) >>> 16)) >>> 16

/-- `scalar_p.h:40-46` `udiv65535_packed`. -/
def udiv65535Packed (x : UInt64) : UInt64 :=
  let x := x + 0x0000800000008000
  ((x + ((x >>> 16) &&& 0x0000FFFF0000FFFF)) >>> 16) &&& 0x0000FFFF0000FFFF

/-- `tables_p.h:491-533` `unpremultiply_rcp`. -/
def unpremultiplyRcp : Array UInt32 := #[
    0x00000000, 0x00FF00FF, 0x007F807F, 0x00550055, 0x003FC03F, 0x00330033, 0x002A802A, 0x00246DDB,
    0x001FE01F, 0x001C5571, 0x00198019, 0x00172EA2, 0x00154015, 0x00139D9D, 0x001236ED, 0x00110011,
    0x000FF00F, 0x000F000F, 0x000E2AB8, 0x000D6BD7, 0x000CC00C, 0x000C249E, 0x000B9751, 0x000B164D,
    0x000AA00A, 0x000A333D, 0x0009CECE, 0x000971D0, 0x00091B76, 0x0008CB11, 0x00088008, 0x000839D6,
    0x0007F807, 0x0007BA36, 0x00078007, 0x0007492B, 0x0007155C, 0x0006E459, 0x0006B5EB, 0x000689DF,
    0x00066006, 0x00063838, 0x0006124F, 0x0005EE29, 0x0005CBA8, 0x0005AAB0, 0x00058B26, 0x00056CF5,
    0x00055005, 0x00053443, 0x0005199E, 0x00050005, 0x0004E767, 0x0004CFB7, 0x0004B8E8, 0x0004A2ED,
    0x00048DBB, 0x00047947, 0x00046588, 0x00045275, 0x00044004, 0x00042E2E, 0x00041CEB, 0x00040C34,
    0x0003FC03, 0x0003EC52, 0x0003DD1B, 0x0003CE57, 0x0003C003, 0x0003B219, 0x0003A495, 0x00039773,
    0x00038AAE, 0x00037E42, 0x0003722C, 0x00036669, 0x00035AF5, 0x00034FCE, 0x000344EF, 0x00033A57,
    0x00033003, 0x000325F0, 0x00031C1C, 0x00031284, 0x00030927, 0x00030003, 0x0002F714, 0x0002EE5B,
    0x0002E5D4, 0x0002DD7E, 0x0002D558, 0x0002CD5F, 0x0002C593, 0x0002BDF2, 0x0002B67A, 0x0002AF2B,
    0x0002A802, 0x0002A0FF, 0x00029A21, 0x00029367, 0x00028CCF, 0x00028658, 0x00028002, 0x000279CB,
    0x000273B3, 0x00026DB9, 0x000267DB, 0x0002621A, 0x00025C74, 0x000256E8, 0x00025176, 0x00024C1D,
    0x000246DD, 0x000241B5, 0x00023CA3, 0x000237A9, 0x000232C4, 0x00022DF5, 0x0002293A, 0x00022494,
    0x00022002, 0x00021B83, 0x00021717, 0x000212BD, 0x00020E75, 0x00020A3F, 0x0002061A, 0x00020206,
    0x0001FE01, 0x0001FA0D, 0x0001F629, 0x0001F254, 0x0001EE8D, 0x0001EAD5, 0x0001E72B, 0x0001E390,
    0x0001E001, 0x0001DC80, 0x0001D90C, 0x0001D5A5, 0x0001D24A, 0x0001CEFC, 0x0001CBB9, 0x0001C882,
    0x0001C557, 0x0001C236, 0x0001BF21, 0x0001BC16, 0x0001B916, 0x0001B620, 0x0001B334, 0x0001B053,
    0x0001AD7A, 0x0001AAAC, 0x0001A7E7, 0x0001A52A, 0x0001A277, 0x00019FCD, 0x00019D2B, 0x00019A92,
    0x00019801, 0x00019578, 0x000192F8, 0x0001907F, 0x00018E0E, 0x00018BA4, 0x00018942, 0x000186E7,
    0x00018493, 0x00018247, 0x00018001, 0x00017DC2, 0x00017B8A, 0x00017958, 0x0001772D, 0x00017508,
    0x000172EA, 0x000170D1, 0x00016EBF, 0x00016CB2, 0x00016AAC, 0x000168AB, 0x000166AF, 0x000164BA,
    0x000162C9, 0x000160DE, 0x00015EF9, 0x00015D18, 0x00015B3D, 0x00015966, 0x00015795, 0x000155C9,
    0x00015401, 0x0001523E, 0x0001507F, 0x00014EC6, 0x00014D10, 0x00014B60, 0x000149B3, 0x0001480B,
    0x00014667, 0x000144C7, 0x0001432C, 0x00014194, 0x00014001, 0x00013E71, 0x00013CE5, 0x00013B5D,
    0x000139D9, 0x00013859, 0x000136DC, 0x00013563, 0x000133ED, 0x0001327B, 0x0001310D, 0x00012FA1,
    0x00012E3A, 0x00012CD5, 0x00012B74, 0x00012A16, 0x000128BB, 0x00012763, 0x0001260E, 0x000124BD,
    0x0001236E, 0x00012223, 0x000120DA, 0x00011F94, 0x00011E51, 0x00011D11, 0x00011BD4, 0x00011A9A,
    0x00011962, 0x0001182D, 0x000116FA, 0x000115CA, 0x0001149D, 0x00011372, 0x0001124A, 0x00011124,
    0x00011001, 0x00010EE0, 0x00010DC1, 0x00010CA5, 0x00010B8B, 0x00010A73, 0x0001095E, 0x0001084B,
    0x0001073A, 0x0001062C, 0x0001051F, 0x00010415, 0x0001030D, 0x00010207, 0x00010103, 0x00010001]

/-- `scalar_p.h:48-53` `unpremultiply_rgb_8bit`, one component (the alpha index is a byte). -/
def unpremultiply8 (c a : UInt32) : UInt32 :=
  (c * unpremultiplyRcp.getD a.toNat 0 + 0x8000) >>> 16

/-- `scalar_p.h:60-78` `cvt_xrgb32_0888_from_xrgb16_0555`. -/
def cvtXrgb32FromXrgb16_0555 (src : UInt32) : UInt32 :=
  let t0 := src
  let t0 := t0 * 0x00080008
  let t0 := t0 &&& 0x1F03E0F8
  let t0 := t0 ||| (t0 >>> 5)
  let t1 := t0 >>> 13
  let t2 := t0 <<< 6
  let t0 := t0 &&& 0x000000FF
  let t1 := t1 &&& 0x0000FF00
  let t2 := t2 &&& 0x00FF0000
  0xFF000000 ||| t0 ||| t1 ||| t2

/-- `scalar_p.h:79-99` `cvt_xrgb32_0888_from_xrgb16_0565`. -/
def cvtXrgb32FromXrgb16_0565 (src : UInt32) : UInt32 :=
  let t0 := src &&& 0x0000F81F
  let t1 := src &&& 0x000007E0
  let t0 := t0 * 0x21
  let t1 := t1 * 0x41
  let t2 := t0 <<< 3
  let t0 := t0 >>> 2
  let t1 := t1 >>> 1
  let t0 := t0 &&& 0x000000FF
  let t1 := t1 &&& 0x0000FF00
  let t2 := t2 &&& 0x00FF0000
  0xFF000000 ||| t0 ||| t1 ||| t2

/-- `scalar_p.h:101-120` `cvt_argb32_8888_from_argb16_4444`. -/
def cvtArgb32FromArgb16_4444 (src : UInt32) : UInt32 :=
  let t0 := src
  let t1 := t0 <<< 12
  let t2 := t0 <<< 4
  let t0 := t0 ||| t1
  let t1 := t2 <<< 4
  let t0 := t0 &&& 0x0F00000F
  let t1 := t1 &&& 0x000F0000
  let t2 := t2 &&& 0x00000F00
  let t0 := t0 + t1
  let t0 := t0 + t2
  t0 * 0x11

/-- `scalar_p.h:122-144` `cvt_prgb32_8888_from_argb32_8888(val32, _a)`, the `#else` branch. -/
def cvtPrgb32FromArgb32With (val32 a : UInt32) : UInt32 :=
  let val32 := val32 ||| 0xFF000000
  let rb := val32 &&& 0x00FF00FF
  let ag := (val32 >>> 8) &&& 0x00FF00FF
  let rb := (rb * a) + 0x00800080
  let ag := (ag * a) + 0x00800080
  let rb := (rb + ((rb >>> 8) &&& 0x00FF00FF)) &&& 0xFF00FF00
  let ag := (ag + ((ag >>> 8) &&& 0x00FF00FF)) &&& 0xFF00FF00
  ag ||| (rb >>> 8)

/-- `scalar_p.h:146-157` `cvt_prgb32_8888_from_argb32_8888(val32)`, the `#else` branch. -/
def cvtPrgb32FromArgb32 (val32 : UInt32) : UInt32 :=
  cvtPrgb32FromArgb32With val32 (val32 >>> 24)

/-- `scalar_p.h:159-167` `cvt_argb32_8888_from_prgb32_8888`. -/
def cvtArgb32FromPrgb32 (val32 : UInt32) : UInt32 :=
  let r := (val32 >>> 16) &&& 0xFF
  let g := (val32 >>> 8) &&& 0xFF
  let b := val32 &&& 0xFF
  let a := val32 >>> 24
  (a <<< 24) ||| (unpremultiply8 r a <<< 16) ||| (unpremultiply8 g a <<< 8) ||| unpremultiply8 b a

/-- `scalar_p.h:169-177` `cvt_abgr32_8888_from_prgb32_8888`. -/
def cvtAbgr32FromPrgb32 (val32 : UInt32) : UInt32 :=
  let r := (val32 >>> 16) &&& 0xFF
  let g := (val32 >>> 8) &&& 0xFF
  let b := val32 &&& 0xFF
  let a := val32 >>> 24
  (a <<< 24) ||| (unpremultiply8 b a <<< 16) ||| (unpremultiply8 g a <<< 8) ||| unpremultiply8 r a

/-- `scalar_p.h:179-204` `cvt_prgb64_8888_from_argb64_8888(val64, _a)`, the non-x86 64-bit branch.
`(g << 16)` is computed in 32 bits in the source, as here. -/
def cvtPrgb64FromArgb64With (val64 : UInt64) (a : UInt32) : UInt64 :=
  let rb := udiv65535Packed ((val64 &&& 0x0000FFFF0000FFFF) * a.toUInt64)
  let g := udiv65535 (((val64 >>> 16) &&& 0xFFFF).toUInt32 * a)
  (a.toUInt64 <<< 48) ||| rb ||| (g <<< 16).toUInt64

/-- `scalar_p.h:206-225` `cvt_prgb64_8888_from_argb64_8888(val64)`, the non-x86 branch. -/
def cvtPrgb64FromArgb64 (val64 : UInt64) : UInt64 :=
  cvtPrgb64FromArgb64With val64 (val64 >>> 48).toUInt32

end Blend2D.Pixel
