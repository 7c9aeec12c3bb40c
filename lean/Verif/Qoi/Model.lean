import Verif.Pixel.Model
/-!
# Model of `blend2d/codec/qoicodec.cpp` (64-bit arithmetic variant)

Input bytes are a list (the suffix `[src, end)`); a read past its end is the outcome `ub`.  The destination
image is written row by row: `x` is `dst_end - dst_ptr` (pixels left in the current row), `h` is the number of
rows left including the current one, so the write address is row `H - h`, column `w - x`; a write with `x = 0`
is the outcome `ub`.  `out` is the list of pixels written so far, in writing order.
Allocation failure is not modelled.
-/
namespace Blend2D.Qoi
open Pixel

/-- Point update of a 64-entry table. -/
def upd {α} (t : Nat → α) (i : Nat) (v : α) : Nat → α := fun j => if j = i then v else t j

/-! ## Pixel helpers -/

/-- `qoicodec.cpp:58-63` `IndexDiffLumaTableGen::rgb`. -/
def lutRgb (r g b lumaMask : UInt32) : UInt32 :=
  ((r &&& 0xFF) <<< 24) ||| ((g &&& 0xFF) <<< 16) ||| ((b &&& 0xFF) <<< 8) ||| lumaMask

/-- `qoicodec.cpp:65-67` `IndexDiffLumaTableGen::diff`. -/
def lutDiff (b0 : UInt32) : UInt32 :=
  lutRgb (((b0 >>> 4) &&& 3) - 2) (((b0 >>> 2) &&& 3) - 2) ((b0 &&& 3) - 2) 0

/-- `qoicodec.cpp:69-71` `IndexDiffLumaTableGen::luma`. -/
def lutLuma (b0 : UInt32) : UInt32 := lutRgb (b0 - 40) (b0 - 32) (b0 - 40) 0xFF

/-- `qoicodec.cpp:73-79` `IndexDiffLumaTableGen::value` = `qoiIndexDiffLumaLUT[idx]`. -/
def lutValue (idx : UInt32) : UInt32 :=
  if idx < 64 then lutDiff idx else if idx < 128 then lutLuma (idx - 64) else 0

/-- `qoicodec.cpp:84-88` `hashPixelAGxRBx64`. -/
def hash64 (agrb : UInt64) : Nat :=
  let k : UInt64 := ((11 : UInt64) <<< 10) + ((5 : UInt64) <<< 26) + ((3 : UInt64) <<< 42) + ((7 : UInt64) <<< 58)
  ((agrb * k) >>> 58).toNat

/-- `qoicodec.cpp:121-123` `UnpackedPixel::unpack`. -/
def unpackPx (p : UInt32) : UInt64 := ((p.toUInt64 <<< 24) ||| p.toUInt64) &&& 0x00FF00FF00FF00FF

/-- `qoicodec.cpp:97-103` `hashPixelRGBA32`. -/
def hashRgba32 (p : UInt32) : Nat := hash64 (((p.toUInt64 <<< 24) ||| p.toUInt64) &&& 0x00FF00FF00FF00FF)

/-- `qoicodec.cpp:105-107` `hashPixelA8`. -/
def hashA8 (a : UInt32) : Nat := (((0xFF : UInt32) * (3 + 5 + 7) + a * 11) &&& 0x3F).toNat

/-- `qoicodec.cpp:125-127` `UnpackedPixel::unpackRGBA`. -/
def unpackRGBA (r g b a : UInt8) : UInt64 :=
  (a.toUInt64 <<< 48) ||| (g.toUInt64 <<< 32) ||| (r.toUInt64 <<< 16) ||| b.toUInt64

/-- `qoicodec.cpp:129-136` `UnpackedPixel::pack<kHasAlpha>`. -/
def packPx (hasAlpha : Bool) (u : UInt64) : UInt32 :=
  let rgba32 := (u >>> 24).toUInt32 ||| (u &&& 0xFFFFFFFF).toUInt32
  if hasAlpha then cvtPrgb32FromArgb32 rgba32 else rgba32 ||| 0xFF000000

/-- `qoicodec.cpp:144-147` `UnpackedPixel::opRGBX`. -/
def opRGBX (u : UInt64) (hbyte0 : UInt32) (other : UInt64) : UInt64 :=
  let msk : UInt64 := (hbyte0 + 1).toUInt64 <<< 48
  (u &&& msk) ||| (other &&& ~~~msk)

/-- The delta applied by `QOI_OP_DIFF`/`QOI_OP_LUMA`: `qoicodec.cpp:329-337`. -/
def applyDelta (u : UInt64) (b0 b1 : UInt8) : UInt64 :=
  let packedDelta := lutValue (b0.toUInt32 - 64)
  let hb1 := b1.toUInt32 &&& packedDelta
  let packedDelta := packedDelta >>> 8
  let u := u + ((hb1 ||| (hb1 <<< 12)) &&& 0x000F000F).toUInt64
  let u := u + unpackPx packedDelta
  u &&& 0x00FF00FF00FF00FF

/-! ## Decoder -/

/-- State at the head of the `for (;;)` loop of `decode_qoi_data` (`qoicodec.cpp:285`). -/
structure Dec where
  src : List UInt8
  x : Nat
  h : Nat
  packedTable : Nat → UInt32
  unpackedTable : Nat → UInt64
  packed : UInt32
  unpacked : UInt64
  out : List UInt32

/-- Outcome of an iteration / of the decoder. -/
inductive Res where
  | more (d : Dec)
  | done (out : List UInt32)
  | truncated (out : List UInt32)
  | ub

/-- `qoicodec.cpp:387-400`, entered with `dst_ptr == dst_end` and no unfinished run: next row or success. -/
def endRow (w : Nat) (d : Dec) : Res :=
  if d.h - 1 = 0 then .done d.out else .more { d with h := d.h - 1, x := w }

/-- `*dst_ptr = packed_pixel; ++dst_ptr`. -/
def put (d : Dec) (p : UInt32) : Option Dec :=
  if d.x = 0 then none else some { d with x := d.x - 1, out := d.out ++ [p] }

/-- `qoicodec.cpp:342-355` label `store_pixel`. -/
def storePixel (hasAlpha : Bool) (w : Nat) (d : Dec) : Res :=
  let hash := hash64 d.unpacked
  let packed := packPx hasAlpha d.unpacked
  match put { d with packed := packed, unpackedTable := upd d.unpackedTable hash d.unpacked,
                     packedTable := upd d.packedTable hash packed } packed with
  | none => .ub
  | some d => if d.x ≠ 0 then .more d else endRow w d

/-- `qoicodec.cpp:374-401` label `store_rle` and the row advance, for a run of `run` pixels.  The recursion is
over the number of rows left. -/
def storeRle (w : Nat) : Nat → Nat → Dec → Res
  | 0, _, _ => .ub
  | h + 1, run, d =>
    let fill := min run d.x
    let d := { d with x := d.x - fill, out := d.out ++ List.replicate fill d.packed }
    let run := run - fill
    if d.x ≠ 0 then .more d
    else if h = 0 then .done d.out
    else
      let d := { d with h := h, x := w }
      if run ≠ 0 then storeRle w h run d else .more d

/-- One iteration of the `for (;;)` loop of `decode_qoi_data` (`qoicodec.cpp:285-402`). -/
def step (hasAlpha : Bool) (w : Nat) (d : Dec) : Res :=
  if d.src.length < 9 then .truncated d.out
  else match d.src with
    | b0 :: b1 :: rest =>
      let src := b1 :: rest
      if b0 < 0xC0 then
        if b0 < 64 then
          let d := { d with packed := d.packedTable b0.toNat, unpacked := d.unpackedTable b0.toNat, src := src }
          match put d d.packed with
          | none => .ub
          | some d =>
            if d.x ≠ 0 then
              if ¬ b1 < 64 then .more d
              else
                let d := { d with packed := d.packedTable b1.toNat, unpacked := d.unpackedTable b1.toNat,
                                  src := rest }
                match put d d.packed with
                | none => .ub
                | some d => if d.x ≠ 0 then .more d else endRow w d
            else endRow w d
        else
          storePixel hasAlpha w { d with src := src.drop (b0.toNat >>> 7), unpacked := applyDelta d.unpacked b0 b1 }
      else if b0 ≥ 0xFE then
        match rest with
        | s1 :: s2 :: s3 :: _ =>
          storePixel hasAlpha w { d with
            unpacked := opRGBX d.unpacked b0.toUInt32 (unpackRGBA b1 s1 s2 s3), src := src.drop (b0.toNat - 251) }
        | _ => .ub
      else
        storeRle w d.h ((b0.toNat &&& 0x3F) + 1) { d with src := src }
    | _ => .ub

/-- The loop, with fuel. -/
def loop (hasAlpha : Bool) (w : Nat) : Nat → Dec → Res
  | 0, _ => .ub
  | n + 1, d => match step hasAlpha w d with
    | .more d' => loop hasAlpha w n d'
    | r => r

/-- `qoicodec.cpp:255-284` `decode_qoi_data`, prologue (including the edge case of a leading run) and loop.
Every iteration consumes at least one byte, so the fuel is never exhausted (proved below). -/
def decodeData (hasAlpha : Bool) (w h : Nat) (packedTable : Nat → UInt32) (src : List UInt8) : Res :=
  match src with
  | [] => .ub
  | b0 :: _ =>
    let packed : UInt32 := 0xFF000000
    let unpacked := unpackPx packed
    let lead := b0 ≥ 0xC0 && b0 < 0xC0 + 62
    let d : Dec := { src, x := w, h, packedTable, unpackedTable := fun _ => 0, packed, unpacked, out := [] }
    let d := if lead then { d with packedTable := upd packedTable (hash64 unpacked) packed,
                                   unpackedTable := upd (fun _ => 0) (hash64 unpacked) unpacked } else d
    loop hasAlpha w (src.length + 1) d

/-- Image formats that the codec handles. -/
inductive Format | prgb32 | xrgb32 | a8
  deriving DecidableEq, Repr

/-- Result of decoding a file. -/
inductive FileRes where
  | ok (format : Format) (w h : Nat) (pixels : List UInt32)
  | error (code : String)
  | ub
  deriving DecidableEq

/-- `MemOps::readU32uBE`. -/
def be32 (b0 b1 b2 b3 : UInt8) : Nat :=
  b0.toNat * 16777216 + b1.toNat * 65536 + b2.toNat * 256 + b3.toNat

/-- `decoder_read_info_internal` (`qoicodec.cpp:203-246`) followed by `decoder_read_frame_internal`
(`qoicodec.cpp:404-430`), as called by `read_frame` on a fresh decoder.  Image allocation always succeeds. -/
def decodeFile (data : List UInt8) : FileRes :=
  match data with
  | m0 :: m1 :: m2 :: m3 :: w0 :: w1 :: w2 :: w3 :: h0 :: h1 :: h2 :: h3 :: channels :: colorspace :: body =>
    if ¬ (m0 = 0x71 ∧ m1 = 0x6F ∧ m2 = 0x69 ∧ m3 = 0x66) then .error "INVALID_SIGNATURE"
    else
      let w := be32 w0 w1 w2 w3
      let h := be32 h0 h1 h2 h3
      if w = 0 ∨ h = 0 then .error "INVALID_DATA"
      else if channels ≠ 3 ∧ channels ≠ 4 then .error "IMAGE_UNKNOWN_FILE_FORMAT"
      else if colorspace > 1 then .error "IMAGE_UNKNOWN_FILE_FORMAT"
      else if w > 65535 ∨ h > 65535 then .error "IMAGE_TOO_LARGE"
      else if body.isEmpty then .error "DATA_TRUNCATED"
      else
        let hasAlpha := channels = 4
        match decodeData hasAlpha w h (fun _ => if hasAlpha then 0 else 0xFF000000) body with
        | .done out => .ok (if hasAlpha then .prgb32 else .xrgb32) w h out
        | .truncated _ => .error "DATA_TRUNCATED"
        | .more _ => .ub
        | .ub => .ub
  | _ => .error "DATA_TRUNCATED"

/-! ## Encoders

`encodeQoiDataA8`, `encodeQoiDataXRGB32` and `encodeQoiDataPRGB32` (`qoicodec.cpp:496-792`) share the same loop
text; they differ in how a pixel is loaded, compared with the previous pixel and emitted. -/

structure Codec (σ : Type) where
  /-- conversion applied to a pixel when it is read -/
  load : UInt32 → UInt32
  /-- comparison with the previous pixel (`p == pixel`) -/
  same : σ → UInt32 → Bool
  /-- emission of a pixel and the new state -/
  emit : σ → UInt32 → List UInt8 × σ

/-- `while (x) { p = *src_data++; if (p != pixel) break; x--; }`; `none` is a read past the row. -/
def scanRun (load : UInt32 → UInt32) (same : UInt32 → Bool) :
    Nat → List UInt32 → UInt32 → Option (Nat × List UInt32 × UInt32)
  | 0, cur, p => some (0, cur, p)
  | _ + 1, [], _ => none
  | x + 1, q :: cur, _ =>
    if same (load q) then scanRun load same x cur (load q) else some (x + 1, cur, load q)

/-- The `for (;;)` loop that lets a run continue on the following rows.  Recursion over the rows left `h`;
`rows` are the rows after the current one. -/
def runLoop (load : UInt32 → UInt32) (same : UInt32 → Bool) (w : Nat) :
    Nat → Nat → List UInt32 → List (List UInt32) → UInt32 → Nat →
      Option (Nat × Nat × List UInt32 × List (List UInt32) × UInt32 × Nat)
  | 0, _, _, _, _, _ => none
  | h + 1, x, cur, rows, p, n =>
    match scanRun load same x cur p with
    | none => none
    | some (x', cur', p') =>
      let n := n + (x - x')
      if x' = 0 then
        if h ≠ 0 then
          match rows with
          | [] => none
          | r :: rows => runLoop load same w h w r rows p' n
        else some (0, 0, cur', rows, p', n)
      else some (x', h + 1, cur', rows, p', n)

/-- `do { run = min(n, 62); *dst_data++ = uint8_t(run + 0xBF); n -= run; } while (n);` for `n > 0`. -/
def emitRuns : Nat → Nat → List UInt8
  | 0, _ => []
  | fuel + 1, n =>
    let run := min n 62
    UInt8.ofNat (run + 0xBF) :: (if n - run ≠ 0 then emitRuns fuel (n - run) else [])

/-- The encoder loop.  `none` is undefined behaviour (reading outside the image) or exhausted fuel. -/
def encLoop {σ} (c : Codec σ) (w : Nat) :
    Nat → Nat → Nat → List UInt32 → List (List UInt32) → σ → List UInt8 → Option (List UInt8)
  | 0, _, _, _, _, _, _ => none
  | fuel + 1, x, h, cur, rows, s, out =>
    match cur with
    | [] => none
    | q :: cur =>
      let p := c.load q
      -- emission of `p` and the advance to the next pixel / row
      let fin := fun (x h : Nat) (cur : List UInt32) (rows : List (List UInt32)) (p : UInt32) (out : List UInt8) =>
        let (bytes, s') := c.emit s p
        let out := out ++ bytes
        if x - 1 ≠ 0 then encLoop c w fuel (x - 1) h cur rows s' out
        else if h - 1 = 0 then some out
        else match rows with
          | [] => none
          | r :: rows => encLoop c w fuel w (h - 1) r rows s' out
      if c.same s p then
        match runLoop c.load (c.same s) w h (x - 1) cur rows p 1 with
        | none => none
        | some (x, h, cur, rows, p, n) =>
          let out := out ++ emitRuns n n
          if x = 0 then some out else fin x h cur rows p out
      else fin x h cur rows p out

/-- State of the A8 encoder: previous pixel and table. -/
structure EncA8 where
  pixel : UInt32 := 0xFFFFFFFF
  table : Nat → UInt16 := fun _ => 0xFFFF

/-- `qoicodec.cpp:555-572` emission of one alpha value. -/
def emitA8 (s : EncA8) (p : UInt32) : List UInt8 × EncA8 :=
  let hash := hashA8 p
  if (s.table hash).toUInt32 = p then ([UInt8.ofNat (0x00 ||| hash)], { s with pixel := p })
  else ([0xFF, 0xFF, 0xFF, 0xFF, p.toUInt8], { pixel := p, table := upd s.table hash p.toUInt16 })

/-- `encodeQoiDataA8`: a source byte is zero-extended. -/
def codecA8 : Codec EncA8 where
  load p := p &&& 0xFF
  same s p := p == s.pixel
  emit := emitA8

def chR (p : UInt32) : UInt32 := (p >>> 16) &&& 0xFF
def chG (p : UInt32) : UInt32 := (p >>> 8) &&& 0xFF
def chB (p : UInt32) : UInt32 := p &&& 0xFF
def chA (p : UInt32) : UInt32 := p >>> 24

/-- `qoicodec.cpp:637-671` (XRGB32) and `qoicodec.cpp:734-768` (PRGB32): DIFF, LUMA or RGB chunk. -/
def emitDelta (pixel p : UInt32) : List UInt8 :=
  let dr := chR p - chR pixel
  let dg := chG p - chG pixel
  let db := chB p - chB pixel
  let xr := (dr + 2) &&& 0xFF
  let xg := (dg + 2) &&& 0xFF
  let xb := (db + 2) &&& 0xFF
  if (xr ||| xg ||| xb) ≤ 3 then [((0x40 : UInt32) ||| (xr <<< 4) ||| (xg <<< 2) ||| xb).toUInt8]
  else
    let dgr := dr - dg
    let dgb := db - dg
    let xr := (dgr + 8) &&& 0xFF
    let xg := (dg + 32) &&& 0xFF
    let xb := (dgb + 8) &&& 0xFF
    if (xr ||| xb) ≤ 0xF ∧ xg ≤ 0x3F then [((0x80 : UInt32) ||| xg).toUInt8, ((xr <<< 4) ||| xb).toUInt8]
    else [0xFE, (chR p).toUInt8, (chG p).toUInt8, (chB p).toUInt8]

structure EncX where
  pixel : UInt32 := 0xFF000000
  table : Nat → UInt32 := fun _ => 0

/-- `qoicodec.cpp:628-675` emission of one XRGB32 pixel. -/
def emitX (s : EncX) (p : UInt32) : List UInt8 × EncX :=
  let hash := hashRgba32 p
  if s.table hash = p then ([UInt8.ofNat (0x00 ||| hash)], { s with pixel := p })
  else (emitDelta s.pixel p, { pixel := p, table := upd s.table hash p })

/-- `encodeQoiDataXRGB32`. -/
def codecX : Codec EncX where
  load p := p ||| 0xFF000000
  same s p := p == s.pixel
  emit := emitX

structure EncP where
  pixelPM : UInt32 := 0xFF000000
  pixelNP : UInt32 := 0xFF000000
  table : Nat → UInt32 := fun _ => 0

/-- `qoicodec.cpp:722-783` emission of one PRGB32 pixel. -/
def emitP (s : EncP) (pm : UInt32) : List UInt8 × EncP :=
  let np := cvtArgb32FromPrgb32 pm
  let hash := hashRgba32 np
  if s.table hash = np then ([UInt8.ofNat (0x00 ||| hash)], { s with pixelPM := pm, pixelNP := np })
  else
    ((if chA s.pixelNP = chA np then emitDelta s.pixelNP np
      else [0xFF, (chR np).toUInt8, (chG np).toUInt8, (chB np).toUInt8, (chA np).toUInt8]),
     { pixelPM := pm, pixelNP := np, table := upd s.table hash np })

/-- `encodeQoiDataPRGB32`. -/
def codecP : Codec EncP where
  load p := p
  same s p := p == s.pixelPM
  emit := emitP

/-- Number of pixels of an image, used as fuel (each iteration consumes at least one pixel). -/
def pixelCount (rows : List (List UInt32)) : Nat := rows.flatten.length

/-- Encoding of the pixel data; `rows` is the non-empty image. -/
def encodeData {σ} (c : Codec σ) (s : σ) (w h : Nat) (rows : List (List UInt32)) : Option (List UInt8) :=
  match rows with
  | [] => none
  | r :: rows' => encLoop c w (pixelCount rows + 1) w h r rows' s []

/-- `MemOps::writeU32uBE`. -/
def putBe32 (v : Nat) : List UInt8 :=
  [UInt8.ofNat (v / 16777216), UInt8.ofNat (v / 65536), UInt8.ofNat (v / 256), UInt8.ofNat v]

def endMarker : List UInt8 := [0, 0, 0, 0, 0, 0, 0, 1]

/-- `encoder_write_frame_impl` (`qoicodec.cpp:802-866`) on an image of `h` rows of `w` pixels. -/
def encodeFile (format : Format) (w h : Nat) (rows : List (List UInt32)) : Option (List UInt8) :=
  let channels : UInt8 := if format = .xrgb32 then 3 else 4
  let header : List UInt8 := [0x71, 0x6F, 0x69, 0x66] ++ putBe32 w ++ putBe32 h ++ [channels, 0]
  let body := match format with
    | .a8 => encodeData codecA8 {} w h rows
    | .xrgb32 => encodeData codecX {} w h rows
    | .prgb32 => encodeData codecP {} w h rows
  body.map fun b => header ++ b ++ endMarker

/-- The size reserved for the output (`qoicodec.cpp:820-828`). -/
def maxSize (format : Format) (w h : Nat) : Nat :=
  w * h * ((if format = .xrgb32 then 3 else 4) + 1) + 14 + 8

end Blend2D.Qoi
