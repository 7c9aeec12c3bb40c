import Verif.PixConv.Model

/-!
# Model of `codec/bmpcodec.cpp`

A file is a list of bytes and every read goes through `rd8`, `rd16` or `rd32`, which give `outside` beyond its end; the pixels of a
run-length encoded image are written one by one with `put`, which gives `outside` beyond the memory of the image.
-/
namespace Blend2D.Bmp
open PixConv

/-- A result, an error that is returned to the caller, or an access outside of the file or the image. -/
inductive Res (α : Type) where
  | ok (a : α)
  | error
  | outside

def Res.bind {α β : Type} (x : Res α) (f : α → Res β) : Res β :=
  match x with
  | .ok a => f a
  | .error => .error
  | .outside => .outside

instance : Monad Res where
  pure := .ok
  bind := Res.bind

/-- Return an error unless a condition holds. -/
def need (c : Bool) : Res Unit := if c then .ok () else .error

/-! ## Run-length encoding -/

/-- The memory of an image in the order of the file: row, column; `none` has not been written. -/
abbrev Canvas := Nat → Nat → Option UInt32

/-- The variables of the decoders: `x`, `y`, the position of `dst_data` within its row and the row of `dst_line`. -/
structure Pen where
  x : Nat := 0
  y : Nat := 0
  px : Nat := 0
  py : Nat := 0
deriving DecidableEq

/-- `MemOps::writeU32a`: the image has `m` rows of `w` pixels. -/
def put (w m : Nat) (c : Canvas) (py px : Nat) (v : UInt32) : Res Canvas :=
  if py < m ∧ px < w then .ok (fun j i => if j = py ∧ i = px then some v else c j i) else .outside

/-- Consecutive pixels. -/
def putRun (w m : Nat) (c : Canvas) (py px : Nat) : List UInt32 → Res Canvas
  | [] => .ok c
  | v :: vs => do
    let c ← put w m c py px v
    putRun w m c py (px + 1) vs

/-- `a - b` of `uint32_t`. -/
def sub32 (a b : Nat) : Nat := (a + 2 ^ 32 - b) % 2 ^ 32

/-- The pixels of `RLE_FILL` with two colours (bmpcodec.cpp:131-144). -/
def alternate (c0 c1 : UInt32) : Nat → List UInt32
  | 0 => []
  | 1 => [c0]
  | n + 2 => c0 :: c1 :: alternate c0 c1 n

/-- The pixels of `RLE_FILL` (bmpcodec.cpp:130-144, 244-250). -/
def fillPixels (four : Bool) (pal : Nat → UInt32) (b1 i : Nat) : List UInt32 :=
  if four then alternate (pal (b1 / 16)) (pal (b1 % 16)) i else List.replicate i (pal b1)

/-- `req_bytes` (bmpcodec.cpp:149, 255). -/
def required (four : Bool) (n : Nat) : Nat := if four then (n + 3) / 2 / 2 * 2 else (n + 1) / 2 * 2

/-- The indexes of an absolute run of RLE8 and the rest of the data (bmpcodec.cpp:261-274). -/
def absolute8 : Nat → List UInt8 → Res (List Nat × List UInt8)
  | 0, p => .ok ([], p)
  | 1, a :: p => .ok ([a.toNat], p.drop 1)
  | n + 2, a :: b :: p => do
    let (l, p) ← absolute8 n p
    .ok (a.toNat :: b.toNat :: l, p)
  | _, _ => .outside

/-- The indexes of an absolute run of RLE4 and the rest of the data (bmpcodec.cpp:155-182). -/
def absolute4 : Nat → List UInt8 → Res (List Nat × List UInt8)
  | 0, p => .ok ([], p)
  | n + 4, a :: b :: p => do
    let (l, p) ← absolute4 n p
    .ok (a.toNat / 16 :: a.toNat % 16 :: b.toNat / 16 :: b.toNat % 16 :: l, p)
  | n, a :: b :: p => .ok ([a.toNat / 16, a.toNat % 16, b.toNat / 16].take n, p)
  | _, _ => .outside

/-- An absolute run. -/
def absolute (four : Bool) (n : Nat) (p : List UInt8) : Res (List Nat × List UInt8) :=
  if four then absolute4 n p else absolute8 n p

/-- The loop that fills `n` rows to their ends with the background (bmpcodec.cpp:204-211, 296-303). -/
def finishRows (w m : Nat) : Nat → Canvas → Pen → Res (Canvas × Pen)
  | 0, c, s => .ok (c, s)
  | n + 1, c, s => do
    let c ← putRun w m c s.py s.px (List.replicate (sub32 w s.x) 0)
    finishRows w m n c ⟨0, s.y + 1, 0, s.py + 1⟩

/-- `RLE_SKIP` to a position (bmpcodec.cpp:204-215, 296-307). -/
def skipTo (w m : Nat) (c : Canvas) (s : Pen) (x y : Nat) : Res (Canvas × Pen) := do
  let (c, s) ← finishRows w m (y - s.y) c s
  let c ← putRun w m c s.py s.px (List.replicate (x - s.x) 0)
  .ok (c, ⟨max s.x x, s.y, s.px + (x - s.x), s.py⟩)

/-- What a turn of the loop does: it goes on with the rest of the data, or the image is complete. -/
inductive Turn where
  | go (c : Canvas) (s : Pen) (p : List UInt8)
  | done (c : Canvas)

/-- `RLE_FILL` (bmpcodec.cpp:129-145, 243-251). -/
def fillTurn (four : Bool) (w m : Nat) (pal : Nat → UInt32) (c : Canvas) (s : Pen) (b0 b1 : Nat) (p : List UInt8) : Res Turn := do
  let i := min b0 (sub32 w s.x)
  let c ← putRun w m c s.py s.px (fillPixels four pal b1 i)
  .ok (.go c { s with x := s.x + i, px := s.px + i } p)

/-- An absolute run (bmpcodec.cpp:146-183, 252-275). -/
def absoluteTurn (four : Bool) (w m : Nat) (pal : Nat → UInt32) (c : Canvas) (s : Pen) (b1 : Nat) (p : List UInt8) : Res Turn := do
  let i := min b1 (sub32 w s.x)
  need (required four b1 ≤ p.length)
  let (l, p) ← absolute four i p
  let c ← putRun w m c s.py s.px (l.map pal)
  .ok (.go c { s with x := s.x + i, px := s.px + i } p)

/-- The end of `RLE_SKIP` (bmpcodec.cpp:204-220, 296-312). -/
def skipTurn (w m h : Nat) (c : Canvas) (s : Pen) (x y : Nat) (stop : Bool) (p : List UInt8) : Res Turn := do
  let (c, s) ← skipTo w m c s x y
  .ok (if stop ∨ s.y = h then .done c else .go c s p)

/-- `kRleMove` (bmpcodec.cpp:193-202, 285-294). -/
def moveTurn (w m h : Nat) (c : Canvas) (s : Pen) : List UInt8 → Res Turn
  | dx :: dy :: p =>
    if s.x + dx.toNat > w ∨ s.y + dy.toNat > h then .error
    else skipTurn w m h c s (s.x + dx.toNat) (s.y + dy.toNat) false p
  | _ => .error

/-- One turn of the loop of `decodeRLE4` (bmpcodec.cpp:119-222) and `decodeRLE8` (lines 235-314). -/
def turn (four : Bool) (w m h : Nat) (pal : Nat → UInt32) (c : Canvas) (s : Pen) : List UInt8 → Res Turn
  | b0 :: b1 :: p =>
    if b0 ≠ 0 then fillTurn four w m pal c s b0.toNat b1.toNat p
    else if 3 ≤ b1.toNat then absoluteTurn four w m pal c s b1.toNat p
    else if b1 = 0 then skipTurn w m h c s 0 (s.y + 1) false p
    else if b1 = 2 then moveTurn w m h c s p
    else skipTurn w m h c s 0 h true p
  | _ => .error

/-- `decodeRLE4` (bmpcodec.cpp:112-223), `decodeRLE8` (lines 228-315). Each turn takes at least two bytes, so the number of turns
is bounded by the length of the data. -/
def rleLoop (four : Bool) (w m h : Nat) (pal : Nat → UInt32) : Nat → Canvas → Pen → List UInt8 → Res Canvas
  | 0, _, _, _ => .error
  | n + 1, c, s, p => do
    match ← turn four w m h pal c s p with
    | .done c => .ok c
    | .go c s p => rleLoop four w m h pal n c s p

/-- The decoder of an image of `w × h` pixels, in memory for `m` rows. -/
def rle (four : Bool) (w m h : Nat) (pal : Nat → UInt32) (p : List UInt8) : Res Canvas :=
  rleLoop four w m h pal (p.length + 1) (fun _ _ => none) {} p

/-! ## Headers -/

def rd8 (d : List UInt8) (i : Nat) : Res Nat := match d[i]? with | some b => .ok b.toNat | none => .outside

def rd16 (d : List UInt8) (i : Nat) : Res Nat := do
  let a ← rd8 d i
  let b ← rd8 d (i + 1)
  .ok (a + 256 * b)

def rd32 (d : List UInt8) (i : Nat) : Res Nat := do
  let a ← rd16 d i
  let b ← rd16 d (i + 2)
  .ok (a + 65536 * b)

/-- A number of `n` bits as a signed one. -/
def signed (n v : Nat) : Int := if v < 2 ^ (n - 1) then v else (v : Int) - 2 ^ n

/-- A field of `info.win` (bmpcodec_p.h:108-172), which is zero beyond the header that was copied (bmpcodec.cpp:372). -/
def winField (d : List UInt8) (hdr k : Nat) : Res Nat := if k + 4 ≤ hdr then rd32 d (14 + k) else .ok 0

/-- What the headers say (bmpcodec.cpp:375-412). -/
structure Head where
  hdr : Nat
  offset : Nat
  w : Int
  h : Int
  planes : Nat
  depth : Nat
  compression : Nat
  imageSize : Nat

/-- The size, depth and compression (bmpcodec.cpp:375-412). -/
def readHead (d : List UInt8) (hdr offset : Nat) : Res Head :=
  if hdr = 12 then do
    let w ← rd16 d 18
    let h ← rd16 d 20
    let planes ← rd16 d 22
    let depth ← rd16 d 24
    .ok ⟨hdr, offset, signed 16 w, signed 16 h, planes, depth, 0, 0⟩
  else do
    let w ← rd32 d 18
    let h ← rd32 d 22
    let planes ← rd16 d 26
    let depth ← rd16 d 28
    let compression ← rd32 d 30
    let imageSize ← rd32 d 34
    .ok ⟨hdr, offset, signed 32 w, signed 32 h, planes, depth, compression, imageSize⟩

/-- `IntOps::is_bit_mask_consecutive` (intops_p.h:309-312); the lowest bit is `x & -x`. -/
def consecutive (x : UInt32) : Bool := x ≠ 0 ∧ (x ^^^ (x + (x &&& (~~~x + 1)))) ≥ x

/-- `check_bit_masks` (bmpcodec.cpp:86-110) without the first mask. -/
def checkMasks : List (UInt32 × Bool) → UInt32 → Bool
  | [], _ => true
  | (m, colour) :: l, combined =>
    if m = 0 ∧ colour then false
    else if m ≠ 0 ∧ !consecutive m then false
    else if combined &&& m ≠ 0 then false
    else checkMasks l (combined ||| m)

/-- `IntOps::ctz` of a 32-bit number that is not zero. -/
def ctz (n : Nat) (x : UInt32) : Nat :=
  match n with
  | 0 => 0
  | n + 1 => if x &&& 1 = 0 then ctz n (x >>> 1) + 1 else 0

/-- One component of `assign_absolute_masks` (format_p.h:131-143). -/
def maskCh (m : UInt32) : Ch :=
  if m = 0 then ⟨0, 0⟩
  else
    let shift := ctz 32 m
    let m := m >>> UInt32.ofNat shift
    ⟨if m = 0xFFFFFFFF then 32 else ctz 32 (~~~m), shift⟩

/-- `decoder_impl->fmt` without bit fields (bmpcodec.cpp:470-494). -/
def plainFmt (depth : Nat) : Fmt :=
  if depth ≤ 8 then { depth, rgb := true, indexed := true }
  else if depth = 16 then { depth, rgb := true, r := ⟨5, 10⟩, g := ⟨5, 5⟩, b := ⟨5, 0⟩ }
  else { depth, rgb := true, r := ⟨8, 16⟩, g := ⟨8, 8⟩, b := ⟨8, 0⟩ }

/-- `decoder_impl->fmt` with bit fields (bmpcodec.cpp:518-527). -/
def maskFmt (depth : Nat) (r g b a : UInt32) : Fmt :=
  { depth, rgb := true, alpha := a ≠ 0, prem := a ≠ 0, r := maskCh r, g := maskCh g, b := maskCh b, a := maskCh a }

/-- The masks within the header (version 2 and later), or behind it (bmpcodec.cpp:496-516). -/
def readMask (d : List UInt8) (hdr k : Nat) : Res UInt32 := do
  let v ← if hdr = 40 then rd32 d (14 + k) else winField d hdr k
  .ok (UInt32.ofNat v)

/-- The mask of alpha, zero without (bmpcodec.cpp:499, 510-512). -/
def readAlpha (d : List UInt8) (hdr : Nat) (alpha : Bool) : Res UInt32 := if alpha then readMask d hdr 52 else .ok 0

/-- The format with the masks (bmpcodec.cpp:518-527); `alpha` tells whether there is a fourth mask. -/
def readMasks (d : List UInt8) (hdr depth : Nat) (alpha : Bool) : Res Fmt := do
  let r ← readMask d hdr 40
  let g ← readMask d hdr 44
  let b ← readMask d hdr 48
  let a ← readAlpha d hdr alpha
  need (checkMasks [(r, true), (g, true), (b, true), (a, false)] 0)
  .ok (maskFmt depth r g b a)

/-- The pixel format (bmpcodec.cpp:470-527). -/
def readFmt (d : List UInt8) (t : Head) : Res Fmt :=
  if t.hdr = 40 then
    if t.compression = 3 ∨ t.compression = 6 then do
      need (t.depth = 16 ∨ t.depth = 32)
      need (14 + 40 + (if t.compression = 6 then 16 else 12) ≤ d.length)
      readMasks d t.hdr t.depth (t.compression = 6)
    else .ok (plainFmt t.depth)
  else if 8 < t.depth ∧ 52 ≤ t.hdr then readMasks d t.hdr t.depth true
  else .ok (plainFmt t.depth)

/-- What is known after the headers. -/
structure Info where
  hdr : Nat
  offset : Nat
  w : Nat
  h : Nat
  /-- the height is positive, the last row is first -/
  bottomUp : Bool
  depth : Nat
  rle : Bool
  stride : Nat
  imageSize : Nat
  fmt : Fmt

/-- `rle_used` (bmpcodec.cpp:437-447). -/
def Head.rle (t : Head) : Bool := (t.depth = 4 ∧ t.compression = 2) ∨ (t.depth = 8 ∧ t.compression = 1)

/-- The bytes of a row in the file (bmpcodec.cpp:462). -/
def strideOf (w depth : Nat) : Nat := ((w * depth + 7) / 8 + 3) / 4 * 4

/-- `info.win.image_size` (bmpcodec.cpp:471-475). -/
def Head.size (t : Head) : Nat :=
  if t.hdr = 12 ∨ (t.imageSize = 0 ∧ !t.rle) then strideOf t.w.toNat t.depth * t.h.natAbs else t.imageSize

/-- The checks of `decoder_read_info_internal` (bmpcodec.cpp:415-480). -/
def Head.accepted (t : Head) : Bool :=
  t.h ≠ -2 ^ 31 ∧ 0 < t.w ∧ t.planes = 1 ∧
  (t.compression = 0 ∨ 8 < t.depth ∨ t.rle) ∧
  14 + t.hdr ≤ t.offset ∧
  t.w ≤ 65535 ∧ t.h.natAbs ≤ 65535 ∧
  [1, 4, 8, 16, 24, 32].contains t.depth ∧
  strideOf t.w.toNat t.depth < 2 ^ 32 - 1 ∧ strideOf t.w.toNat t.depth * t.h.natAbs < 2 ^ 32 ∧
  (t.rle ∨ strideOf t.w.toNat t.depth * t.h.natAbs ≤ t.size)

/-- `decoder_read_info_internal` (bmpcodec.cpp:330-525). -/
def readInfo (d : List UInt8) : Res Info := do
  need (18 ≤ d.length)
  let b ← rd8 d 0
  let m ← rd8 d 1
  need (b = 66 ∧ m = 77)
  let offset ← rd32 d 10
  let hdr ← rd32 d 14
  need ([12, 40, 52, 56, 108].contains hdr)
  need (hdr ≤ d.length - 14)
  let t ← readHead d hdr offset
  need t.accepted
  let fmt ← readFmt d t
  .ok { hdr, offset, w := t.w.toNat, h := t.h.natAbs, bottomUp := 0 < t.h, depth := t.depth, rle := t.rle,
        stride := strideOf t.w.toNat t.depth, imageSize := t.size, fmt }

/-! ## Pixels -/

/-- `n` entries of the palette of `k` bytes each (bmpcodec.cpp:560-564). -/
def readPalette (d : List UInt8) (k : Nat) : Nat → Nat → Res (List UInt32)
  | _, 0 => .ok []
  | i, n + 1 => do
    let b ← rd8 d i
    let g ← rd8 d (i + 1)
    let r ← rd8 d (i + 2)
    let l ← readPalette d k (i + k) n
    .ok (UInt32.ofNat (0xFF000000 + r * 65536 + g * 256 + b) :: l)

/-- The number of entries of the palette (bmpcodec.cpp:547-552). -/
def paletteSize (t : Info) : Nat := min ((t.offset - (14 + t.hdr)) / (if t.hdr = 12 then 3 else 4)) 256

/-- `pal` (bmpcodec.cpp:543-570). -/
def palette (d : List UInt8) (t : Info) : Res (List UInt32) :=
  if t.depth ≤ 8 then do
    need (14 + t.hdr + paletteSize t * (if t.hdr = 12 then 3 else 4) ≤ d.length)
    let l ← readPalette d (if t.hdr = 12 then 3 else 4) (14 + t.hdr) (paletteSize t)
    .ok (l ++ List.replicate (256 - paletteSize t) 0xFF000000)
  else .ok []

/-- A decoded image: the format and the bytes of its rows from top to bottom. -/
structure Image where
  fmt : Fmt
  w : Nat
  h : Nat
  rows : List (List UInt8)

/-- A row of the file. -/
def fileRow (d : List UInt8) (t : Info) (k : Nat) : List UInt8 := (d.drop (t.offset + k * t.stride)).take ((t.w * t.depth + 7) / 8)

/-- `convert_rect` (bmpcodec.cpp:611): row by row. -/
def convertRows (c : Conv) (w : Nat) : List (List UInt8) → Res (List (List UInt8))
  | [] => .ok []
  | r :: rs => do
    let o ← match c.row w r with | some o => .ok o | none => .outside
    let os ← convertRows c w rs
    .ok (o :: os)

/-- The bytes of a pixel, none if it has not been written. -/
def written : Option UInt32 → List UInt8
  | some v => store 4 false v
  | none => []

/-- The rows of an image that was decoded by `rle`. -/
def canvasRows (w h : Nat) (c : Canvas) : List (List UInt8) :=
  (List.range h).map fun y => (List.range w).flatMap fun x => written (c y x)

/-- The decoding of the pixels (bmpcodec.cpp:592-614), in the order of the file. -/
def readRows (d : List UInt8) (t : Info) (pal : List UInt32) (fmt : Fmt) : Res (List (List UInt8)) :=
  if t.rle then do
    let c ← rle (t.depth = 4) t.w t.h t.h (fun i => pal.getD i 0) ((d.drop t.offset).take t.imageSize)
    .ok (canvasRows t.w t.h c)
  else
    match create fmt (if t.depth ≤ 8 then { t.fmt with palette := pal } else t.fmt) true with
    | none => .error
    | some c => convertRows c t.w ((List.range t.h).map (fileRow d t))

/-- `decoder_read_frame_internal` (bmpcodec.cpp:527-620). -/
def readFrame (d : List UInt8) (t : Info) : Res Image := do
  need (14 + t.hdr ≤ d.length)
  let fmt := if t.fmt.a.size ≠ 0 then prgb32 else xrgb32
  let pal ← palette d t
  need (t.offset < d.length ∧ t.imageSize ≤ d.length - t.offset)
  need (t.h ≠ 0)
  let rows ← readRows d t pal fmt
  .ok ⟨fmt, t.w, t.h, if t.bottomUp then rows.reverse else rows⟩

/-- Decoding a file. -/
def decode (d : List UInt8) : Res Image := do
  let t ← readInfo d
  readFrame d t

/-! ## The encoder -/

/-- `header_size`, depth, palette size and `bpl` (bmpcodec.cpp:731-768). -/
structure Plan where
  hdr : Nat
  depth : Nat
  pal : Nat
  bpl : Nat
  gap : Nat
  fmt : Fmt

/-- `IntOps::align_up_diff(x, 4)`. -/
def alignDiff (x : Nat) : Nat := (4 - x % 4) % 4

/-- The formats of files (bmpcodec.cpp:731-768); `bpl` is a `uint32_t`. -/
def plan (f : Fmt) (w : Nat) : Plan :=
  if f = prgb32 then
    ⟨108, 32, 0, w * 4 % 2 ^ 32, 0,
      { depth := 32, rgb := true, alpha := true, prem := true, r := ⟨8, 16⟩, g := ⟨8, 8⟩, b := ⟨8, 0⟩, a := ⟨8, 24⟩ }⟩
  else if f = xrgb32 then
    ⟨40, 24, 0, w * 3 % 2 ^ 32, alignDiff (w * 3), { depth := 24, rgb := true, r := ⟨8, 16⟩, g := ⟨8, 8⟩, b := ⟨8, 0⟩ }⟩
  else ⟨40, 8, 1024, w, alignDiff w, { depth := 8 }⟩

/-- `image_size` (bmpcodec.cpp:771), a `uint32_t`. -/
def Plan.imageSize (p : Plan) (h : Nat) : Nat := (p.bpl + p.gap) * h % 2 ^ 32

/-- `file_size` (bmpcodec.cpp:770-772), a `uint32_t`. -/
def Plan.fileSize (p : Plan) (h : Nat) : Nat := (14 + p.hdr + p.pal + p.imageSize h) % 2 ^ 32

/-- The file header and the info header (bmpcodec.cpp:716-722, 774-786, 806-816): little endian, `compression` is zero. -/
def header (p : Plan) (w h : Nat) : List UInt8 :=
  [66, 77] ++ leBytes 4 (p.fileSize h) ++ leBytes 4 0 ++ leBytes 4 (14 + p.hdr + p.pal) ++
  leBytes 4 p.hdr ++ leBytes 4 w ++ leBytes 4 h ++ leBytes 2 1 ++ leBytes 2 p.depth ++ leBytes 4 0 ++ leBytes 4 (p.imageSize h) ++
  leBytes 8 0 ++ leBytes 4 (if p.pal = 0 then 0 else 256) ++ leBytes 4 0 ++
  (if p.hdr = 108 then
    leBytes 4 0x00FF0000 ++ leBytes 4 0x0000FF00 ++ leBytes 4 0x000000FF ++ leBytes 4 0xFF000000 ++ leBytes 4 1 ++ leBytes 48 0
  else [])

/-- A grey palette (bmpcodec.cpp:824-829). -/
def greys : List UInt8 := (List.range 256).flatMap fun i => [UInt8.ofNat i, UInt8.ofNat i, UInt8.ofNat i, 0xFF]

/-- A row of the file without the gap (bmpcodec.cpp:819-821, 832-833). -/
def encodeRow (p : Plan) (w : Nat) (conv : Option Conv) (r : List UInt8) : Res (List UInt8) :=
  match conv with
  | some c => (match c.row w r with | some o => .ok o | none => .outside)
  | none => if r.length < p.bpl then .outside else .ok (r.take p.bpl)

/-- The rows of the file, the last one first (bmpcodec.cpp:818-822, 831-836); the gap is filled with zeros. -/
def encodeRows (p : Plan) (w : Nat) (conv : Option Conv) : List (List UInt8) → Res (List UInt8)
  | [] => .ok []
  | r :: rs => do
    let rest ← encodeRows p w conv rs
    let o ← encodeRow p w conv r
    .ok (rest ++ (o ++ List.replicate p.gap 0))

/-- `encoder_write_frame_impl` (bmpcodec.cpp:688-841): the bytes are written to a buffer of `file_size` bytes. A converter that cannot
be created is an access outside. -/
def encode (img : Image) : Res (List UInt8) :=
  if img.w = 0 ∨ img.h = 0 then .error
  else
    let p := plan img.fmt img.w
    let conv := if p.pal = 0 then create p.fmt img.fmt false else none
    do
      let rows ← encodeRows p img.w conv img.rows
      let out := header p img.w img.h ++ (if p.pal = 0 then [] else greys) ++ rows
      if p.fileSize img.h < out.length then .outside else .ok (out ++ List.replicate (p.fileSize img.h - out.length) 0)

end Blend2D.Bmp
