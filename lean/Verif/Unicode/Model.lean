import Verif.Util.Bits

/-!
# Model of blend2d's text readers, writers, validation and conversion

Models `blend2d/unicode/unicode_p.h` and `blend2d/unicode/unicode.cpp`.

* A text buffer is the list of its bytes; reading a byte outside it is `none` (undefined behaviour).
* A destination buffer is the list of its bytes; storing outside it is `none`.
* Pointers are byte offsets into the buffers, `size_t` counters are natural numbers: every counter the
  code keeps is bounded by twice the size of the buffer it walks.  `kUnaligned` only selects the load
  instruction and has no counterpart here.  The native byte order is little endian.
* Loops carry fuel; running out of it is `none` as well, so "never `none`" includes termination.
-/

namespace Blend2D.Unicode

/-- `BLResult` values produced by the modelled functions (`blend2d/core/api.h`, `BLResultCode`). -/
inductive Result where
  | success | invalidString | dataTruncated | noSpaceLeft | invalidValue
  deriving DecidableEq, Repr

/-- `BLTextEncoding` (`blend2d/core/api.h`). -/
inductive Enc where
  | latin1 | utf8 | utf16 | utf32
  deriving DecidableEq, Repr

/-- `IOFlags` (`unicode_p.h:36-58`): `kStrict`, `kCalcIndex` and `kByteSwap`. -/
structure Flags where
  strict : Bool := false
  index : Bool := false
  swap : Bool := false

/-- The mutable part of `Utf8Reader` / `Utf16Reader` / `Utf32Reader` (`unicode_p.h:190-199, 351-355,
522-526`).  `aux` is `_utf32_index_subtract` for UTF-8 and `_utf8_index_add` for UTF-16/32;
`sur` is `_utf16_surrogate_count`. -/
structure Reader where
  ptr : Nat
  aux : Nat := 0
  sur : Nat := 0
  deriving DecidableEq, Repr

/-- `MemOps::readU8(ptr)`. -/
def rd8 (src : List UInt8) (p : Nat) : Option UInt32 := (src[p]?).map (·.toUInt32)

/-- `Utf16Reader::readU16` (`unicode_p.h:508-514`). -/
def rd16 (f : Flags) (src : List UInt8) (p : Nat) : Option UInt32 := do
  let b0 ← rd8 src p
  let b1 ← rd8 src (p + 1)
  if f.swap then return (b0 <<< 8) ||| b1 else return b0 ||| (b1 <<< 8)

/-- `Utf32Reader::readU32` (`unicode_p.h:602-608`). -/
def rd32 (f : Flags) (src : List UInt8) (p : Nat) : Option UInt32 := do
  let b0 ← rd8 src p
  let b1 ← rd8 src (p + 1)
  let b2 ← rd8 src (p + 2)
  let b3 ← rd8 src (p + 3)
  if f.swap then return (b0 <<< 24) ||| (b1 <<< 16) ||| (b2 <<< 8) ||| b3
  else return b0 ||| (b1 <<< 8) ||| (b2 <<< 16) ||| (b3 <<< 24)

/-- `is_surrogate`, `is_hi_surrogate`, `is_lo_surrogate` (`unicode_p.h:105-118`; constants at
`unicode_p.h:22-33`). -/
def isSurrogate (uc : UInt32) : Bool := uc ≥ 0xD800 && uc ≤ 0xDFFF
@[inherit_doc isSurrogate] def isHiSurrogate (uc : UInt32) : Bool := uc ≥ 0xD800 && uc ≤ 0xDBFF
@[inherit_doc isSurrogate] def isLoSurrogate (uc : UInt32) : Bool := uc ≥ 0xDC00 && uc ≤ 0xDFFF

/-- `char_from_surrogate` (`unicode_p.h:121-125`). -/
def charFromSurrogate (hi lo : UInt32) : UInt32 :=
  (hi <<< 10) + lo - (((0xD800 : UInt32) <<< 10) + 0xDC00 - 0x10000)

/-- What one call of `next` yields: result code, `uc`, `uc_size_in_bytes`, new reader state. -/
abbrev Step := Result × UInt32 × Nat × Reader

/-- `if (kCalcIndex) { aux += da; sur += ds; }`. -/
def Reader.bump (f : Flags) (r : Reader) (da ds : Nat) : Reader :=
  if f.index then { r with aux := r.aux + da, sur := r.sur + ds } else r

/-- `Utf8Reader::next` (`unicode_p.h:238-338`). `stop` is `_end`. -/
def next8 (f : Flags) (src : List UInt8) (stop : Nat) (r : Reader) : Option Step := do
  let uc ← rd8 src r.ptr
  let p := r.ptr + 1
  if uc < 0x80 then
    return (.success, uc, 1, { r with ptr := p })
  else
    let uc := uc - 0xC2
    if uc < 0xE0 - 0xC2 then
      let p := p + 1
      if p > stop then return (.dataTruncated, uc, 2, { r with ptr := p - 2 })
      else
        let b1 := (← rd8 src (p - 1)) ^^^ 0x80
        let uc := ((uc + 0xC2 - 0xC0) <<< 6) + b1
        if b1 > 0x3F then return (.invalidString, uc, 2, { r with ptr := p - 2 })
        else return (.success, uc, 2, ({ r with ptr := p } : Reader).bump f 1 0)
    else if uc < 0xF0 - 0xC2 then
      let p := p + 2
      if p > stop then return (.dataTruncated, uc, 3, { r with ptr := p - 3 })
      else
        let b1 := (← rd8 src (p - 2)) ^^^ 0x80
        let b2 := (← rd8 src (p - 1)) ^^^ 0x80
        let uc := ((uc + 0xC2 - 0xE0) <<< 12) + (b1 <<< 6) + b2
        if (b1 ||| b2) > 0x3F || uc < 0x800 then
          return (.invalidString, uc, 3, { r with ptr := p - 3 })
        else return (.success, uc, 3, ({ r with ptr := p } : Reader).bump f 2 0)
    else
      let p := p + 3
      if p > stop then
        if uc ≥ 0xF5 - 0xC2 then return (.invalidString, uc, 4, { r with ptr := p - 4 })
        else return (.dataTruncated, uc, 4, { r with ptr := p - 4 })
      else
        let b1 := (← rd8 src (p - 3)) ^^^ 0x80
        let b2 := (← rd8 src (p - 2)) ^^^ 0x80
        let b3 := (← rd8 src (p - 1)) ^^^ 0x80
        let uc := ((uc + 0xC2 - 0xF0) <<< 18) + (b1 <<< 12) + (b2 <<< 6) + b3
        if (b1 ||| b2 ||| b3) > 0x3F || uc < 0x10000 || uc > 0x10FFFF then
          return (.invalidString, uc, 4, { r with ptr := p - 4 })
        else return (.success, uc, 4, ({ r with ptr := p } : Reader).bump f 3 1)

/-- The non-surrogate exit of `Utf16Reader::next` (`unicode_p.h:466-471`). -/
def next16Bmp (f : Flags) (uc : UInt32) (p : Nat) (r : Reader) : Step :=
  (.success, uc, 2,
    ({ r with ptr := p } : Reader).bump f
      ((if uc ≥ 0x80 then 1 else 0) + (if uc ≥ 0x800 then 1 else 0)) 0)

/-- `Utf16Reader::next` (`unicode_p.h:424-480`). -/
def next16 (f : Flags) (src : List UInt8) (stop : Nat) (r : Reader) : Option Step := do
  let uc ← rd16 f src r.ptr
  let p := r.ptr + 2
  if isSurrogate uc then
    if isHiSurrogate uc then
      if p ≠ stop then
        let lo ← rd16 f src p
        if isLoSurrogate lo then
          let uc := charFromSurrogate uc lo
          return (.success, uc, 4, ({ r with ptr := p + 2 } : Reader).bump f 2 1)
        else if f.strict then return (.invalidString, uc, 0, { r with ptr := p - 2 })
        else return next16Bmp f uc p r
      else if f.strict then return (.dataTruncated, uc, 0, { r with ptr := p - 2 })
      else return next16Bmp f uc p r
    else if f.strict then return (.invalidString, uc, 0, { r with ptr := p - 2 })
    else return next16Bmp f uc p r
  else return next16Bmp f uc p r

/-- `Utf32Reader::next` (`unicode_p.h:564-586`). -/
def next32 (f : Flags) (src : List UInt8) (r : Reader) : Option Step := do
  let uc ← rd32 f src r.ptr
  if uc > 0x10FFFF then return (.invalidString, uc, 0, r)
  else if f.strict && isSurrogate uc then return (.invalidString, uc, 0, r)
  else
    let r' := r.bump f ((if uc ≥ 0x800 then 1 else 0) + (if uc ≥ 0x80 then 1 else 0))
      (if uc ≥ 0x10000 then 1 else 0)
    return (.success, uc, 4, { r' with ptr := r'.ptr + 4 })

/-- The readers' `kCharSize` (Latin-1 has no reader; its unit is one byte). -/
def charSize : Enc → Nat
  | .utf16 => 2
  | .utf32 => 4
  | _ => 1

/-- The `next` member of the reader selected by the template argument.  Latin-1 has no reader. -/
def next (e : Enc) (f : Flags) (src : List UInt8) (stop : Nat) (r : Reader) : Option Step :=
  match e with
  | .utf8 => next8 f src stop r
  | .utf16 => next16 f src stop r
  | .utf32 => next32 f src r
  | .latin1 => none

/-- `IntOps::align_down(x, a)` for a power of two `a` (`support/intops_p.h:590-603`; proved equal to this
expression in `Verif.IntOps`, `C33_align_down`). -/
def alignDown (x a : Nat) : Nat := x / a * a

/-- `Utf*Reader::validate` (`unicode_p.h:345-355, 490-500, 591-601`). -/
def validateLoop (e : Enc) (f : Flags) (src : List UInt8) (stop : Nat) : Nat → Reader → Option (Result × Reader)
  | 0, _ => none
  | fuel + 1, r =>
    if r.ptr ≠ stop then do
      let (res, _, _, r') ← next e f src stop r
      if res ≠ .success then return (res, r') else validateLoop e f src stop fuel r'
    else some (.success, r)

/-- `utf8_index`, `utf16_index` and `utf32_index` of the readers (`unicode_p.h:222-231, 399-411,
545-557`). -/
def utf32Index (e : Enc) (r : Reader) : Nat :=
  match e with
  | .utf8 => r.ptr - r.aux
  | .utf16 => r.ptr / 2 - r.sur
  | _ => r.ptr / 4
@[inherit_doc utf32Index] def utf16Index (e : Enc) (r : Reader) : Nat :=
  match e with
  | .utf16 => r.ptr / 2
  | _ => utf32Index e r + r.sur
@[inherit_doc utf32Index] def utf8Index (e : Enc) (r : Reader) : Nat :=
  match e with
  | .utf8 => r.ptr
  | .utf16 => r.ptr / 2 + r.aux
  | _ => utf32Index e r + r.sur + r.aux

/-- `ValidationState` (`unicode_p.h:141-150`). -/
structure ValidationState where
  utf8 : Nat := 0
  utf16 : Nat := 0
  utf32 : Nat := 0
  deriving DecidableEq, Repr

/-- `validate_latin1_string` (`unicode.cpp:42-59`).  The overflow of `size + extra ≤ 2 * size` past
`size_t` is not modelled: no buffer of more than half the address space exists. -/
def validateLatin1 (src : List UInt8) : Result × ValidationState :=
  let extra := src.foldl (fun (acc : Nat) (b : UInt8) => acc + (b >>> 7).toNat) 0
  (.success, ⟨src.length + extra, src.length, src.length⟩)

/-- `validate_unicode_string` (`unicode.cpp:61-69`). -/
def validateString (e : Enc) (f : Flags) (src : List UInt8) : Option (Result × ValidationState) := do
  let (res, r) ← validateLoop e { f with index := true } src (alignDown src.length (charSize e))
    (src.length + 1) { ptr := 0 }
  return (res, ⟨utf8Index e r, utf16Index e r, utf32Index e r⟩)

/-- `bl_validate_unicode` (`unicode.cpp:71-107`). -/
def validateUnicode (e : Enc) (src : List UInt8) : Option (Result × ValidationState) :=
  match e with
  | .latin1 => some (validateLatin1 src)
  | .utf8 => validateString .utf8 { strict := true } src
  | .utf16 => do
    let (res, st) ← validateString .utf16 { strict := true } src
    if res = .success && src.length % 2 ≠ 0 then return (.dataTruncated, st) else return (res, st)
  | .utf32 => do
    let (res, st) ← validateString .utf32 { strict := true } src
    if res = .success && src.length % 4 ≠ 0 then return (.dataTruncated, st) else return (res, st)

/-! ### Writers -/

/-- A store of consecutive bytes; `none` as soon as one of them is outside the buffer. -/
def store (mem : List UInt8) (p : Nat) : List UInt8 → Option (List UInt8)
  | [] => some mem
  | b :: bs => if p < mem.length then store (mem.set p b) (p + 1) bs else none

/-- `Utf8Writer` / `Utf16Writer` / `Utf32Writer` (`unicode_p.h:616-625, 775-784, 862-871`); `ptr` and
`stop` count units of the writer's character type. -/
structure Writer where
  mem : List UInt8
  ptr : Nat
  stop : Nat
  deriving DecidableEq, Repr

/-- The low byte of a 32-bit value: `char(uint8_t(x))`. -/
def byte (x : UInt32) : UInt8 := x.toUInt8

/-- `Utf8Writer::write` (`unicode_p.h:643-652, 665-770`: `write_byte`, `write2_bytes`, `write3_bytes`,
`write4_bytes`). -/
def write8 (w : Writer) (uc : UInt32) : Option (Result × Writer) :=
  if uc ≤ 0x7F then
    if w.ptr = w.stop then some (.noSpaceLeft, w)
    else do
      let mem ← store w.mem w.ptr [byte uc]
      return (.success, { w with mem := mem, ptr := w.ptr + 1 })
  else if uc ≤ 0x7FF then
    let p := w.ptr + 2
    if p > w.stop then some (.noSpaceLeft, { w with ptr := p - 2 })
    else do
      let mem ← store w.mem (p - 2) [byte ((0xC0 : UInt32) ||| (uc >>> 6)), byte ((0x80 : UInt32) ||| (uc &&& 63))]
      return (.success, { w with mem := mem, ptr := p })
  else if uc ≤ 0xFFFF then
    let p := w.ptr + 3
    if p > w.stop then some (.noSpaceLeft, { w with ptr := p - 3 })
    else do
      let mem ← store w.mem (p - 3)
        [byte ((0xE0 : UInt32) ||| (uc >>> 12)), byte ((0x80 : UInt32) ||| ((uc >>> 6) &&& 63)), byte ((0x80 : UInt32) ||| (uc &&& 63))]
      return (.success, { w with mem := mem, ptr := p })
  else
    let p := w.ptr + 4
    if p > w.stop then some (.noSpaceLeft, { w with ptr := p - 4 })
    else do
      let mem ← store w.mem (p - 4)
        [byte ((0xF0 : UInt32) ||| (uc >>> 18)), byte ((0x80 : UInt32) ||| ((uc >>> 12) &&& 63)),
         byte ((0x80 : UInt32) ||| ((uc >>> 6) &&& 63)), byte ((0x80 : UInt32) ||| (uc &&& 63))]
      return (.success, { w with mem := mem, ptr := p })

/-- `bl_char_to_surrogate` (`unicode_p.h:128-133`). -/
def charToSurrogate (uc : UInt32) : UInt32 × UInt32 :=
  let uc := uc - 0x10000
  ((0xD800 : UInt32) ||| (uc >>> 10), (0xDC00 : UInt32) ||| (uc &&& 0x3FF))

/-- `Utf16Writer::_writeMemU16` in native (little endian) order (`unicode_p.h:850-852`). -/
def bytes16 (v : UInt32) : List UInt8 := [byte v, byte (v >>> 8)]

/-- `Utf16Writer::write` (`unicode_p.h:797-842`). -/
def write16 (w : Writer) (uc : UInt32) : Option (Result × Writer) :=
  if uc ≤ 0xFFFF then
    if w.ptr = w.stop then some (.noSpaceLeft, w)
    else do
      let mem ← store w.mem (w.ptr * 2) (bytes16 uc)
      return (.success, { w with mem := mem, ptr := w.ptr + 1 })
  else
    let p := w.ptr + 2
    if p > w.stop then some (.noSpaceLeft, { w with ptr := p - 2 })
    else do
      let (hi, lo) := charToSurrogate uc
      let mem ← store w.mem ((p - 2) * 2) (bytes16 hi)
      let mem ← store mem ((p - 1) * 2) (bytes16 lo)
      return (.success, { w with mem := mem, ptr := p })

/-- `Utf32Writer::_writeMemU32` in native (little endian) order (`unicode_p.h:898-900`). -/
def bytes32 (v : UInt32) : List UInt8 := [byte v, byte (v >>> 8), byte (v >>> 16), byte (v >>> 24)]

/-- `Utf32Writer::write` (`unicode_p.h:889-896`). -/
def write32 (w : Writer) (uc : UInt32) : Option (Result × Writer) :=
  if w.ptr = w.stop then some (.noSpaceLeft, w)
  else do
    let mem ← store w.mem (w.ptr * 4) (bytes32 uc)
    return (.success, { w with mem := mem, ptr := w.ptr + 1 })

/-- The `write` member of the writer selected by the template argument.  Latin-1 has no writer. -/
def write (e : Enc) (w : Writer) (uc : UInt32) : Option (Result × Writer) :=
  match e with
  | .utf8 => write8 w uc
  | .utf16 => write16 w uc
  | .utf32 => write32 w uc
  | .latin1 => none

/-! ### Conversion -/

/-- Outcome of a conversion: result code, destination buffer, `state.dst_index`, `state.src_index`. -/
structure Conv where
  res : Result
  mem : List UInt8
  dstIndex : Nat
  srcIndex : Nat
  deriving DecidableEq, Repr

/-- The loop of `convert_unicode_impl` (`unicode.cpp:127-149`). -/
def convertLoop (de se : Enc) (f : Flags) (src : List UInt8) (stop : Nat) :
    Nat → Writer → Reader → Option Conv
  | 0, _, _ => none
  | fuel + 1, w, r =>
    if r.ptr ≠ stop then do
      let (res, uc, n, r') ← next se f src stop r
      if res ≠ .success then return ⟨res, w.mem, w.ptr * charSize de, r'.ptr⟩
      else
        let (res, w') ← write de w uc
        if res ≠ .success then return ⟨res, w'.mem, w'.ptr * charSize de, r'.ptr - n⟩
        else convertLoop de se f src stop fuel w' r'
    else some ⟨.success, w.mem, w.ptr * charSize de, r.ptr⟩

/-- `convert_unicode_impl` (`unicode.cpp:119-156`).  The reader's constructor aligns the size down once
more, which changes nothing. -/
def convertImpl (de se : Enc) (f : Flags) (dst src : List UInt8) : Option Conv := do
  let c ← convertLoop de se f src (alignDown (alignDown src.length (charSize se)) (charSize se))
    (src.length + 1) ⟨dst, 0, dst.length / charSize de⟩ { ptr := 0 }
  if charSize se > 1 && c.res = .success && c.srcIndex % charSize se ≠ 0 then
    return { c with res := .dataTruncated }
  else return c

/-- `Utf8Writer::write_byte_unsafe` / `write2_bytes_unsafe` (`unicode_p.h:676-681, 697-706`) as used for
Latin-1: no bound check, so an out of range store is undefined behaviour. -/
def latin1ToUtf8Unsafe : List UInt8 → List UInt8 → Nat → Option (List UInt8 × Nat)
  | [], mem, p => some (mem, p)
  | b :: rest, mem, p =>
    let uc := b.toUInt32
    if uc ≤ 0x7F then do
      let mem ← store mem p [byte uc]
      latin1ToUtf8Unsafe rest mem (p + 1)
    else do
      let mem ← store mem p [byte ((0xC0 : UInt32) ||| (uc >>> 6)), byte ((0x80 : UInt32) ||| (uc &&& 63))]
      latin1ToUtf8Unsafe rest mem (p + 2)

/-- The checked Latin-1 to UTF-8 loop (`unicode.cpp:205-218`).  The indexes are only stored on failure;
`state` was reset to zero before. -/
def latin1ToUtf8Safe : List UInt8 → Writer → Nat → Option Conv
  | [], w, _ => some ⟨.success, w.mem, 0, 0⟩
  | b :: rest, w, i => do
    let (res, w') ← write8 w b.toUInt32
    if res ≠ .success then return ⟨res, w'.mem, w'.ptr, i⟩
    else latin1ToUtf8Safe rest w' (i + 1)

/-- `for (i < count) writeU16/U32(dst + i * k, src[i])` (`unicode.cpp:267-276, 320-329`). -/
def latin1ToWide (bytes : UInt32 → List UInt8) (k : Nat) : List UInt8 → List UInt8 → Nat → Option (List UInt8)
  | [], mem, _ => some mem
  | b :: rest, mem, i => do
    let mem ← store mem (i * k) (bytes b.toUInt32)
    latin1ToWide bytes k rest mem (i + 1)

/-- `convert_unicode` (`unicode.cpp:158-391`): `dst` and `src` are the whole buffers. -/
def convertUnicode (de se : Enc) (dst src : List UInt8) : Option Conv :=
  match de, se with
  | .latin1, .latin1 => do
    let n := min dst.length src.length
    let mem ← store dst 0 (src.take n)
    return ⟨if dst.length < src.length then .noSpaceLeft else .success, mem, n, n⟩
  | .utf8, .latin1 =>
    if dst.length / 2 ≥ src.length then do
      let (mem, p) ← latin1ToUtf8Unsafe src dst 0
      return ⟨.success, mem, p, src.length⟩
    else latin1ToUtf8Safe src ⟨dst, 0, dst.length⟩ 0
  | .utf8, .utf8 => do
    let n := min dst.length src.length
    let (res, st) ← validateUnicode .utf8 (src.take n)
    let mem ← store dst 0 (src.take st.utf8)
    let res := if n < src.length && (res = .success || res = .dataTruncated) then .noSpaceLeft else res
    return ⟨res, mem, st.utf8, st.utf8⟩
  | .utf8, .utf16 => convertImpl .utf8 .utf16 { strict := true } dst src
  | .utf8, .utf32 => convertImpl .utf8 .utf32 { strict := true } dst src
  | .utf16, .latin1 => do
    let n := min (dst.length / 2) src.length
    let mem ← latin1ToWide bytes16 2 (src.take n) dst 0
    return ⟨if n < src.length then .noSpaceLeft else .success, mem, n * 2, n⟩
  | .utf16, .utf8 => convertImpl .utf16 .utf8 { strict := true } dst src
  | .utf16, .utf16 => do
    let n := alignDown (min dst.length src.length) 2
    let (res, st) ← validateUnicode .utf16 (src.take n)
    let mem ← store dst 0 (src.take (st.utf16 * 2))
    let res := if n < src.length && (res = .success || res = .dataTruncated) then .noSpaceLeft else res
    let res := if res = .success && src.length % 2 ≠ 0 then .dataTruncated else res
    return ⟨res, mem, st.utf16 * 2, st.utf16 * 2⟩
  | .utf16, .utf32 => convertImpl .utf16 .utf32 { strict := true } dst src
  | .utf32, .latin1 => do
    let n := min (dst.length / 4) src.length
    let mem ← latin1ToWide bytes32 4 (src.take n) dst 0
    return ⟨if n < src.length then .noSpaceLeft else .success, mem, n * 4, n⟩
  | .utf32, .utf8 => convertImpl .utf32 .utf8 { strict := true } dst src
  | .utf32, .utf16 => convertImpl .utf32 .utf16 { strict := true } dst src
  | .utf32, .utf32 => convertImpl .utf32 .utf32 { strict := true } dst src
  | .latin1, _ => some ⟨.invalidValue, dst, 0, 0⟩

end Blend2D.Unicode
