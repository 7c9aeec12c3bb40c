import Verif.Unicode.Model
/-! Model of the glyph buffer: `blend2d/core/glyphbuffer.cpp`, `blend2d/core/glyphbuffer_p.h`, and of the
functions of `blend2d/core/font.cpp` that turn its text into positioned glyphs.

Conventions:
* `none` is undefined behaviour: a read or write outside a buffer, or a loop that does not end.
* Each of the two allocations of a buffer is the list of its items.  The first holds glyph ids (or code
  points) and, behind them, the glyph infos; both arrays have `capacity[0]` elements and are two lists here.
  The second holds placements.  The bytes `malloc` returns have an arbitrary value, here the pattern `junk`.
* `size_t` is a natural number; the overflow check of the allocation is modelled.
* A `BLGlyphInfo` is its `cluster`; the reserved word next to it is not modelled.
* The flags are a record of the four bits these functions use.
* The font is abstract: a map of code points to glyph ids (the `cmap` model of C45 gives one), the advance of
  each glyph, and the kerning of a run (the `kern` model of C54 gives one). -/
namespace Blend2D.GlyphBuffer
open Blend2D.Unicode (Enc Reader)

/-- `BLResult` values the modelled functions produce (`blend2d/core/api.h`, `BLResultCode`). -/
inductive Res where
  | success | outOfMemory | invalidValue | invalidState | dataTooLarge
  deriving DecidableEq, Repr

/-- The bits of `BLGlyphRunFlags` (`glyphrun.h:17-27`) and `BLGlyphBufferFlags` (`glyphbuffer_p.h:17-22`)
that are used here. -/
structure Flags where
  /-- `BL_GLYPH_RUN_FLAG_UCS4_CONTENT` -/
  ucs4 : Bool := false
  /-- `BL_GLYPH_RUN_FLAG_INVALID_TEXT` -/
  invalid : Bool := false
  /-- `BL_GLYPH_RUN_FLAG_UNDEFINED_GLYPHS` -/
  undefinedGlyphs : Bool := false
  /-- `BL_GLYPH_BUFFER_GLYPH_ADVANCES` -/
  advances : Bool := false
  deriving DecidableEq, Repr

/-- `BLGlyphPlacement` (`glyphrun.h`): `placement` and `advance`. -/
structure Place where
  px : Int
  py : Int
  ax : Int
  ay : Int
  deriving DecidableEq, Repr

/-- `BLGlyphBufferPrivateImpl` (`glyphbuffer_p.h:31-107`).  `content` and `info` are `buffer[0]`, their
length is `capacity[0]`; `second` is `buffer[1]` as placements, its length is `capacity[1]`.  `placed` says
that `placement_data` is not null (it then points to `buffer[1]`); `offsets` that `placement_type` is
`BL_GLYPH_PLACEMENT_TYPE_ADVANCE_OFFSET`. -/
structure Impl where
  size : Nat := 0
  flags : Flags := {}
  content : List UInt32 := []
  info : List UInt32 := []
  second : List Place := []
  placed : Bool := false
  offsets : Bool := false
  deriving DecidableEq, Repr

/-- `BLGlyphBufferPrivateImpl::create` (`glyphbuffer_p.h:47-71`).  The built-in `none` instance
(`glyphbuffer.cpp:20`) has the same observable state. -/
def create : Impl := {}

/-- What `malloc` returns: `none` is failure, otherwise the value of the words of the new memory. -/
abbrev Malloc := Option UInt32

/-- The new capacity (`glyphbuffer.cpp:47-51`). -/
def newCapacity (minCapacity : Nat) : Nat :=
  if minCapacity < 256 then 256
  else if minCapacity < 2 ^ 64 - 1 - 256 then (minCapacity + 63) / 64 * 64
  else minCapacity

/-- Allocation of `new_capacity * BL_GLYPH_BUFFER_ANY_ITEM_SIZE` bytes (`glyphbuffer.cpp:53-61`). -/
def allocate (m : Malloc) (n : Nat) : Malloc := if n * 16 ≥ 2 ^ 64 then none else m

/-- `ensure_buffer(0, copy_size, min_capacity)` (`glyphbuffer.cpp:38-80`). -/
def ensure0 (d : Impl) (copySize minCapacity : Nat) (m : Malloc) : Res × Impl :=
  if minCapacity ≤ d.content.length then (.success, d)
  else
    let n := newCapacity minCapacity
    match allocate m n with
    | none => (.outOfMemory, d)
    | some w => (.success,
        { d with
          content := d.content.take copySize ++ List.replicate (n - copySize) w
          info := d.info.take copySize ++ List.replicate (n - copySize) w })

/-- The value of a placement in fresh memory. -/
def junkPlace (w : UInt32) : Place := ⟨w.toNat, w.toNat, w.toNat, w.toNat⟩

/-- `ensure_placement` (`glyphbuffer_p.h:95-99`), with `ensure_buffer(1, 0, size)` (`glyphbuffer.cpp:38-80`)
inlined. -/
def ensurePlacement (d : Impl) (m : Malloc) : Res × Impl :=
  if d.size ≤ d.second.length then (.success, { d with placed := true })
  else
    let n := newCapacity d.size
    match allocate m n with
    | none => (.outOfMemory, d)
    | some w => (.success, { d with second := List.replicate n (junkPlace w), placed := true })

/-- `clear` (`glyphbuffer_p.h:85-91`) behind the test of `bl_glyph_buffer_clear`
(`glyphbuffer.cpp:191-201`). -/
def clear (d : Impl) : Impl :=
  if d.size = 0 then d
  else { d with size := 0, offsets := false, flags := {}, placed := false }

/-- `bl_glyph_buffer_reset` (`glyphbuffer.cpp:179-186`). -/
def reset (_ : Impl) : Impl := create

/-- `glyph_data[i] = v` through a pointer into a buffer. -/
def store {α : Type} (l : List α) (i : Nat) (v : α) : Option (List α) :=
  if i < l.length then some (l.set i v) else none

/-- Writing code point (or glyph id) and cluster of item `i` (`glyphbuffer.cpp:93-94, 110-111, 134-135`). -/
def put (d : Impl) (i : Nat) (v cluster : UInt32) : Option Impl := do
  let c ← store d.content i v
  let n ← store d.info i cluster
  some { d with content := c, info := n }

/-- The loop of `bl_internal_glyph_buffer_data_set_latin1_text` (`glyphbuffer.cpp:109-112`). -/
def latin1Loop (src : List UInt8) (d : Impl) (i : Nat) : Nat → Option Impl
  | 0 => some d
  | n + 1 => do
    let b ← src[i]?
    let d ← put d i b.toUInt32 (UInt32.ofNat i)
    latin1Loop src d (i + 1) n

/-- `d->size = n; d->flags = 0; if (d->size) d->flags |= UCS4_CONTENT` (`glyphbuffer.cpp:114-120,
144-150`). -/
def finishText (d : Impl) (n : Nat) : Impl := { d with size := n, flags := { ucs4 := n != 0 } }

/-- `bl_internal_glyph_buffer_data_set_latin1_text` (`glyphbuffer.cpp:105-121`). -/
def setLatin1 (d : Impl) (src : List UInt8) (size : Nat) : Option Impl := do
  let d ← latin1Loop src d 0 size
  some (finishText d size)

/-- `kCharReplacement` (`unicode_p.h`). -/
def replacement : UInt32 := 0xFFFD

/-- What the loop below does with the result of `reader.next` (`glyphbuffer.cpp:132-142`): the item that is
stored, and the position of the reader afterwards.  The code first stores `uc` and, on failure, overwrites
it; `skip_one_unit` (`unicode_p.h:341-344, 482-485`) advances by one unit. -/
def item (e : Enc) (s : Unicode.Step) : UInt32 × Bool × Reader :=
  if s.1 = .success then (s.2.1, false, s.2.2.2)
  else (replacement, true, { s.2.2.2 with ptr := s.2.2.2.ptr + Unicode.charSize e })

/-- The loop of `bl_internal_glyph_buffer_data_set_unicode_text` (`glyphbuffer.cpp:130-142`); `bytes` is the
size of the text in bytes.  `native_index` is the byte index over the unit size.  Returns the number of
items. -/
def textLoop (e : Enc) (src : List UInt8) (bytes : Nat) : Nat → Impl → Nat → Reader → Option (Impl × Nat)
  | 0, _, _, _ => none
  | fuel + 1, d, n, r =>
    if r.ptr = bytes then some (d, n)
    else
      match Unicode.next e {} src bytes r with
      | none => none
      | some s =>
        match put d n (item e s).1 (UInt32.ofNat (r.ptr / Unicode.charSize e)) with
        | none => none
        | some d' =>
          textLoop e src bytes fuel
            { d' with flags := { d'.flags with invalid := d'.flags.invalid || (item e s).2.1 } }
            (n + 1) (item e s).2.2

/-- `bl_internal_glyph_buffer_data_set_unicode_text` (`glyphbuffer.cpp:123-153`). -/
def setUnicode (e : Enc) (d : Impl) (src : List UInt8) (bytes : Nat) : Option Impl :=
  match textLoop e src bytes (bytes + 1) d 0 { ptr := 0 } with
  | none => none
  | some (d, n) => some (finishText d n)

/-- Length of a null-terminated string: `strlen`, `StringOps::length` (`stringops_p.h:22-33`). -/
def strLen (e : Enc) (src : List UInt8) : Nat → Nat → Option Nat
  | 0, _ => none
  | fuel + 1, n =>
    let k := Unicode.charSize e
    if (n + 1) * k ≤ src.length then
      if ((src.drop (n * k)).take k).all (· == 0) then some n else strLen e src fuel (n + 1)
    else none

/-- The size of the text in units: the argument, or the length of the string if it is `SIZE_MAX`
(`glyphbuffer.cpp:245-246, 252-253, 259-260, 266-267`). -/
def textSize (e : Enc) (src : List UInt8) : Option Nat → Option Nat
  | some n => some n
  | none => strLen e src (src.length + 1) 0

/-- Dispatch on the encoding (`glyphbuffer.cpp:243-276`), after `ensure_buffer`. -/
def setEncoded (e : Enc) (d : Impl) (src : List UInt8) (n : Nat) : Option Impl :=
  match e with
  | .latin1 => setLatin1 d src n
  | e => setUnicode e d src (n * Unicode.charSize e)

/-- `bl_glyph_buffer_set_text` (`glyphbuffer.cpp:236-277`) with a valid encoding.  `src` is the memory at
`text_data`; `size = none` is `SIZE_MAX`.  The allocation of the implementation itself
(`bl_glyph_buffer_ensure_data`) is not modelled: its failure changes nothing. -/
def setText (d : Impl) (e : Enc) (src : List UInt8) (size : Option Nat) (m : Malloc) : Option (Res × Impl) :=
  match textSize e src size with
  | none => none
  | some n =>
    match ensure0 d 0 n m with
    | (.success, d') => (setEncoded e d' src n).map (fun d => (.success, d))
    | (r, d') => some (r, d')

/-- `bl_glyph_buffer_set_text` with any value of the encoding argument (`glyphbuffer.cpp:237-238`). -/
def setTextRaw (d : Impl) (encoding : Nat) (src : List UInt8) (size : Option Nat) (m : Malloc) :
    Option (Res × Impl) :=
  match encoding with
  | 0 => setText d .latin1 src size m
  | 1 => setText d .utf8 src size m
  | 2 => setText d .utf16 src size m
  | 3 => setText d .utf32 src size m
  | _ => some (.invalidValue, d)

/-- Reads an unsigned integer of `k` bytes (little endian) at address `a` of the memory `mem`. -/
def load (mem : List UInt8) (k : Nat) (a : Int) : Option UInt32 :=
  if 0 ≤ a ∧ a.toNat + k ≤ mem.length then
    some (((mem.drop a.toNat).take k).foldr (fun b acc => acc * 256 + b.toUInt32) 0)
  else none

/-- The loop of `bl_internal_glyph_buffer_data_set_glyph_ids` (`glyphbuffer.cpp:92-96`): `src[0]` of type
`uint16_t` or `uint32_t` (`k` bytes) at address `a`, which moves by `advance` bytes. -/
def glyphLoop (mem : List UInt8) (k : Nat) (advance : Int) (d : Impl) (i : Nat) (a : Int) : Nat → Option Impl
  | 0 => some d
  | n + 1 => do
    let v ← load mem k a
    let d ← put d i v (UInt32.ofNat i)
    glyphLoop mem k advance d (i + 1) (a + advance) n

/-- `bl_internal_glyph_buffer_data_set_glyph_ids` (`glyphbuffer.cpp:87-101`). -/
def setGlyphIds (d : Impl) (mem : List UInt8) (k : Nat) (a : Int) (size : Nat) (advance : Int) : Option Impl := do
  let d ← glyphLoop mem k advance d 0 a size
  some { d with size := size, flags := {} }

/-- `bl_glyph_buffer_set_glyphs` (`glyphbuffer.cpp:279-289`); `glyph_data` is the address `a` in `mem`.
The advance is `sizeof(uint16_t)`, as in the code. -/
def setGlyphs (d : Impl) (mem : List UInt8) (a : Int) (size : Nat) (m : Malloc) : Option (Res × Impl) :=
  if size > 0xFFFFFFFF then some (.dataTooLarge, d)
  else
    match ensure0 d 0 size m with
    | (.success, d') => (setGlyphIds d' mem 4 a size 2).map (fun d => (.success, d))
    | (r, d') => some (r, d')

/-- `bl_glyph_buffer_set_glyphs_from_struct` (`glyphbuffer.cpp:291-307`). -/
def setGlyphsFromStruct (d : Impl) (mem : List UInt8) (a : Int) (size idSize : Nat) (advance : Int) (m : Malloc) :
    Option (Res × Impl) :=
  if idSize ≠ 2 ∧ idSize ≠ 4 then some (.invalidValue, d)
  else if size > 0xFFFFFFFF then some (.dataTooLarge, d)
  else
    match ensure0 d 0 size m with
    | (.success, d') =>
      (setGlyphIds d' mem (if idSize = 2 then 2 else 4) a size advance).map (fun d => (.success, d))
    | (r, d') => some (r, d')

/-- The functions of a font face that are called here.  `glyph` is the glyph of a code point (0: undefined),
`advance` the horizontal advance of a glyph, `kern` the placement of the `i`-th glyph of a run after kerning. -/
structure Face where
  glyph : UInt32 → UInt32
  advance : UInt32 → Int
  kern : List UInt32 → List Place → Nat → Place

/-- `bl_font_map_text_to_glyphs` (`font.cpp:429-454`).  The mapping replaces the first `size` items of the
content in place; an item it cannot map becomes glyph 0 and is counted as undefined (`otcmap.cpp`). -/
def mapText (F : Face) (d : Impl) : Option (Res × Impl) :=
  if d.size = 0 then some (.success, d)
  else if d.flags.ucs4 = false then some (.invalidState, d)
  else if d.size ≤ d.content.length then
    some (.success, { d with
      content := (d.content.take d.size).map F.glyph ++ d.content.drop d.size
      flags := { d.flags with
        ucs4 := false
        undefinedGlyphs := d.flags.undefinedGlyphs || (d.content.take d.size).any (fun c => F.glyph c == 0) } })
  else none

/-- `get_glyph_advances` (`otmetrics.cpp:93-124`): writes `size` placements. -/
def writeAdvances (F : Face) (d : Impl) : Option Impl :=
  if d.size ≤ d.content.length ∧ d.size ≤ d.second.length then
    some { d with
      second := (d.content.take d.size).map (fun g => ⟨0, 0, F.advance g, 0⟩) ++ d.second.drop d.size }
  else none

/-- `apply_kern` on the glyph ids and placements of the buffer: it reads and writes `size` of each. -/
def kernRun (F : Face) (d : Impl) : Option Impl :=
  if d.size ≤ d.content.length ∧ d.size ≤ d.second.length then
    some { d with
      second := (List.range d.size).map (F.kern (d.content.take d.size) (d.second.take d.size)) ++
        d.second.drop d.size }
  else none

/-- The first half of `bl_font_position_glyphs` (`font.cpp:470-475`). -/
def addAdvances (F : Face) (d : Impl) (m : Malloc) : Option (Res × Impl) :=
  if d.flags.advances then some (.success, d)
  else
    match ensurePlacement d m with
    | (.success, d') =>
      (writeAdvances F d').map (fun d => (.success, { d with offsets := true, flags := { d.flags with advances := true } }))
    | (r, d') => some (r, d')

/-- `bl_font_position_glyphs` (`font.cpp:456-496`) for a font without a `GPOS` table; `useKern` says that
the font has a legacy `kern` table and the feature is not switched off. -/
def position (F : Face) (useKern : Bool) (d : Impl) (m : Malloc) : Option (Res × Impl) :=
  if d.size = 0 then some (.success, d)
  else if d.flags.ucs4 then some (.invalidState, d)
  else
    match addAdvances F d m with
    | none => none
    | some (.success, d') =>
      if useKern then (kernRun F d').map (fun d => (.success, d)) else some (.success, d')
    | some (r, d') => some (r, d')

/-- `bl_font_apply_kerning` (`font.cpp:498-513`). -/
def applyKerning (F : Face) (d : Impl) : Option (Res × Impl) :=
  if d.size = 0 then some (.success, d)
  else if d.placed = false then some (.invalidState, d)
  else (kernRun F d).map (fun d => (.success, d))

/-- `bl_font_shape` (`font.cpp:413-427`) for a font without `GSUB` and `GPOS` tables. -/
def shape (F : Face) (useKern : Bool) (d : Impl) (m : Malloc) : Option (Res × Impl) :=
  match mapText F d with
  | some (.success, d') => position F useKern d' m
  | r => r

end Blend2D.GlyphBuffer
