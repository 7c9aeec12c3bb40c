/-!
# Character to glyph mapping of OpenType fonts

Model of `opentype/otcmap.cpp`: the choice of a sub-table of the 'cmap' table, its validation, the functions that map text to glyphs, and the character
coverage.  A table is a list of bytes; a read outside of it gives `none`.  Sizes and offsets are 32-bit integers in the code; none of the sums and
products that the code forms from validated values leaves 32 bits, so natural numbers are used, except for the one subtraction that may wrap.
-/

namespace Blend2D.CMap

abbrev Data := List UInt8

/-- `UInt8::value`, `otdefs_p.h`. -/
def u8 (d : Data) (i : Nat) : Option Nat := (d[i]?).map UInt8.toNat

/-- `UInt16::value`: two bytes, big endian. -/
def u16 (d : Data) (i : Nat) : Option Nat := do
  let a ← u8 d i
  let b ← u8 d (i + 1)
  some (a * 256 + b)

/-- `UInt32::value`: four bytes, big endian. -/
def u32 (d : Data) (i : Nat) : Option Nat := do
  let a ← u16 d i
  let b ← u16 d (i + 2)
  some (a * 65536 + b)

/-- The errors of `validate_sub_table`. -/
inductive Err where
  | invalidData
  | notImplemented
deriving DecidableEq, Repr

/-- The result of the validation of one format: `encoding_out.entry_count`. -/
abbrev Result := Option (Except Err Nat)

/-- `return bl_make_error(BL_ERROR_INVALID_DATA)`. -/
def invalid : Result := some (.error .invalidData)

/-- Format 0, `otcmap.cpp:339-352`; `o` is the offset of the sub-table. -/
def validate0 (d : Data) (o : Nat) : Result :=
  if d.length - o < 262 then invalid
  else do
    let length ← u16 d (o + 2)
    if length < 262 ∨ length > d.length - o then invalid
    else some (.ok 256)

/-- `last_char_array`, `otcmap_p.h:92`. -/
def last4 (d : Data) (o i : Nat) : Option Nat := u16 d (o + 14 + 2 * i)

/-- `first_char_array`, `otcmap_p.h:93`. -/
def first4 (d : Data) (o n i : Nat) : Option Nat := u16 d (o + 16 + n * 2 + 2 * i)

/-- `id_delta_array`, `otcmap_p.h:94`. -/
def delta4 (d : Data) (o n i : Nat) : Option Nat := u16 d (o + 16 + n * 4 + 2 * i)

/-- `id_offset_array`, `otcmap_p.h:95`. -/
def offset4 (d : Data) (o n i : Nat) : Option Nat := u16 d (o + 16 + n * 6 + 2 * i)

/-- The tests of one segment that is not the closing mark, `otcmap.cpp:398-418`. -/
def segmentOk (n length i previousEnd first last idOffset : Nat) : Bool :=
  if first < previousEnd ∨ first > last then false
  else if i ≠ 0 ∧ first = previousEnd then false
  else if idOffset ≠ 0 then
    if idOffset % 2 = 1 then false
    else if 16 + n * 6 + idOffset + (last - first) * 2 ≥ length then false
    else true
  else true

/-- The loop over the segments, `otcmap.cpp:388-421`, with `k` segments left. -/
def segments4 (d : Data) (o n length : Nat) : (k i previousEnd count : Nat) → Result
  | 0, _, _, count => some (.ok count)
  | k + 1, i, previousEnd, count => do
    let last ← last4 d o i
    let first ← first4 d o n i
    let idOffset ← offset4 d o n i
    if first = 0xFFFF ∧ last = 0xFFFF then segments4 d o n length k (i + 1) last (min count i)
    else if segmentOk n length i previousEnd first last idOffset then segments4 d o n length k (i + 1) last count
    else invalid

/-- Format 4, `otcmap.cpp:364-429`. -/
def validate4 (d : Data) (o : Nat) : Result :=
  if d.length - o < 24 then invalid
  else do
    let length ← u16 d (o + 2)
    if length < 24 ∨ length > d.length - o then invalid
    else do
      let numSegX2 ← u16 d (o + 6)
      if numSegX2 = 0 ∨ numSegX2 % 2 ≠ 0 then invalid
      else if length < 16 + numSegX2 / 2 * 8 then invalid
      else do
        match ← segments4 d o (numSegX2 / 2) length (numSegX2 / 2) 0 0 (numSegX2 / 2) with
        | .error e => some (.error e)
        | .ok count => if count = 0 then invalid else some (.ok count)

/-- Format 6, `otcmap.cpp:434-456`; the size that is tested is that of format 10, as in the code. -/
def validate6 (d : Data) (o : Nat) : Result :=
  if d.length - o < 12 then invalid
  else do
    let length ← u16 d (o + 2)
    if length < 12 ∨ length > d.length - o then invalid
    else do
      let first ← u16 d (o + 6)
      let count ← u16 d (o + 8)
      if count = 0 ∨ first + count > 0xFFFF then invalid
      else if length < 20 + count * 2 then invalid
      else some (.ok count)

/-- `Unicode::kCharMax`, `unicode/unicode_p.h`. -/
def charMax : Nat := 0x10FFFF

/-- Format 10, `otcmap.cpp:468-490`. -/
def validate10 (d : Data) (o : Nat) : Result :=
  if d.length - o < 20 then invalid
  else do
    let length ← u32 d (o + 4)
    if length < 20 ∨ length > d.length - o then invalid
    else do
      let first ← u32 d (o + 12)
      let count ← u32 d (o + 16)
      if first ≥ charMax ∨ count = 0 ∨ count > charMax ∨ first + count > charMax then invalid
      else if length < 20 + count * 2 then invalid
      else some (.ok count)

/-- `groups.array()[i]`: `first`, `last` and `glyph_id`. -/
def first12 (d : Data) (o i : Nat) : Option Nat := u32 d (o + 16 + 12 * i)
def last12 (d : Data) (o i : Nat) : Option Nat := u32 d (o + 16 + 12 * i + 4)
def glyph12 (d : Data) (o i : Nat) : Option Nat := u32 d (o + 16 + 12 * i + 8)

/-- The loop over the groups, `otcmap.cpp:516-524`, with `k` groups left. -/
def groups12 (d : Data) (o count : Nat) : (k i last : Nat) → Result
  | 0, _, _ => some (.ok count)
  | k + 1, i, last => do
    let first ← first12 d o i
    if first ≤ last then invalid
    else do
      let last ← last12 d o i
      if first > last ∨ last > charMax then invalid
      else groups12 d o count k (i + 1) last

/-- Formats 12 and 13, `otcmap.cpp:495-530`: the first group is read whatever the number of groups is. -/
def validate12 (d : Data) (o : Nat) : Result :=
  if d.length - o < 16 then invalid
  else do
    let length ← u32 d (o + 4)
    if length < 16 ∨ length > d.length - o then invalid
    else do
      let count ← u32 d (o + 12)
      if count > charMax ∨ length < 16 + count * 12 then invalid
      else do
        let first ← first12 d o 0
        let last ← last12 d o 0
        if first > last ∨ last > charMax then invalid
        else groups12 d o count (count - 1) 1 last

/-- The formats, `otcmap.cpp:335-550`. -/
def validateFormat (d : Data) (o format : Nat) : Result :=
  match format with
  | 0 => validate0 d o
  | 2 => some (.error .notImplemented)
  | 4 => validate4 d o
  | 6 => validate6 d o
  | 8 => some (.error .notImplemented)
  | 10 => validate10 d o
  | 12 => validate12 d o
  | 13 => validate12 d o
  | 14 => if d.length - o < 10 then invalid else some (.error .notImplemented)
  | _ => invalid

/-- The format of the sub-table at `o` and its validation, `validate_sub_table`, `otcmap.cpp:330-551`. -/
def validate (d : Data) (o : Nat) : Option (Except Err (Nat × Nat)) :=
  if d.length < 4 ∨ o > d.length - 4 then some (.error .invalidData)
  else do
    let format ← u16 d o
    let r ← validateFormat d o format
    match r with
    | .ok count => some (.ok (format, count))
    | .error e => some (.error e)

/-! ## Mapping of text -/

/-- `BLGlyphMappingState` while the text is mapped; `undefined_first` is `none` for `SIZE_MAX`. -/
structure State where
  glyphCount : Nat := 0
  undefinedCount : Nat := 0
  undefinedFirst : Option Nat := none
deriving DecidableEq, Repr

/-- Store a glyph and count it when it is undefined, `otcmap.cpp:45-50`, `157-162`, `191-196`, `314-319`. -/
def State.push (s : State) (glyph : Nat) : State :=
  if glyph = 0 then
    { glyphCount := s.glyphCount + 1, undefinedCount := s.undefinedCount + 1, undefinedFirst := if s.undefinedCount = 0 then some s.glyphCount else s.undefinedFirst }
  else { s with glyphCount := s.glyphCount + 1 }

/-- The loops of formats 0, 6 and 10, `otcmap.cpp:41-58`, `187-202`, `222-238`: glyphs in reverse order and the state. -/
def mapEach (glyph : Nat → Option Nat) : List Nat → State → List Nat → Option (List Nat × State)
  | [], s, acc => some (acc.reverse, s)
  | uc :: text, s, acc => do
    let g ← glyph uc
    mapEach glyph text (s.push g) (g :: acc)

/-- `otcmap.cpp:43`. -/
def glyph0 (d : Data) (o uc : Nat) : Option Nat := if uc < 256 then u8 d (o + 6 + uc) else some 0

/-- `uint32_t(uc - uc_first)`. -/
def sub32 (a b : Nat) : Nat := (a + 4294967296 - b) % 4294967296

/-- `otcmap.cpp:188-189`, `223-224`. -/
def glyphTrimmed (d : Data) (array first count uc : Nat) : Option Nat :=
  if sub32 uc first < count then u16 d (array + 2 * sub32 uc first) else some 0

/-- `findSegmentFormat4` and `findGroupFormat12_13`, `otcmap.cpp:64-87`, `244-269`: the index of the entry that contains `uc`, with its first and last
character.  The loop ends because `i` decreases; `fuel` bounds its steps and running out of it is reported as undefined. -/
def find (first last : Nat → Option Nat) (uc : Nat) : (fuel i base : Nat) → Option (Option (Nat × Nat × Nat))
  | 0, _, _ => none
  | fuel + 1, i, base =>
    if i = 0 then some none
    else do
      let l ← last (base + i / 2)
      if l < uc then find first last uc fuel ((i - 1) / 2) (base + i / 2 + 1)
      else do
        let f ← first (base + i / 2)
        if f ≤ uc then some (some (base + i / 2, f, l))
        else find first last uc fuel (i / 2) base

/-- The entry of a character: the one that is kept, `otcmap.cpp:148-150`, `306-308`, or a new search. -/
def lookup (search : Nat → Option (Option (Nat × Nat × Nat))) (cache : Option (Nat × Nat × Nat)) (uc : Nat) : Option (Option (Nat × Nat × Nat)) :=
  match cache with
  | some (m, f, l) => if uc < f ∨ uc > l then search uc else some (some (m, f, l))
  | none => search uc

/-- The loops of formats 4, 12 and 13, `otcmap.cpp:113-168`, `285-327`: the entry that was found for a character is kept as long as the following
characters are in its range. -/
def mapRanges (search : Nat → Option (Option (Nat × Nat × Nat))) (glyph : Nat → Nat → Nat → Option Nat) :
    Option (Nat × Nat × Nat) → List Nat → State → List Nat → Option (List Nat × State)
  | _, [], s, acc => some (acc.reverse, s)
  | cache, uc :: text, s, acc => do
    let m ← lookup search cache uc
    match m with
    | none => mapRanges search glyph none text (s.push 0) (0 :: acc)
    | some (m, f, l) => do
      let g ← glyph m f uc
      if g = 0 then mapRanges search glyph none text (s.push 0) (0 :: acc)
      else mapRanges search glyph (some (m, f, l)) text (s.push g) (g :: acc)

/-- `uc` or the entry of the glyph array, `otcmap.cpp:127-136`. -/
def value4 (d : Data) (position offset uc : Nat) : Option Nat := if offset ≠ 0 then u16 d position else some uc

/-- The glyph of a character in a segment of format 4, `otcmap.cpp:124-143`; zero for `UndefinedGlyph`. -/
def glyph4 (d : Data) (o n m first uc : Nat) : Option Nat := do
  let offset ← offset4 d o n m
  let rawRemain := d.length - o - 1 - (14 + 2 * m)
  let rawOffset := 2 + n * 6 + (uc - first) * 2 + offset
  if offset ≠ 0 ∧ rawOffset ≥ rawRemain then some 0
  else do
    let value ← value4 d (o + 14 + 2 * m + rawOffset) offset uc
    let delta ← delta4 d o n m
    some ((value + delta) % 65536)

/-- The glyph of a character in a group, `otcmap.cpp:296-297`. -/
def glyphGroup (format : Nat) (d : Data) (o m first uc : Nat) : Option Nat := do
  let start ← glyph12 d o m
  some (if format = 12 then (start + uc - first) % 65536 else start % 65536)

/-- `map_text_to_glyphs` with the function that `init_cmap_funcs`, `otcmap.cpp:727-738`, chooses; `none` inside for the error of `map_text_to_glyphs_none`. -/
def mapText (d : Data) (o format count : Nat) (text : List Nat) : Option (Option (List Nat × State)) :=
  match format with
  | 0 => (mapEach (glyph0 d o) text {} []).map some
  | 4 => do
    let numSegX2 ← u16 d (o + 6)
    let n := numSegX2 / 2
    (mapRanges (fun uc => find (first4 d o n) (last4 d o) uc (count + 1) count 0) (glyph4 d o n) none text {} []).map some
  | 6 => do
    let first ← u16 d (o + 6)
    let cnt ← u16 d (o + 8)
    (mapEach (glyphTrimmed d (o + 10) first cnt) text {} []).map some
  | 10 => do
    let first ← u32 d (o + 12)
    let cnt ← u32 d (o + 16)
    (mapEach (glyphTrimmed d (o + 20) first cnt) text {} []).map some
  | 12 => (mapRanges (fun uc => find (first12 d o) (last12 d o) uc (count + 1) count 0) (glyphGroup 12 d o) none text {} []).map some
  | 13 => (mapRanges (fun uc => find (first12 d o) (last12 d o) uc (count + 1) count 0) (glyphGroup 13 d o) none text {} []).map some
  | _ => some none

/-! ## Character coverage -/

/-- The loops of `populate_character_coverage` over entries, `otcmap.cpp:599-619`, `677-699`: the ranges that are added to the set, in order. -/
def coverRanges (first endOf : Nat → Option Nat) : (k i rangeStart rangeEnd : Nat) → List (Nat × Nat) → Option (List (Nat × Nat))
  | 0, _, rangeStart, rangeEnd, acc => some (if rangeStart < rangeEnd then ((rangeStart, rangeEnd) :: acc).reverse else acc.reverse)
  | k + 1, i, rangeStart, rangeEnd, acc => do
    let segmentStart ← first i
    let segmentEnd ← endOf i
    if segmentStart = rangeEnd then coverRanges first endOf k (i + 1) rangeStart segmentEnd acc
    else coverRanges first endOf k (i + 1) segmentStart segmentEnd (if rangeStart < rangeEnd then (rangeStart, rangeEnd) :: acc else acc)

/-- The loops over the glyphs of formats 0, 6 and 10, `otcmap.cpp:569-573`, `633-637`, `652-656`: the characters that are added to the set. -/
def coverEach (glyph : Nat → Option Nat) (first : Nat) : (k i : Nat) → List Nat → Option (List Nat)
  | 0, _, acc => some acc.reverse
  | k + 1, i, acc => do
    let g ← glyph i
    coverEach glyph first k (i + 1) (if g ≠ 0 then (first + i) :: acc else acc)

/-- What `populate_character_coverage`, `otcmap.cpp:556-707`, adds to the set: single characters and ranges with their ends excluded. -/
structure Coverage where
  chars : List Nat := []
  ranges : List (Nat × Nat) := []
deriving DecidableEq, Repr

/-- `populate_character_coverage`; the bit set itself is the subject of another module. -/
def coverage (d : Data) (o format count : Nat) : Option (Option Coverage) :=
  match format with
  | 0 => do
    let cs ← coverEach (fun i => u8 d (o + 6 + i)) 0 256 0 []
    some (some { chars := cs })
  | 4 => do
    let numSegX2 ← u16 d (o + 6)
    let n := numSegX2 / 2
    if n = 0 ∨ count = 0 then some (some {})
    else do
      let rs ← coverRanges (first4 d o n) (fun i => (last4 d o i).map (· + 1)) count 0 0 0 []
      some (some { ranges := rs })
  | 6 => do
    let first ← u16 d (o + 6)
    let cs ← coverEach (fun i => u16 d (o + 10 + 2 * i)) first count 0 []
    some (some { chars := cs })
  | 10 => do
    let first ← u32 d (o + 12)
    let cs ← coverEach (fun i => u16 d (o + 20 + 2 * i)) first count 0 []
    some (some { chars := cs })
  | 12 | 13 =>
    if count = 0 then some (some {})
    else do
      let rs ← coverRanges (first12 d o) (fun i => (last12 d o i).map fun l => if l ≠ 0xFFFFFFFF then l + 1 else l) count 0 0 0 []
      some (some { ranges := rs })
  | _ => some none

/-! ## Choice of a sub-table -/

/-- `is_supported_cmap_format`, `otcmap.cpp:713-725`. -/
def supported (format : Nat) : Bool := format = 0 ∨ format = 4 ∨ format = 6 ∨ format = 10 ∨ format = 12 ∨ format = 13

/-- The score of an encoding record, `otcmap.cpp:783-803`; flags of the face are not modelled. -/
def score (platform encoding format : Nat) : Nat :=
  match platform with
  | 0 => 0x10000 + encoding
  | 3 => if encoding = 0 then 2 else if encoding = 1 ∨ encoding = 10 then 0x20000 + encoding else 0
  | 1 => if encoding = 0 ∧ format = 0 then 1 else 0
  | _ => 0

/-- The best sub-table so far: its score, format, offset and number of entries. -/
structure Match where
  score : Nat
  format : Nat
  offset : Nat
  count : Nat
deriving DecidableEq, Repr

/-- `matched_score`, `otcmap.cpp:765`. -/
def bestScore : Option Match → Nat
  | some b => b.score
  | none => 0

/-- One encoding record, `otcmap.cpp:770-825`. -/
def tryEncoding (d : Data) (i : Nat) (best : Option Match) : Option (Option Match) := do
  let offset ← u32 d (4 + 8 * i + 4)
  if offset ≥ d.length - 4 then some best
  else do
    let platform ← u16 d (4 + 8 * i)
    let encoding ← u16 d (4 + 8 * i + 2)
    let format ← u16 d offset
    if !supported format then some best
    else if score platform encoding format > bestScore best then do
      match ← validate d offset with
      | .error _ => some best
      | .ok (f, count) => some (some ⟨score platform encoding format, f, offset, count⟩)
    else some best

/-- The loop over the encoding records, `otcmap.cpp:769-826`. -/
def tryEncodings (d : Data) : (k i : Nat) → Option Match → Option (Option Match)
  | 0, _, best => some best
  | k + 1, i, best => do
    let best ← tryEncoding d i best
    tryEncodings d k (i + 1) best

/-- `init`, `otcmap.cpp:740-838`: the sub-table that is used. -/
def init (d : Data) : Option (Option Match) :=
  if d.length < 12 then some none
  else do
    let count ← u16 d 2
    if d.length < 4 + count * 8 then some none
    else tryEncodings d count 0 none

end Blend2D.CMap
