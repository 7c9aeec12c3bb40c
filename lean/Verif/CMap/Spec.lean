import Verif.CMap.Model

/-!
# What a 'cmap' sub-table means

Written after the OpenType specification of the table, with reads that are zero outside of the data.
-/

namespace Blend2D.CMap.Spec

open Blend2D.CMap (Data State Coverage)

/-- The byte at `i`. -/
def byte (d : Data) (i : Nat) : Nat := (d.getD i 0).toNat

/-- The big endian 16-bit number at `i`. -/
def be16 (d : Data) (i : Nat) : Nat := byte d i * 256 + byte d (i + 1)

/-- The big endian 32-bit number at `i`. -/
def be32 (d : Data) (i : Nat) : Nat := be16 d i * 65536 + be16 d (i + 2)

/-- Number of segments of format 4: `segCountX2 / 2`. -/
def segCount (d : Data) (o : Nat) : Nat := be16 d (o + 6) / 2

/-- `endCode[i]`, `startCode[i]`, `idDelta[i]` and `idRangeOffset[i]` of format 4. -/
def endCode (d : Data) (o i : Nat) : Nat := be16 d (o + 14 + 2 * i)
def startCode (d : Data) (o i : Nat) : Nat := be16 d (o + 16 + 2 * segCount d o + 2 * i)
def idDelta (d : Data) (o i : Nat) : Nat := be16 d (o + 16 + 4 * segCount d o + 2 * i)
def idRangeOffset (d : Data) (o i : Nat) : Nat := be16 d (o + 16 + 6 * segCount d o + 2 * i)

/-- The closing segment 0xFFFF to 0xFFFF. -/
def IsMark (d : Data) (o i : Nat) : Prop := startCode d o i = 0xFFFF ∧ endCode d o i = 0xFFFF

/-- Character `c` is in segment `i` of format 4, which is not the closing one. -/
def InSegment (d : Data) (o c i : Nat) : Prop :=
  i < segCount d o ∧ ¬ IsMark d o i ∧ startCode d o i ≤ c ∧ c ≤ endCode d o i

/-- Where the glyph of character `c` of segment `i` is stored when the segment has an `idRangeOffset`: that many bytes after the offset itself. -/
def glyphPos (d : Data) (o c i : Nat) : Nat :=
  (o + 16 + 6 * segCount d o + 2 * i) + idRangeOffset d o i + 2 * (c - startCode d o i)

/-- The glyph of character `c` of segment `i`.  A glyph array entry that is zero, or that is not in the table, is the missing glyph. -/
def segmentGlyph (d : Data) (o c i : Nat) : Nat :=
  if idRangeOffset d o i = 0 then (c + idDelta d o i) % 65536
  else if glyphPos d o c i + 2 ≤ d.length then
    if be16 d (glyphPos d o c i) = 0 then 0 else (be16 d (glyphPos d o c i) + idDelta d o i) % 65536
  else 0

/-- `startCharCode`, `endCharCode` and `startGlyphID` (`glyphID`) of group `i` of formats 12 and 13. -/
def groupCount (d : Data) (o : Nat) : Nat := be32 d (o + 12)
def groupFirst (d : Data) (o i : Nat) : Nat := be32 d (o + 16 + 12 * i)
def groupLast (d : Data) (o i : Nat) : Nat := be32 d (o + 16 + 12 * i + 4)
def groupGlyph (d : Data) (o i : Nat) : Nat := be32 d (o + 16 + 12 * i + 8)

/-- Character `c` is in group `i`. -/
def InGroup (d : Data) (o c i : Nat) : Prop :=
  i < groupCount d o ∧ groupFirst d o i ≤ c ∧ c ≤ groupLast d o i

/-- The sub-table at `o`, which has the given format, maps character `c` to glyph `g`; glyph 0 is the missing glyph.  Glyph identifiers have 16 bits. -/
def Maps (d : Data) (o : Nat) : (format c g : Nat) → Prop
  | 0, c, g => g = if c < 256 then byte d (o + 6 + c) else 0
  | 4, c, g => (∃ i, InSegment d o c i ∧ g = segmentGlyph d o c i) ∨ ((∀ i, ¬ InSegment d o c i) ∧ g = 0)
  | 6, c, g => g = if be16 d (o + 6) ≤ c ∧ c < be16 d (o + 6) + be16 d (o + 8) then be16 d (o + 10 + 2 * (c - be16 d (o + 6))) else 0
  | 10, c, g => g = if be32 d (o + 12) ≤ c ∧ c < be32 d (o + 12) + be32 d (o + 16) then be16 d (o + 20 + 2 * (c - be32 d (o + 12))) else 0
  | 12, c, g => (∃ i, InGroup d o c i ∧ g = (groupGlyph d o i + (c - groupFirst d o i)) % 65536) ∨ ((∀ i, ¬ InGroup d o c i) ∧ g = 0)
  | 13, c, g => (∃ i, InGroup d o c i ∧ g = groupGlyph d o i % 65536) ∨ ((∀ i, ¬ InGroup d o c i) ∧ g = 0)
  | _, _, _ => False

/-- The state that is reported for a sequence of glyphs: how many there are, how many are missing and where the first missing one is. -/
def stateOf (glyphs : List Nat) : State :=
  ⟨glyphs.length, glyphs.count 0, glyphs.findIdx? (· == 0)⟩

/-- The characters that a coverage contains. -/
def Covers (cov : Coverage) (c : Nat) : Prop := c ∈ cov.chars ∨ ∃ r ∈ cov.ranges, r.1 ≤ c ∧ c < r.2

/-- The groups of formats 12 and 13 are not empty. -/
def NoEmptyGroups (d : Data) (o : Nat) : Prop := be16 d o = 12 ∨ be16 d o = 13 → be32 d (o + 12) ≠ 0

/-! ## Encoding records -/

/-- The encoding record `i` of the 'cmap' table. -/
def numRecords (d : Data) : Nat := be16 d 2
def platformId (d : Data) (i : Nat) : Nat := be16 d (4 + 8 * i)
def encodingId (d : Data) (i : Nat) : Nat := be16 d (4 + 8 * i + 2)
def subtable (d : Data) (i : Nat) : Nat := be32 d (4 + 8 * i + 4)

/-- The class of an encoding record: Windows Unicode is preferred to other Unicode, that to symbols, and that to Macintosh Roman. -/
def rank (d : Data) (i : Nat) : Nat :=
  if platformId d i = 3 ∧ (encodingId d i = 1 ∨ encodingId d i = 10) then 4
  else if platformId d i = 0 then 3
  else if platformId d i = 3 ∧ encodingId d i = 0 then 2
  else if platformId d i = 1 ∧ encodingId d i = 0 ∧ be16 d (subtable d i) = 0 then 1
  else 0

/-- Record `j` is preferred to record `i`: by class, and by encoding number in one class of Unicode encodings. -/
def Preferred (d : Data) (i j : Nat) : Prop :=
  rank d i < rank d j ∨ (rank d i = rank d j ∧ 3 ≤ rank d i ∧ encodingId d i < encodingId d j)

end Blend2D.CMap.Spec
