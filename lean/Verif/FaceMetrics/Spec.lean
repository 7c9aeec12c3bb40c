import Verif.FaceMetrics.Model
import Verif.Glyf.Spec
/-! What the tables of a font say about its metrics, one entry per metric, independent of the order in which the
tables are read. -/
namespace Blend2D.FaceMetrics.Spec
open Blend2D.Glyf (Box)
open Blend2D.Glyf.Spec (be signed)

/-- The unsigned 16-bit number at an offset of a table. -/
def word (l : List UInt8) (o : Nat) : Nat := be ((l.drop o).take 2)

/-- The signed 16-bit number at an offset of a table. -/
def sword (l : List UInt8) (o : Nat) : Int := signed (word l o)

/-- The unsigned 32-bit number at an offset of a table. -/
def long (l : List UInt8) (o : Nat) : Nat := be ((l.drop o).take 4)

/-- The number of glyphs. -/
def glyphs (T : Tables) : Nat := word T.maxp 4

/-- The number of records of `hmtx` (`vmtx`), as `hhea` (`vhea`) says it, at most one per glyph. -/
def records (T : Tables) (hea : List UInt8) : Nat := min (word hea 34) (glyphs T)

/-- The tables `hhea` and `hmtx`, or `vhea` and `vmtx`: the first one may be missing, otherwise it must be complete;
the second one, if there is any, must have its records. -/
def MetricsOk (T : Tables) (hea mtx : List UInt8) : Prop :=
  hea = [] ∨ 36 ≤ hea.length ∧ (mtx = [] ∨ 4 * records T hea ≤ mtx.length)

/-- The tables of a font that is accepted: `head` and `maxp` must be there and have values that are allowed. -/
def Valid (T : Tables) : Prop :=
  (54 ≤ T.head.length ∧ 16 ≤ word T.head 18 ∧ word T.head 18 ≤ 16384 ∧ word T.head 52 = 0 ∧ word T.head 50 ≤ 1) ∧
  (6 ≤ T.maxp.length ∧ glyphs T ≠ 0) ∧
  MetricsOk T T.hhea T.hmtx ∧ MetricsOk T T.vhea T.vmtx

/-- `OS/2` is there, with the fields of version 0 of the Apple specification. -/
def os2 (T : Tables) : Bool := 68 ≤ T.os2.length
/-- `OS/2` also has the fields of version 0 of the OpenType specification. -/
def os2Full (T : Tables) : Bool := 78 ≤ T.os2.length
/-- `OS/2` is of version 2 at least. -/
def os2V2 (T : Tables) : Bool := 96 ≤ T.os2.length ∧ 2 ≤ word T.os2 0
/-- Bits of `fsSelection`. -/
def selection (T : Tables) (bit : Nat) : Bool := os2Full T && (word T.os2 62).testBit bit
/-- The font asks for the metrics of `OS/2` (bit 7). -/
def typographic (T : Tables) : Bool := selection T 7

/-- Line metrics: from `hhea`, unless there is none or the font asks for those of `OS/2`. -/
def line (T : Tables) (inHhea inOs2 : Nat) : Int :=
  if T.hhea ≠ [] ∧ typographic T = false then sword T.hhea inHhea
  else if os2Full T then sword T.os2 inOs2 else 0

/-- A value of a table that may be missing. -/
def opt (c : Bool) (v : Int) : Int := if c then v else 0

/-- The box of all glyphs, y pointing down; none if it is inverted. -/
def box (T : Tables) : Box :=
  if sword T.head 36 ≤ sword T.head 40 ∧ sword T.head 38 ≤ sword T.head 42 then
    ⟨sword T.head 36, -sword T.head 42, sword T.head 40, -sword T.head 38⟩
  else ⟨0, 0, 0, 0⟩

/-- The design metrics. -/
def design (T : Tables) : Design where
  unitsPerEm := word T.head 18
  lowestPpem := word T.head 46
  lineGap := line T 8 72
  xHeight := opt (os2V2 T) (sword T.os2 86)
  capHeight := opt (os2V2 T) (sword T.os2 88)
  ascent := line T 4 68
  descent := |line T 6 70|
  vAscent := opt (T.vhea ≠ []) (sword T.vhea 4)
  vDescent := opt (T.vhea ≠ []) (sword T.vhea 6)
  hMinLsb := opt (T.hhea ≠ []) (sword T.hhea 12)
  vMinLsb := opt (T.vhea ≠ []) (sword T.vhea 12)
  hMinTsb := opt (T.hhea ≠ []) (sword T.hhea 14)
  vMinTsb := opt (T.vhea ≠ []) (sword T.vhea 14)
  hMaxAdvance := opt (T.hhea ≠ []) (word T.hhea 10)
  vMaxAdvance := opt (T.vhea ≠ []) (word T.vhea 10)
  box := box T
  underlinePosition := opt (32 ≤ T.post.length) (-(sword T.post 8 + sword T.post 10))
  underlineThickness := opt (32 ≤ T.post.length) (sword T.post 10)
  strikePosition := opt (os2 T) (-(sword T.os2 28 + sword T.os2 26))
  strikeThickness := opt (os2 T) (sword T.os2 26)

/-- Weights: 1 … 9 stand for 100 … 900, nothing for 400, and at most 999. -/
def weight (w : Nat) : Nat :=
  if w = 0 then 400 else if w < 10 then w * 100 else if w < 1000 then w else 999

/-- Stretches: nothing stands for 5, and at most 9. -/
def stretch (s : Nat) : Nat := if s = 0 then 5 else if s < 10 then s else 9

/-- The advance of a glyph: that of its record, or of the last one. -/
def advance (T : Tables) (g : Nat) : Nat :=
  if g < records T T.hhea then word T.hmtx (4 * g) else word T.hmtx (4 * (records T T.hhea - 1))

/-- The font has advances: both tables are there, and there is a record. -/
def HasAdvances (T : Tables) : Prop := T.hhea ≠ [] ∧ T.hmtx ≠ [] ∧ word T.hhea 34 ≠ 0

/-- The box of a glyph. -/
def glyphBox (G : Blend2D.Glyf.Font) (g : Nat) : Option Box :=
  (Blend2D.Glyf.Spec.bytes G (g % 65536)).bind Blend2D.Glyf.Spec.box

/-- The glyphs and placements of a text: the glyphs that layout makes of it, with their advances, which the layout may
change. -/
def shaped (T : Tables) (L : Layout) (text : List Nat) : List Nat × List Placement :=
  let gs := L.gsub (L.map text)
  let ps := gs.map fun g => ⟨0, 0, advance T g, 0⟩
  (gs, match L.gpos with | none => ps | some k => k gs ps)

/-- The metrics of glyphs that are placed: the first one has box `b0`, the last one `b1`, `ps` are the placements of
those before the last one, `last` is its placement; `s` is the size of a unit.  The text goes from the left edge of
its first glyph to the right edge of the last one, which is drawn behind the advances of the others. -/
structure IsMetrics (s : Rat) (b0 b1 : Box) (ps : List Placement) (last : Placement) (m : TextMetrics) : Prop where
  advance_x : m.advance.x = s * ((ps ++ [last]).map (·.ax)).sum
  advance_y : m.advance.y = -s * ((ps ++ [last]).map (·.ay)).sum
  leading : m.leading = ⟨s * b0.x0, 0⟩
  trailing : m.trailing = ⟨s * (last.ax - b1.x1), 0⟩
  x0 : m.x0 = s * b0.x0
  x1 : m.x1 = s * ((ps.map (·.ax)).sum + b1.x1)
  y0 : m.y0 = 0
  y1 : m.y1 = 0

end Blend2D.FaceMetrics.Spec
