import Mathlib.Data.List.Basic
/-!
# The 'kern' table

What a table of kerning pairs says, and how it is stored, after the OpenType specification and Apple's TrueType reference manual.
-/

namespace Blend2D.Kern.Spec

/-- A sub-table of kerning pairs. -/
structure Sub where
  /-- for horizontal text -/
  horizontal : Bool
  /-- the value is a minimum for the kerning so far -/
  minimum : Bool
  /-- the value moves glyphs perpendicular to the line -/
  cross : Bool
  /-- the value replaces the kerning so far -/
  replaces : Bool
  /-- left glyph, right glyph, value -/
  pairs : List (Nat × Nat × Int)
  /-- the numbers that help searching, six bytes nobody needs -/
  hints : List UInt8

/-- A byte, and big endian numbers of 16 and 32 bits. -/
def be8 (n : Nat) : List UInt8 := [UInt8.ofNat n]
def be16 (n : Nat) : List UInt8 := [UInt8.ofNat (n / 256), UInt8.ofNat n]
def be32 (n : Nat) : List UInt8 := be16 (n / 65536) ++ be16 n

/-- A pair. -/
def pairBytes (p : Nat × Nat × Int) : List UInt8 := be16 p.1 ++ be16 p.2.1 ++ be16 (p.2.2 % 65536).toNat

/-- The content of a sub-table of format 0. -/
def Sub.body (s : Sub) : List UInt8 := be16 s.pairs.length ++ s.hints ++ s.pairs.flatMap pairBytes

def bit (b : Bool) (n : Nat) : Nat := if b then n else 0

/-- A sub-table with the header of Windows: version, length (the low 16 bits), format and coverage. -/
def Sub.win (s : Sub) : List UInt8 :=
  be16 0 ++ be16 ((6 + s.body.length) % 65536) ++ be8 0 ++
    be8 (bit s.horizontal 1 + bit s.minimum 2 + bit s.cross 4 + bit s.replaces 8) ++ s.body

/-- A sub-table with the header of Apple: length, coverage, format and tuple. -/
def Sub.mac (s : Sub) : List UInt8 :=
  be32 (8 + s.body.length) ++ be8 (bit (!s.horizontal) 0x80 + bit s.cross 0x40) ++ be8 0 ++ be16 0 ++ s.body

/-- Tables of Windows and of Apple. -/
def win (subs : List Sub) : List UInt8 := be16 0 ++ be16 subs.length ++ subs.flatMap Sub.win
def mac (subs : List Sub) : List UInt8 := be32 0x10000 ++ be32 subs.length ++ subs.flatMap Sub.mac

/-- Numbers that fit, every pair of glyphs once. -/
structure Sub.Valid (s : Sub) : Prop where
  count : s.pairs.length < 65536
  fits : ∀ p ∈ s.pairs, p.1 < 65536 ∧ p.2.1 < 65536 ∧ -32768 ≤ p.2.2 ∧ p.2.2 ≤ 32767
  once : (s.pairs.map (fun p => (p.1, p.2.1))).Nodup
  hints : s.hints.length = 6

/-- The value of a pair of glyphs. -/
def Sub.value (s : Sub) (l r : Nat) : Option Int := (s.pairs.find? (fun p => p.1 = l ∧ p.2.1 = r)).map (·.2.2)

/-- What a sub-table makes of the kerning so far. -/
def Sub.adjust (s : Sub) (l r : Nat) (k : Int) : Int :=
  match s.value l r with
  | none => k
  | some v => if s.replaces then v else if s.minimum then min k v else k + v

/-- The kerning between two glyphs of horizontal text, along the line. -/
def kerning (subs : List Sub) (l r : Nat) : Int :=
  (subs.filter (fun s => s.horizontal && !s.cross)).foldl (fun k s => s.adjust l r k) 0

/-! ## Any table -/

/-- Numbers of a table; nothing is behind its end. -/
def n8 (d : List UInt8) (i : Nat) : Nat := (d.getD i 0).toNat
def n16 (d : List UInt8) (i : Nat) : Nat := n8 d i * 256 + n8 d (i + 1)
def n32 (d : List UInt8) (i : Nat) : Nat := n16 d i * 65536 + n16 d (i + 2)

/-- `SubAt d a o`: a sub-table starts at the offset `o`, with a header of Apple if `a`. -/
inductive SubAt (d : List UInt8) : Bool → Nat → Prop where
  | win : n16 d 0 = 0 → SubAt d false 4
  | mac : n16 d 0 = 1 → SubAt d true 8
  | nextWin (o : Nat) : SubAt d false o → SubAt d false (o + n16 d (o + 2))
  | nextMac (o : Nat) : SubAt d true o → SubAt d true (o + n32 d o)

/-- The format of a sub-table. -/
def format (d : List UInt8) (apple : Bool) (o : Nat) : Nat := if apple then n8 d (o + 5) else n8 d (o + 4)

end Blend2D.Kern.Spec
