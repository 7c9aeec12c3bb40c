import Verif.Unicode.Spec
import Verif.GlyphBuffer.Model
/-! What the text of a glyph buffer is, stated without the functions of the model.

The bytes of a code point in an encoding (`Unicode.Spec.codePoint`) come from the specification of C08. -/
namespace Blend2D.GlyphBuffer.Spec
open Blend2D.Unicode (Enc)
open Blend2D.Unicode.Spec (codePoint Carried Surrogate text Encodable)

/-- Bytes of one unit of an encoding: clusters count units. -/
def unitBytes : Enc → Nat
  | .latin1 => 1
  | .utf8 => 1
  | .utf16 => 2
  | .utf32 => 4

/-- `Decodes e k bytes out`: reading `bytes`, the first of which belongs to unit `k` of the text, yields the
pairs `out` of a code point and the index of the unit it starts at.
* A code point whose encoding starts the text is taken.
* Otherwise a surrogate that stands alone in UTF-16 or UTF-32 text is kept as it is.
* Otherwise the first unit cannot be decoded; it is replaced by U+FFFD. -/
inductive Decodes (e : Enc) : Nat → List UInt8 → List (Nat × Nat) → Prop
  | done (k) : Decodes e k [] []
  | char (k c rest out) : Carried e c →
      Decodes e (k + (codePoint false e c).length / unitBytes e) rest out →
      Decodes e k (codePoint false e c ++ rest) ((c, k) :: out)
  | lone (k c rest out) : Surrogate c → e ≠ .utf8 → e ≠ .latin1 →
      (∀ c', Carried e c' → ¬ codePoint false e c' <+: codePoint false e c ++ rest) →
      Decodes e (k + 1) rest out →
      Decodes e k (codePoint false e c ++ rest) ((c, k) :: out)
  | bad (k bytes rest out) : bytes.length = unitBytes e →
      (∀ c', c' ≤ 0x10FFFF → ¬ codePoint false e c' <+: bytes ++ rest) →
      Decodes e (k + 1) rest out →
      Decodes e k (bytes ++ rest) ((0xFFFD, k) :: out)

/-- The items a user sees in the buffer: glyph ids or code points, with their clusters. -/
def items (d : Impl) : List (UInt32 × UInt32) := (d.content.take d.size).zip (d.info.take d.size)

/-- The placements a user sees: those of the glyphs of the run. -/
def placements (d : Impl) : List Place := d.second.take d.size

/-- The indexes of the units at which the code points of a text start. -/
def starts (e : Enc) : Nat → List Nat → List Nat
  | _, [] => []
  | k, c :: cs => k :: starts e (k + (codePoint false e c).length / unitBytes e) cs

/-- The buffer's arrays cover the items it claims to hold. -/
def Covered (d : Impl) : Prop := d.size ≤ d.content.length ∧ d.size ≤ d.info.length

/-- The placements of the glyph run cover its glyphs. -/
def Placed (d : Impl) : Prop := d.placed = true → d.size ≤ d.second.length

end Blend2D.GlyphBuffer.Spec
