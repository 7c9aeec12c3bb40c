import Verif.NameTable.Model
import Verif.Unicode.Spec
import Verif.FaceMetrics.Spec
/-! What the names of a font are. -/
namespace Blend2D.NameTable.Spec
open Blend2D.FaceMetrics.Spec (word)
open Blend2D.Unicode.Spec (Scalar codePoint text)

/-- A string of a platform (0 is Unicode, 3 is Windows: both have UTF-16 in big endian order and an odd last byte is
not used; others have one byte for each character) decodes to characters. -/
def Decodes (platform : Nat) (s : List UInt8) (cs : List Nat) : Prop :=
  if platform = 0 ∨ platform = 3 then
    (∀ c ∈ cs, Scalar c) ∧ s.take (s.length / 2 * 2) = cs.flatMap (codePoint true .utf16)
  else cs = s.map (·.toNat)

/-- The text of a string in UTF-8: null characters that pad it are removed, others aren't allowed. -/
def IsText (platform : Nat) (s t : List UInt8) : Prop :=
  ∃ ds k, Decodes platform s (ds ++ List.replicate k 0) ∧ 0 ∉ ds ∧ t = text .utf8 ds

/-- The table's header: version 0 or 1, at least one record, the records are in the table, and the strings begin in
it. -/
def Accepted (d : List UInt8) : Prop :=
  6 ≤ d.length ∧ word d 0 ≤ 1 ∧ 1 ≤ word d 2 ∧ 6 + 12 * word d 2 ≤ d.length ∧ word d 4 < d.length

instance (d : List UInt8) : Decidable (Accepted d) := inferInstanceAs (Decidable (_ ∧ _))

/-- The records of the table. -/
def record (d : List UInt8) (i : Nat) : Rec :=
  ⟨word d (6 + 12 * i), word d (6 + 12 * i + 2), word d (6 + 12 * i + 4), word d (6 + 12 * i + 6),
   word d (6 + 12 * i + 8), word d (6 + 12 * i + 10)⟩

/-- The bytes of the string of a record, if they are in the table. -/
def bytes (d : List UInt8) (r : Rec) : Option (List UInt8) :=
  if r.length = 0 then some []
  else if word d 4 + r.offset + r.length ≤ d.length then some ((d.drop (word d 4 + r.offset)).take r.length)
  else none

/-- How good the encoding of a record is: Windows with Unicode, Unicode, Mac Roman, Windows with symbols. -/
def encoding (r : Rec) : Nat :=
  if r.platform = 3 ∧ r.specific = 1 then 4
  else if r.platform = 0 then 3
  else if r.platform = 1 ∧ r.specific = 0 then 2
  else if r.platform = 3 ∧ r.specific = 0 then 1
  else 0

/-- How good the language of a record is: English of the United States, of the United Kingdom, of others on Windows,
and English on Mac. -/
def language (r : Rec) : Nat :=
  if r.platform = 3 ∧ r.language = 0x0409 then 4
  else if r.platform = 3 ∧ r.language = 0x0809 then 3
  else if r.platform = 3 ∧ r.language % 256 = 9 then 2
  else if r.platform = 1 ∧ r.language = 0 then 1
  else 0

/-- The language is more important than the encoding, and an empty subfamily on Mac is more important than all. -/
def level (r : Rec) (t : List UInt8) : Nat :=
  if r.platform = 1 ∧ r.id = 2 ∧ t = [] then 0xFFFF else language r * 256 + encoding r

/-- Record `i` gives the text `t` for the name `id`. -/
def Gives (d : List UInt8) (id i : Nat) (t : List UInt8) : Prop :=
  i < word d 2 ∧ (record d i).id = id ∧ encoding (record d i) ≠ 0 ∧
    ∃ s, bytes d (record d i) = some s ∧ IsText (record d i).platform s t

/-- Record `i` is for one of the names that are used, but its string can't be decoded or has null characters inside. -/
def Broken (d : List UInt8) (i : Nat) : Prop :=
  i < word d 2 ∧ (record d i).id ∈ [1, 2, 4, 6, 16, 17, 21, 22] ∧ encoding (record d i) ≠ 0 ∧
    ∃ s, bytes d (record d i) = some s ∧ ∀ t, ¬ IsText (record d i).platform s t

/-- The name `id` is `t`: the text of the best of the records that give one, the first of those that are as good. -/
def IsName (d : List UInt8) (id : Nat) (t : List UInt8) : Prop :=
  ∃ i, Gives d id i t ∧ ∀ j u, Gives d id j u →
    level (record d j) u ≤ level (record d i) t ∧ (j < i → level (record d j) u < level (record d i) t)

/-- The first name of a list that the font has, or nothing. -/
def IsFirst (d : List UInt8) : List Nat → List UInt8 → Prop
  | [], t => t = []
  | id :: rest, t => IsName d id t ∨ (∀ i u, ¬ Gives d id i u) ∧ IsFirst d rest t

end Blend2D.NameTable.Spec
