import Verif.Unicode.Model

/-!
# Specification of the Unicode encoding forms

Written from the Unicode standard (table 3-6 for UTF-8, table 3-5 for UTF-16), with ordinary arithmetic
on natural numbers and independent of the model's reading and writing code.
-/

namespace Blend2D.Unicode.Spec

/-- Surrogate code points. -/
def Surrogate (c : Nat) : Prop := 0xD800 ≤ c ∧ c ≤ 0xDFFF

/-- Unicode scalar values: every code point that is not a surrogate. -/
def Scalar (c : Nat) : Prop := c ≤ 0x10FFFF ∧ ¬ Surrogate c

instance : DecidablePred Surrogate := fun _ => inferInstanceAs (Decidable (_ ∧ _))
instance : DecidablePred Scalar := fun _ => inferInstanceAs (Decidable (_ ∧ _))

/-- The UTF-8 code units of a code point. -/
def utf8 (c : Nat) : List Nat :=
  if c < 0x80 then [c]
  else if c < 0x800 then [0xC0 + c / 64, 0x80 + c % 64]
  else if c < 0x10000 then [0xE0 + c / 4096, 0x80 + c / 64 % 64, 0x80 + c % 64]
  else [0xF0 + c / 262144, 0x80 + c / 4096 % 64, 0x80 + c / 64 % 64, 0x80 + c % 64]

/-- The UTF-16 code units of a code point. -/
def utf16 (c : Nat) : List Nat :=
  if c < 0x10000 then [c]
  else [0xD800 + (c - 0x10000) / 1024, 0xDC00 + (c - 0x10000) % 1024]

/-- Bytes of a 16-bit unit; `be` selects big endian. -/
def unit16 (be : Bool) (u : Nat) : List Nat :=
  if be then [u / 256, u % 256] else [u % 256, u / 256]

/-- Bytes of a 32-bit unit; `be` selects big endian. -/
def unit32 (be : Bool) (u : Nat) : List Nat :=
  if be then [u / 16777216, u / 65536 % 256, u / 256 % 256, u % 256]
  else [u % 256, u / 256 % 256, u / 65536 % 256, u / 16777216]

/-- The bytes of one code point in an encoding. -/
def codePoint (be : Bool) (e : Enc) (c : Nat) : List UInt8 :=
  (match e with
   | .latin1 => [c]
   | .utf8 => utf8 c
   | .utf16 => (utf16 c).flatMap (unit16 be)
   | .utf32 => unit32 be c).map UInt8.ofNat

/-- The bytes of a text, given as a list of code points, in an encoding (little endian). -/
def text (e : Enc) (cs : List Nat) : List UInt8 := cs.flatMap (codePoint false e)

/-- The code points an encoding can carry. -/
def Encodable (e : Enc) (c : Nat) : Prop :=
  match e with
  | .latin1 => c < 256
  | _ => Scalar c

/-- Well-formed text: the encoding of a list of encodable code points. -/
def WellFormed (e : Enc) (bs : List UInt8) : Prop := ∃ cs, (∀ c ∈ cs, Encodable e c) ∧ bs = text e cs

/-- Code points the library reads from an encoding: like `Encodable`, except that UTF-8 input may carry
surrogates (three-byte sequences `ED A0..BF xx`). -/
def Carried (e : Enc) (c : Nat) : Prop :=
  match e with
  | .latin1 => c < 256
  | .utf8 => c ≤ 0x10FFFF
  | _ => Scalar c

/-- A faithful conversion: the destination holds, from its start, the destination form of the longest prefix
`cs` of the source text that is well-formed and fits; both indexes point behind that prefix; the rest of the
destination is untouched; and the result code tells whether the source is exhausted, ill-formed, or did not
fit. -/
def Faithful (de se : Enc) (dst src : List UInt8) (r : Conv) : Prop :=
  ∃ cs rest, (∀ c ∈ cs, Carried se c) ∧ src = text se cs ++ rest ∧
    (text de cs).length ≤ dst.length ∧ r.mem = text de cs ++ dst.drop (text de cs).length ∧
    r.dstIndex = (text de cs).length ∧ r.srcIndex = (text se cs).length ∧
    ((r.res = .success ∧ rest = []) ∨
     ((r.res = .invalidString ∨ r.res = .dataTruncated) ∧ rest ≠ [] ∧
        ∀ c, Carried se c → ¬ codePoint false se c <+: rest) ∨
     (r.res = .noSpaceLeft ∧ rest ≠ [] ∧
        ∀ c, Carried se c → codePoint false se c <+: rest → dst.length < (text de (cs ++ [c])).length))

example : text .utf8 [0x41, 0xE9, 0x20AC, 0x1F600] =
    [0x41, 0xC3, 0xA9, 0xE2, 0x82, 0xAC, 0xF0, 0x9F, 0x98, 0x80] := by decide
example : text .utf16 [0x41, 0x20AC, 0x1F600] = [0x41, 0, 0xAC, 0x20, 0x3D, 0xD8, 0x00, 0xDE] := by decide

end Blend2D.Unicode.Spec
