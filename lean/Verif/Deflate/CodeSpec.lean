import Mathlib.Data.List.Count

/-!
# Specification: canonical Huffman codes (RFC 1951, section 3.2.2)

Nothing here refers to the model.  A code is given by the list of the lengths of its codewords, one for each symbol, where 0
means that the symbol has no codeword.
-/

namespace Blend2D.Deflate.Spec

/-- `bl_count`: how many codewords have length `b`; zero for length zero. -/
def blCount (lens : List Nat) (b : Nat) : Nat := if b = 0 then 0 else lens.count b

/-- `next_code`: the numerically smallest codeword of each length,
`code = (code + bl_count[bits - 1]) << 1`. -/
def nextCode (lens : List Nat) : Nat → Nat
  | 0 => 0
  | b + 1 => 2 * (nextCode lens b + blCount lens b)

/-- The codeword of a symbol that has one: codewords of the same length are consecutive, in the order of their symbols. -/
def codeOf (lens : List Nat) (sym : Nat) : Nat :=
  nextCode lens (lens.getD sym 0) + (lens.take sym).count (lens.getD sym 0)

/-- The share of all 15-bit strings that begin with a codeword, out of `2 ^ 15`. -/
def kraft (lens : List Nat) : Nat := (lens.map fun l => if l = 0 then 0 else 2 ^ (15 - l)).sum

/-- Lengths of a complete code: every string begins with exactly one codeword. -/
def Complete (lens : List Nat) : Prop := kraft lens = 2 ^ 15

/-- The next bits of the input, the first one in the lowest bit of `bits`, begin with the codeword `code` of length `len`.
Codewords are packed starting with their most significant bit (RFC 1951, section 3.1.1). -/
def StartsWith (bits len code : Nat) : Prop := ∀ i < len, bits.testBit i = code.testBit (len - 1 - i)

end Blend2D.Deflate.Spec

namespace Blend2D.Deflate.Spec

/-- The only incomplete code that is allowed when symbols are used: one codeword, and its length is 1. -/
def Single (lens : List Nat) : Prop := lens.filter (· ≠ 0) = [1]

/-- No symbol has a codeword. -/
def Unused (lens : List Nat) : Prop := ∀ l ∈ lens, l = 0

/-- The bits of the input begin with the codeword of a symbol. -/
def Codes (lens : List Nat) (bits sym : Nat) : Prop :=
  sym < lens.length ∧ lens.getD sym 0 ≠ 0 ∧ StartsWith bits (lens.getD sym 0) (codeOf lens sym)

instance (lens : List Nat) : Decidable (Complete lens) := inferInstanceAs (Decidable (_ = _))
instance (lens : List Nat) : Decidable (Single lens) := inferInstanceAs (Decidable (_ = _))
instance (lens : List Nat) : Decidable (Unused lens) := inferInstanceAs (Decidable (∀ l ∈ lens, l = 0))
instance (bits len code : Nat) : Decidable (StartsWith bits len code) := inferInstanceAs (Decidable (∀ i < len, _ = _))
instance (lens : List Nat) (bits sym : Nat) : Decidable (Codes lens bits sym) := inferInstanceAs (Decidable (_ ∧ _ ∧ _))

/-- What a symbol means. -/
inductive Meaning where
  /-- A byte. -/
  | literal (byte : Nat)
  /-- The end of the block. -/
  | endOfBlock
  /-- A length or an offset: the base value and the number of extra bits. -/
  | value (base extra : Nat)
  /-- A symbol that never occurs in valid data. -/
  | invalid
deriving DecidableEq, Repr

/-- Symbols of the literal/length alphabet (RFC 1951, section 3.2.5). -/
def litLenMeaning (s : Nat) : Meaning :=
  if s < 256 then .literal s
  else if s = 256 then .endOfBlock
  else if s < 265 then .value (s - 254) 0
  else if s < 285 then .value (3 + (4 + (s - 265) % 4) * 2 ^ ((s - 261) / 4)) ((s - 261) / 4)
  else if s = 285 then .value 258 0
  else .invalid

/-- Symbols of the offset alphabet (RFC 1951, section 3.2.5). -/
def offsetMeaning (s : Nat) : Meaning :=
  if s < 4 then .value (s + 1) 0
  else if s < 30 then .value (1 + (2 + s % 2) * 2 ^ (s / 2 - 1)) (s / 2 - 1)
  else .invalid

/-- Symbols of the code length alphabet (RFC 1951, section 3.2.7): how many times a length is repeated at least and the number
of extra bits that are added to it.  The symbols 0 to 15 are lengths, 16 repeats the previous length, 17 and 18 repeat zero. -/
def precodeMeaning (s : Nat) : Nat × Nat :=
  if s < 16 then (1, 0) else if s = 16 then (3, 2) else if s = 17 then (3, 3) else (11, 7)

end Blend2D.Deflate.Spec
