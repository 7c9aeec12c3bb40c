/-! # What tag dictionaries and tag sets have to deliver -/
namespace Blend2D.FontTag.Spec

/-- The identifier of a tag: its position in the table, or `0xFFFFFFFF` when the table does not have it. -/
def IsId (tags : Array UInt32) (tag id : UInt32) : Prop :=
  (∃ i, tags[i]? = some tag ∧ id = UInt32.ofNat i ∧ i < 2 ^ 32 - 1) ∨ (tag ∉ tags ∧ id = 0xFFFFFFFF)

/-- Character `k` (0 is the first) of a tag. -/
def char (tag : UInt32) (k : Nat) : Nat := tag.toNat / 256 ^ (3 - k) % 256

/-- A tag made of printable ASCII characters. -/
def Printable (tag : UInt32) : Prop := ∀ k, k < 4 → 32 ≤ char tag k ∧ char tag k ≤ 126

/-- `out` lists every tag of `ts` once, in increasing order. -/
def Lists (out : Array UInt32) (ts : List UInt32) : Prop :=
  out.toList.Pairwise (· < ·) ∧ ∀ t, t ∈ out ↔ t ∈ ts

end Blend2D.FontTag.Spec
