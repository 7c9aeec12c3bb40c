import Verif.FontData.Model
import Verif.FaceMetrics.Spec
/-! What the bytes of a font file say about its faces and tables. -/
namespace Blend2D.FontData.Spec
open Blend2D.FaceMetrics.Spec (word long)

/-- The signatures of fonts: `OTTO`, 1.0, `true`. -/
def signatures : List Nat := [0x4F54544F, 0x00010000, 0x74727565]

/-- The file is a collection: it begins with `ttcf`. -/
def collection (d : List UInt8) : Bool := long d 0 = 0x74746366

/-- The number of fonts in the file. -/
def faces (d : List UInt8) : Nat := if collection d then long d 8 else 1

/-- Files that are accepted: a font, or a collection of 1 to 256 fonts whose header is complete (from version 2 on
it has three more fields). -/
def Accepted (d : List UInt8) : Prop :=
  12 ≤ d.length ∧ d.length < 2 ^ 32 ∧
  if collection d then
    1 ≤ faces d ∧ faces d ≤ 256 ∧ 12 + (if 0x20000 ≤ long d 4 then 12 else 0) + 4 * faces d ≤ d.length
  else long d 0 ∈ signatures

/-- Where the header of a face is. -/
def header (d : List UInt8) (i : Nat) : Nat := if collection d then long d (12 + 4 * i) else 0

/-- The record of a table. -/
def record (d : List UInt8) (h k : Nat) : Rec :=
  ⟨UInt32.ofNat (long d (h + 12 + 16 * k)), long d (h + 12 + 16 * k + 8), long d (h + 12 + 16 * k + 12)⟩

/-- The records of the tables of a face, if the header is in the file, has a signature, and the records are in the
file. -/
def records (d : List UInt8) (i : Nat) : Option (List Rec) :=
  let h := header d i
  if i < faces d ∧ h + 12 ≤ d.length ∧ long d h ∈ signatures ∧ h + 12 + 16 * word d (h + 4) ≤ d.length then
    some ((List.range (word d (h + 4))).map (record d h))
  else none

/-- The table of a tag: what the first record with this tag describes, if that is in the file and not empty. -/
def table (d : List UInt8) (recs : List Rec) (t : UInt32) : Option (Nat × Nat) :=
  match recs.find? (·.tag = t) with
  | some r => if r.length ≠ 0 ∧ r.offset + r.length ≤ d.length then some (r.offset, r.length) else none
  | none => none

end Blend2D.FontData.Spec
