import Verif.Kern.Model
import Verif.FontTag.Model
/-! Model of font data in memory: `blend2d/core/fontdata.cpp` (creation from bytes, the list of tables of a face, and
looking up tables), with the headers of `blend2d/opentype/otcore_p.h`.

Conventions: the font is a list of bytes, tables that are found are pairs of an offset and a size; `none` is a read
outside of the bytes or of an array, or a write outside of an array.  `size_t` has 64 bits.  Failing allocations and
the reference counting of the data are not modelled. -/
namespace Blend2D.FontData
open Blend2D.Kern (u16 u32)
open Blend2D.FontTag (tableToId kInvalidId)

/-- `BL_ERROR_INVALID_DATA`, `BL_ERROR_DATA_TOO_LARGE`, `BL_ERROR_INVALID_SIGNATURE`, `BL_ERROR_INVALID_VALUE`. -/
inductive Err where
  | invalidData | tooLarge | invalidSignature | invalidValue
  deriving DecidableEq, Repr

/-- `MemFontDataImpl` (`fontdata.cpp:50-60`, `fontdata_p.h:19-21`): `arrayIndex` is `offset_array_index`. -/
structure Data where
  bytes : List UInt8
  faces : Nat
  arrayIndex : Nat
  deriving DecidableEq, Repr

/-- `is_open_type_version_tag` (`core/fonttagdata_p.h:47-51`). -/
def isVersion (tag : Nat) : Bool := tag = 0x4F54544F || tag = 0x00010000 || tag = 0x74727565

/-- `bl_font_data_create_from_data_internal` (`fontdata.cpp:308-381`), `TTCFHeader::calc_size` (`otcore_p.h:54-66`). -/
def create (d : List UInt8) : Option (Except Err Data) :=
  if d.length < 12 then some (.error .invalidData)
  else if d.length > 0xFFFFFFFF then some (.error .tooLarge)
  else do
    let tag ← u32 d 0
    if tag = 0x74746366 then do
      let count ← u32 d 8
      if count = 0 ∨ count > 256 then some (.error .invalidData)
      else do
        let version ← u32 d 4
        let size := 12 + (if version ≥ 0x20000 then 12 else 0) + count * 4
        if size > d.length then some (.error .invalidData)
        else some (.ok ⟨d, count, 12⟩)
    else if isVersion tag = false then some (.error .invalidSignature)
    else some (.ok ⟨d, 1, 0⟩)

/-- `SFNTHeader::TableRecord` (`otcore_p.h:32-37`) without the check sum. -/
structure Rec where
  tag : UInt32
  offset : Nat
  length : Nat
  deriving DecidableEq, Repr

/-- The offset of the header of a face (`fontdata.cpp:89-91` and `fontdata.cpp:126-128`). -/
def headerOffset (D : Data) (i : Nat) : Option Nat :=
  if D.arrayIndex ≠ 0 then u32 D.bytes (D.arrayIndex + i * 4) else some 0

/-- The directory of a face: the offset of its header and the number of its tables, or `none` if there is none that
can be used (`fontdata.cpp:93-100` and `fontdata.cpp:130-137`). -/
def directory (D : Data) (i : Nat) : Option (Option (Nat × Nat)) :=
  (headerOffset D i).bind fun off =>
  if off ≤ (D.bytes.length + 2 ^ 64 - 12) % 2 ^ 64 then
    (u32 D.bytes off).bind fun tag =>
    if isVersion tag then
      (u16 D.bytes (off + 4)).bind fun count =>
      if (D.bytes.length + 2 ^ 64 - off) % 2 ^ 64 ≥ 12 + count * 16 then some (some (off, count))
      else some none
    else some none
  else some none

/-- A table record; simplified: the members are always read together. -/
def recAt (d : List UInt8) (off k : Nat) : Option Rec := do
  let tag ← u32 d (off + 12 + k * 16)
  let o ← u32 d (off + 12 + k * 16 + 8)
  let l ← u32 d (off + 12 + k * 16 + 12)
  some ⟨UInt32.ofNat tag, o, l⟩

/-- The loop over the tags (`fontdata.cpp:105-106`). -/
def readTags (d : List UInt8) (off : Nat) : Nat → Nat → Option (List UInt32)
  | 0, _ => some []
  | n + 1, k => do
    let r ← recAt d off k
    let l ← readTags d off n (k + 1)
    some (r.tag :: l)

/-- `mem_get_table_tags_impl` (`fontdata.cpp:77-114`); the array is empty on failure. -/
def listTags (D : Data) (i : Nat) : Option (Except Err (List UInt32)) :=
  if i ≥ D.faces then some (.error .invalidValue)
  else do
    match ← directory D i with
    | none => some (.error .invalidData)
    | some (off, n) => (readTags D.bytes off n 0).map .ok

/-- A table that lies in the data (`fontdata.cpp:181, 202`). -/
def inside (d : List UInt8) (r : Rec) : Bool := r.offset < d.length && r.length != 0 && r.length ≤ d.length - r.offset

/-- `BLFontTable`s, `none` if the table was not found, and `match_count`. -/
abbrev Found := List (Option (Nat × Nat)) × Nat

/-- The index from identifiers of tables to positions (`fontdata.cpp:152-162`); `some none` if a tag is not known. -/
def build : List UInt32 → Nat → List Nat → Option (Option (List Nat))
  | [], _, idx => some (some idx)
  | t :: ts, i, idx => (tableToId t).bind fun id =>
    if id = kInvalidId then some none
    else if id.toNat < idx.length then build ts (i + 1) (idx.set id.toNat (i % 256))
    else none

/-- One round of the loop over the records (`fontdata.cpp:167-186`). -/
def scanRec (d : List UInt8) (idx : List Nat) (r : Rec) (f : Found) : Option Found :=
  (tableToId r.tag).bind fun id =>
  if id = kInvalidId then some f
  else (idx[id.toNat]?).bind fun i =>
    if i ≠ 255 then
      if inside d r then
        if i < f.1.length then some (f.1.set i (some (r.offset, r.length)), f.2 + 1) else none
      else some f
    else some f

/-- The loop over the records (`fontdata.cpp:166-186`). -/
def scan (d : List UInt8) (off : Nat) (idx : List Nat) : Nat → Nat → Found → Option Found
  | 0, _, f => some f
  | n + 1, k, f => (recAt d off k).bind fun r => (scanRec d idx r f).bind (scan d off idx n (k + 1))

/-- The search for a single tag (`fontdata.cpp:194-209`). -/
def search (d : List UInt8) (off : Nat) (t : UInt32) : Nat → Nat → Option (Option (Nat × Nat))
  | 0, _ => some none
  | n + 1, k => do
    let r ← recAt d off k
    if r.tag = t then some (if inside d r then some (r.offset, r.length) else none)
    else search d off t n (k + 1)

/-- The linear search (`fontdata.cpp:192-210`). -/
def linear (d : List UInt8) (off n : Nat) : List UInt32 → Option Found
  | [] => some ([], 0)
  | t :: ts => do
    let e ← search d off t n 0
    let (l, m) ← linear d off n ts
    some (e :: l, m + (if e.isSome then 1 else 0))

/-- `mem_get_tables_impl` (`fontdata.cpp:116-219`).  `kTableIdCountAligned` is 80 (72 tags,
`core/fonttagdataids_p.h:105`). -/
def getTables (D : Data) (i : Nat) (tags : List UInt32) : Option Found :=
  if i < D.faces then do
    match ← directory D i with
    | none => some (List.replicate tags.length none, 0)
    | some (off, n) =>
      if 3 ≤ tags.length ∧ tags.length < 255 then do
        match ← build tags 0 (List.replicate 80 255) with
        | some idx => scan D.bytes off idx n 0 (List.replicate tags.length none, 0)
        | none => some (List.replicate tags.length none, 0)
      else linear D.bytes off n tags
  else some (List.replicate tags.length none, 0)

end Blend2D.FontData
