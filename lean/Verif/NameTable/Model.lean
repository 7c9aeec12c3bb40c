import Verif.Kern.Model
import Verif.Unicode.Model
/-! Model of reading the names of a font: `blend2d/opentype/otname.cpp` with the structures of `otname_p.h`, and the
reader and writer of `unicode_p.h` modelled in `Verif/Unicode`.

Conventions: the table is a list of bytes; `none` is a read outside of the table or of a string, or a write outside
of a buffer.  The strings of a new font face are empty.  Failing allocations and tracing are not modelled. -/
namespace Blend2D.NameTable
open Blend2D.Kern (u16)
open Blend2D.Unicode (Writer Reader Flags next16 write8 latin1ToUtf8Unsafe)

/-- `BL_ERROR_FONT_MISSING_IMPORTANT_TABLE`, `BL_ERROR_INVALID_DATA`. -/
inductive Err where
  | missing | invalidData
  deriving DecidableEq, Repr

/-- `encoding_from_platform_id` (`otname.cpp:30-35`): whether the encoding is UTF-16. -/
def isUtf16 (platform : Nat) : Bool := platform = 0 || platform = 3

/-- `kUnaligned | kByteOrderBE | kStrict` (`otname.cpp:68`). -/
def flags : Flags := { swap := true, strict := true }

/-- `Utf8Writer::write_unsafe` (`unicode_p.h:663-672`): the writer that checks, when it has no space the unchecked one
writes behind its buffer. -/
def writeUnsafe (w : Writer) (uc : UInt32) : Option Writer :=
  match write8 w uc with
  | some (.success, w') => some w'
  | _ => none

/-- The UTF-16 loop of `convert_name_string_to_utf8` (`otname.cpp:65-72`): the inner `none` is a failure of the
reader. -/
def loop16 (src : List UInt8) (stop : Nat) : Nat → Writer → Reader → Nat → Option (Option (Writer × Nat))
  | 0, _, _, _ => none
  | fuel + 1, w, r, nulls =>
    if r.ptr ≠ stop then
      (next16 flags src stop r).bind fun st =>
      if st.1 ≠ .success then some none
      else (writeUnsafe w st.2.1).bind fun w' =>
        loop16 src stop fuel w' st.2.2.2 (nulls + (if st.2.1 = 0 then 1 else 0))
    else some (some (w, nulls))

/-- Removal of null terminators at the end (`otname.cpp:77-81`), with `size_t` of 64 bits. -/
def trim (mem : List UInt8) : Nat → Nat → Option (Nat × Nat)
  | 0, nulls => some (0, nulls)
  | p + 1, nulls => (mem[p]?).bind fun b =>
    if b = 0 then trim mem p ((nulls + (2 ^ 64 - 1)) % 2 ^ 64) else some (p + 1, nulls)

/-- The end of `convert_name_string_to_utf8` (`otname.cpp:77-87`): the string, or `none` for `BL_ERROR_INVALID_DATA`. -/
def finish (mem : List UInt8) (ptr nulls : Nat) : Option (Option (List UInt8)) :=
  (trim mem ptr nulls).bind fun q =>
  if q.2 ≠ 0 then some none else some (some (mem.take q.1))

/-- `convert_name_string_to_utf8` (`otname.cpp:37-88`): `buf` is the buffer of twice the size of `src` the string
gives, with whatever was in it. -/
def convertInto (buf : List UInt8) (utf16 : Bool) (src : List UInt8) : Option (Option (List UInt8)) :=
  if utf16 = false then
    (latin1ToUtf8Unsafe src buf 0).bind fun q => finish q.1 q.2 (src.countP (· = 0))
  else
    (loop16 src (src.length / 2 * 2) (src.length + 1) ⟨buf, 0, buf.length⟩ { ptr := 0 } 0).bind fun
    | none => some none
    | some (w, nulls) => finish w.mem w.ptr nulls

/-- The same with a buffer of zeros: what is in the buffer doesn't matter (`convert_spec`). -/
def convert (utf16 : Bool) (src : List UInt8) : Option (Option (List UInt8)) :=
  convertInto (List.replicate (src.length * 2) 0) utf16 src

/-- `NameTable::NameRecord` (`otname_p.h:26-33`). -/
structure Rec where
  platform : Nat
  specific : Nat
  language : Nat
  id : Nat
  length : Nat
  offset : Nat
  deriving DecidableEq, Repr

/-- `name_records[i]` (`otname_p.h:50-52`): all fields are read at once. -/
def record (d : List UInt8) (i : Nat) : Option Rec :=
  (u16 d (6 + i * 12)).bind fun a => (u16 d (6 + i * 12 + 2)).bind fun b => (u16 d (6 + i * 12 + 4)).bind fun c =>
  (u16 d (6 + i * 12 + 6)).bind fun e => (u16 d (6 + i * 12 + 8)).bind fun f => (u16 d (6 + i * 12 + 10)).bind fun g =>
  some ⟨a, b, c, e, f, g⟩

/-- The offset of the string of a record, unless it is outside of the string region (`otname.cpp:182-193` and
`otname.cpp:313-322`). -/
def region (r : Rec) (size : Nat) : Option Nat :=
  let off := if r.length = 0 then 0 else r.offset
  if off ≥ size ∨ size - off < r.length then none else some off

/-- The score of a record, zero if it is skipped (`otname.cpp:199-244`, `otplatform_p.h:24-32, 94, 216-217, 256,
417-418`). -/
def score (r : Rec) : Nat :=
  if r.platform = 0 then 3
  else if r.platform = 1 then
    if r.specific = 0 then (if r.language = 0 then 2 ||| (1 <<< 8) else 2) else 0
  else if r.platform = 3 then
    let s := if r.specific = 0 then 1 else if r.specific = 1 then 4 else 0
    if s = 0 then 0
    else if r.language &&& 0xFF = 0x09 then
      if r.language = 0x0409 then s ||| (4 <<< 8)
      else if r.language = 0x0809 then s ||| (3 <<< 8)
      else s ||| (2 <<< 8)
    else s
  else 0

/-- The bytes `[a, a + n)` of the table. -/
def slice (d : List UInt8) (a n : Nat) : Option (List UInt8) :=
  if a + n ≤ d.length then some ((d.drop a).take n) else none

/-- `kImportantNameIdMask` (`otname.cpp:153-161`). -/
def important : List Nat := [1, 2, 4, 6, 16, 17, 21, 22]

/-- `name_id_score`, `name_id_index` and `name_id_mask` (`otname.cpp:165-167`): a score and an index for each id whose
bit is set, and `BL_FONT_FACE_DIAG_WRONG_NAME_DATA`. -/
structure Sel where
  best : Nat → Option (Nat × Nat) := fun _ => none
  wrong : Bool := false

/-- `name_id_score[id]`: zero if nothing was selected. -/
def Sel.score (s : Sel) (id : Nat) : Nat := match s.best id with | some q => q.1 | none => 0

/-- The selection of a record (`otname.cpp:284-288`). -/
def Sel.take (s : Sel) (id sc i : Nat) : Sel :=
  if sc > s.score id then { s with best := fun k => if k = id then some (sc, i) else s.best k } else s

/-- One record (`otname.cpp:174-290`): `base` is the offset of the string region and `size` its size. -/
def step (d : List UInt8) (base size : Nat) (s : Sel) (i : Nat) : Option Sel :=
  (record d i).bind fun r =>
  if r.id > 26 ∨ r.id ∉ important then some s
  else match region r size with
  | none => some s
  | some off =>
    if score r = 0 then some s
    else (slice d (base + off) r.length).bind fun src =>
      (convert (isUtf16 r.platform) src).bind fun
      | none => some { s with wrong := true }
      | some t => some (s.take r.id (if r.platform = 1 ∧ r.id = 2 ∧ t = [] then 0xFFFF else score r) i)

/-- Typographic names are preferred (`otname.cpp:292-300`). -/
def prefer (best : Nat → Option (Nat × Nat)) (id : Nat) : Option (Nat × Nat) :=
  if (id = 1 ∨ id = 21) ∧ (best 16).isSome then none
  else if (id = 2 ∨ id = 22) ∧ (best 17).isSome then none
  else best id

/-- The strings of a face, and the flags `BL_FONT_FACE_FLAG_TYPOGRAPHIC_NAMES`, `BL_FONT_FACE_DIAG_FIXED_NAME_DATA` and
`BL_FONT_FACE_DIAG_WRONG_NAME_DATA`. -/
structure Names where
  full : List UInt8 := []
  family : List UInt8 := []
  subfamily : List UInt8 := []
  postScript : List UInt8 := []
  typographic : Bool := false
  fixed : Bool := false
  wrong : Bool := false
  deriving DecidableEq, Repr

/-- The string an id is stored to (`otname.cpp:324-345`). -/
def Names.set (n : Names) (id : Nat) (t : List UInt8) : Names :=
  if id = 4 then { n with full := t }
  else if id = 1 ∨ id = 21 ∨ id = 16 then { n with family := t }
  else if id = 2 ∨ id = 22 ∨ id = 17 then { n with subfamily := t }
  else if id = 6 then { n with postScript := t }
  else n

/-- The text of a selected record (`otname.cpp:310-322, 348-350`). -/
def textOf (d : List UInt8) (base size i : Nat) : Option (Option (List UInt8)) :=
  (record d i).bind fun r =>
  match region r size with
  | none => some none
  | some off => (slice d (base + off) r.length).bind fun src => convert (isUtf16 r.platform) src

/-- The names that were selected are stored in the order of their ids (`otname.cpp:307-352`). -/
def assign (d : List UInt8) (base size : Nat) (best : Nat → Option (Nat × Nat)) :
    List Nat → Names → Option (Except Err Names)
  | [], n => some (.ok n)
  | id :: rest, n =>
    match best id with
    | none => assign d base size best rest n
    | some (_, i) => (textOf d base size i).bind fun
      | none => some (.error .invalidData)
      | some t => assign d base size best rest (n.set id t)

/-- `normalize_family_and_subfamily` (`otname.cpp:90-106`). -/
def normalize (n : Names) : Names :=
  if n.family.length ≥ n.subfamily.length ∧ n.subfamily ≠ [] then
    if n.family.drop (n.family.length - n.subfamily.length) = n.subfamily then
      { n with subfamily := [], fixed := true }
    else n
  else n

/-- What follows the checks of the header (`otname.cpp:171-359`). -/
def read (d : List UInt8) (count base : Nat) : Option (Except Err Names) :=
  ((List.range count).foldlM (step d base (d.length - base)) {}).bind fun s =>
  (assign d base (d.length - base) (prefer s.best) important
    { typographic := (prefer s.best 16).isSome && (prefer s.best 17).isSome, wrong := s.wrong }).bind fun
  | .error e => some (.error e)
  | .ok n => some (.ok (normalize n))

/-- `NameImpl::init` (`otname.cpp:111-360`). -/
def init (d : List UInt8) : Option (Except Err Names) :=
  if d = [] then some (.error .missing)
  else if d.length < 6 then some (.error .invalidData)
  else (u16 d 0).bind fun format => (u16 d 2).bind fun count => (u16 d 4).bind fun base =>
    if base ≥ d.length then some (.error .invalidData)
    else if format > 1 then some (.error .invalidData)
    else if count = 0 ∨ 6 + count * 12 > d.length then some (.error .invalidData)
    else read d count base

end Blend2D.NameTable
