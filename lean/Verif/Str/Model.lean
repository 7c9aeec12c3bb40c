import Verif.Arr.Model
/-!
# `BLString` (`blend2d/core/string.cpp`, `string_p.h`, `string.h`)

A string is stored in place (14 characters; the 15th byte holds the size, xor 14, so that it is the NUL of a string
of 14 characters) or in a reference counted impl.  A cell is `none` while it is uninitialised.  Reading or writing
outside of a buffer, using a freed impl, a `memcpy` between overlapping ranges and using an uninitialised instance
are undefined behaviour, modelled by `none`.

The buffers and the arguments (`Arr.Src`: unrelated characters, or a part of the string's own content) are those of
the array model.  Allocation is an oracle: `ok = false` makes `malloc` fail.

Simplifications: little endian 64-bit target; a new impl is filled before it enters the heap; strings with static
storage (`BL_DEFINE_STATIC_STRING`, `string_p.h:124-147`) are not modelled.
-/
namespace Blend2D.Str
open Cow
open Blend2D.Arr (Result Src ModifyOp rd wr move copy masked uaddSat expand implMaxSize)

/-- Size and buffer, which has room for `capacity` characters and a NUL (`BLStringImpl`, `string.h:24-45`;
`UnpackedData`, `string_p.h:87-91`). -/
structure Data where
  size : Nat
  cells : List (Option UInt8)
  deriving DecidableEq, Repr

/-- In place: the 15 bytes `char_data[0..13]` and the byte that holds the A field of the object info. -/
abbrev Sso := List (Option UInt8)

abbrev Wld := World Sso Data

/-- `capacity()` (`string.h:240`). -/
def Data.cap (d : Data) : Nat := d.cells.length - 1

/-- `BLString::kSSOCapacity` (`string.h:100-103`). -/
def ssoCap : Nat := 14

/-- The A field for a size (`string.cpp:42-44`): `size ^ kSSOCapacity`.  It is the low six bits of byte 14 of the
instance, and the other two bits are zero (`BL_OBJECT_INFO_A_SHIFT = 16`, `object.h:188-189`, `string.cpp:23-25`). -/
def ssoCode (n : Nat) : UInt8 := UInt8.ofNat n ^^^ 14

/-- `get_sso_size` (`string_p.h:93-95`). -/
def ssoSize (s : Sso) : Option Nat := do
  let b ← s[14]?
  let b ← b
  return (b ^^^ 14).toNat

/-- `set_sso_size` (`string.cpp:42-44`). -/
def setSsoSize (s : Sso) (n : Nat) : Sso := s.set 14 (some (ssoCode n))

/-- `init_sso` (`string.cpp:61-65`, `init_static`, `object.h:680-684`). -/
def initSso (size : Nat) : Sso := List.replicate 14 (some 0) ++ [some (ssoCode size)]

/-- `impl_size_from_capacity` (`string_p.h:25-27`, `sizeof(BLStringImpl) = 16`) in `size_t`. -/
def implSize (capacity : Nat) : Nat := (17 + capacity) % 2 ^ 64

/-- `get_maximum_size` (`string.cpp:30-32`). -/
def maxSize : Nat := implMaxSize - 17

/-- `expand_impl_size_with_modify_op` (`string.cpp:38-40`, `object_p.h:499-504`). -/
def expandOp (n : Nat) (op : ModifyOp) : Nat := if op.grow then expand n else n

/-- `init_dynamic` (`string.cpp:67-76`) of an impl of `s` bytes: undefined if the NUL is written outside of the impl,
`some none` if out of memory. -/
def initDynamic (ok : Bool) (s size : Nat) : Option (Option Data) :=
  if s > implMaxSize then some none
  else if ok then do
    let cells ← wr (List.replicate (s - 16) none) size [some 0]
    return some ⟨size, cells⟩
  else some none

/-- A new instance. -/
inductive New where
  | sso (s : Sso)
  | dyn (d : Data)
  deriving DecidableEq, Repr

/-- Its buffer. -/
def New.cells : New → List (Option UInt8)
  | .sso s => s
  | .dyn d => d.cells

/-- It, with the buffer's content changed. -/
def New.withCells (x : New) (cells : List (Option UInt8)) : New :=
  match x with
  | .sso _ => .sso cells
  | .dyn d => .dyn { d with cells := cells }

/-- `init_string` (`string.cpp:78-91`).  A dynamic string's room is `size`, not `capacity`. -/
def initString (ok : Bool) (size capacity : Nat) : Option (Option New) :=
  if capacity ≤ ssoCap then some (some (.sso (initSso size)))
  else do
    let d ← initDynamic ok (implSize size) size
    return d.map .dyn

/-- `unpack_data` (`string_p.h:97-105`). -/
def unpack (w : Wld) : Core Sso → Option Data
  | .sso s => (ssoSize s).map (fun n => ⟨n, s⟩)
  | .dyn a => (w.block? a).map (fun b => b.val)

def isSso : Core Sso → Bool
  | .sso _ => true
  | .dyn _ => false

/-- `set_size` (`string.cpp:46-52`). -/
def setSize (v : Core Sso) (d : Data) (n : Nat) : Data :=
  match v with
  | .sso _ => ⟨n, setSsoSize d.cells n⟩
  | .dyn _ => { d with size := n }

/-- The stores to variable `i`'s own buffer (and size, in case of an impl) become visible. -/
def commit (w : Wld) (i : Nat) (d : Data) : Option Wld := do
  let v ← w.vars[i]?
  match v with
  | .sso _ => return w.setVar i (.sso d.cells)
  | .dyn a => do
    let _ ← w.block? a
    return w.setVal a d

/-- `replace_instance(self, &newO)` (`string_p.h:73-80`). -/
def install (w : Wld) (i : Nat) (x : New) : Option Wld :=
  match x with
  | .sso s => w.replace i (.sso s)
  | .dyn d =>
    let (c, w) := w.alloc 1 d
    w.replace i c

/-- `bl_string_reset` (`string.cpp:287-295`). -/
def reset (w : Wld) (i : Nat) : Option (Result × Wld) := do
  let w ← w.replace i (.sso (initSso 0))
  return (.success, w)

/-- `bl_string_init_with_data` (`string.cpp:265-275`) on an instance that was destroyed (`bl_string_destroy`,
`string.cpp:277-282`). -/
def create (ok : Bool) (w : Wld) (i : Nat) (str : List UInt8) : Option (Result × Wld) := do
  let x ← initString ok str.length str.length
  match x with
  | none => do
    let w ← w.replace i (.sso (initSso 0))
    return (.outOfMemory, w)
  | some x => do
    let cells ← wr x.cells 0 (str.map some)
    let w ← install w i (x.withCells cells)
    return (.success, w)

/-- `bl_string_clear` (`string.cpp:324-355`; `clear_sso_data`, `string.cpp:54-56`). -/
def clear (w : Wld) (i : Nat) : Option (Result × Wld) := do
  let v ← w.vars[i]?
  match v with
  | .sso s => do
    let size ← ssoSize s
    if size ≠ 0 then do
      let s ← wr s 0 (List.replicate 14 (some 0))
      return (.success, w.setVar i (.sso (setSsoSize s 0)))
    else return (.success, w)
  | .dyn a => do
    let b ← w.block? a
    if b.rc ≠ 1 then do
      let w ← w.replace i (.sso (initSso 0))
      return (.success, w)
    else if b.val.size ≠ 0 then do
      let cells ← wr b.val.cells 0 [some 0]
      return (.success, w.setVal a ⟨0, cells⟩)
    else return (.success, w)

/-- `bl_string_shrink` (`string.cpp:357-381`). -/
def shrink (ok : Bool) (w : Wld) (i : Nat) : Option (Result × Wld) := do
  let v ← w.vars[i]?
  match v with
  | .sso _ => return (.success, w)
  | .dyn a => do
    let b ← w.block? a
    let u := b.val
    if u.size ≤ ssoCap ∨ u.size + 64 ≤ u.cap then do
      let x ← initString ok u.size u.size
      match x with
      | none => return (.outOfMemory, w)
      | some x => do
        let old ← rd u.cells 0 u.size
        let cells ← wr x.cells 0 old
        let w ← install w i (x.withCells cells)
        return (.success, w)
    else return (.success, w)

/-- `bl_string_reserve` (`string.cpp:383-399`). -/
def reserve (ok : Bool) (w : Wld) (i n : Nat) : Option (Result × Wld) := do
  let v ← w.vars[i]?
  let u ← unpack w v
  let isMut ← w.isMutable v
  if masked n isMut ≤ u.cap then return (.success, w)
  else do
    let d ← initDynamic ok (implSize (max u.size n)) u.size
    match d with
    | none => return (.outOfMemory, w)
    | some d => do
      let old ← rd u.cells 0 u.size
      let cells ← wr d.cells 0 old
      let w ← install w i (.dyn { d with cells := cells })
      return (.success, w)

/-- `bl_string_make_mutable` (`string.cpp:444-466`). -/
def makeMutable (ok : Bool) (w : Wld) (i : Nat) : Option (Result × Wld) := do
  let v ← w.vars[i]?
  match v with
  | .sso _ => return (.success, w)
  | .dyn a => do
    let b ← w.block? a
    if b.rc = 1 then return (.success, w)
    else do
      let u := b.val
      let x ← initString ok u.size u.size
      match x with
      | none => return (.outOfMemory, w)
      | some x => do
        let old ← rd u.cells 0 u.size
        let cells ← wr x.cells 0 old
        let w ← install w i (x.withCells cells)
        return (.success, w)

/-- Storing characters through the pointer that was returned. -/
def fillAt (w : Wld) (i : Nat) (off : Nat) (xs : List UInt8) : Option Wld := do
  let v ← w.vars[i]?
  let u ← unpack w v
  let cells ← wr u.cells off (xs.map some)
  commit w i { u with cells := cells }

/-- `bl_string_modify_op` (`string.cpp:468-518`).  Returns the index of the first character the caller may write. -/
def modifyOp (ok : Bool) (w : Wld) (i : Nat) (op : ModifyOp) (n : Nat) : Option (Result × Nat × Wld) := do
  let v ← w.vars[i]?
  let u ← unpack w v
  let isMut ← w.isMutable v
  let index := if op.assign then 0 else u.size
  let sizeAfter := uaddSat index n
  if masked sizeAfter isMut > u.cap then
    if sizeAfter ≤ ssoCap ∧ op.grow = false then do
      let old ← rd u.cells 0 index
      let s ← wr (initSso sizeAfter) 0 old
      let s ← wr s sizeAfter [some 0]
      let w ← install w i (.sso s)
      return (.success, index, w)
    else if sizeAfter > maxSize then return (.outOfMemory, 0, w)
    else do
      let d ← initDynamic ok (expandOp (implSize sizeAfter) op) sizeAfter
      match d with
      | none => return (.outOfMemory, 0, w)
      | some d => do
        let old ← rd u.cells 0 index
        let cells ← wr d.cells 0 old
        let cells ← wr cells sizeAfter [some 0]
        let w ← install w i (.dyn { d with cells := cells })
        return (.success, index, w)
  else do
    let cells ← wr u.cells sizeAfter [some 0]
    let d := setSize v { u with cells := cells } sizeAfter
    match v with
    | .sso _ =>
      if op.assign then do
        let cells ← wr d.cells 0 (List.replicate 14 (some 0))
        let w ← commit w i { d with cells := cells }
        return (.success, index, w)
      else do
        let w ← commit w i d
        return (.success, index, w)
    | .dyn _ => do
      let w ← commit w i d
      return (.success, index, w)

/-- `bl_string_resize` (`string.cpp:401-437`). -/
def resize (ok : Bool) (w : Wld) (i n : Nat) (fill : UInt8) : Option (Result × Wld) := do
  let v ← w.vars[i]?
  let u ← unpack w v
  if n ≤ u.size then
    if n = u.size then return (.success, w)
    else do
      let isMut ← w.isMutable v
      if !isMut then do
        let x ← initString ok n n
        match x with
        | none => return (.outOfMemory, w)
        | some x => do
          let old ← rd u.cells 0 n
          let cells ← wr x.cells 0 old
          let w ← install w i (x.withCells cells)
          return (.success, w)
      else
        match v with
        | .sso _ => do
          let cells ← wr u.cells n (List.replicate (u.size - n) (some 0))
          let w ← commit w i (setSize v { u with cells := cells } n)
          return (.success, w)
        | .dyn _ => do
          let cells ← wr u.cells n [some 0]
          let w ← commit w i ⟨n, cells⟩
          return (.success, w)
  else do
    let n := n - u.size
    let (r, start, w) ← modifyOp ok w i { assign := false, grow := false } n
    if r ≠ .success then return (r, w)
    else do
      let w ← fillAt w i start (List.replicate n fill)
      return (.success, w)

/-- `bl_string_insert_op` (`string.cpp:520-553`).  The caller guarantees `index ≤ size`; otherwise `u.size - index`
wraps, which is undefined. -/
def insertOp (ok : Bool) (w : Wld) (i index n : Nat) : Option (Result × Wld) := do
  let v ← w.vars[i]?
  let u ← unpack w v
  let isMut ← w.isMutable v
  if index > u.size then none
  else
    let sizeAfter := uaddSat u.size n
    if masked sizeAfter isMut > u.cap then
      if sizeAfter > maxSize then return (.outOfMemory, w)
      else do
        let d ← initDynamic ok (expand (implSize sizeAfter)) sizeAfter
        match d with
        | none => return (.outOfMemory, w)
        | some d => do
          let a ← rd u.cells 0 index
          let b ← rd u.cells index (u.size - index)
          let cells ← wr d.cells 0 a
          let cells ← wr cells (index + n) b
          let w ← install w i (.dyn { d with cells := cells })
          return (.success, w)
    else do
      let d := setSize v u sizeAfter
      let cells ← move d.cells (index + n) index (u.size - index)
      let cells ← wr cells sizeAfter [some 0]
      let w ← commit w i { d with cells := cells }
      return (.success, w)

/-- `modify_and_copy` (`string.cpp:107-151`).  If the result would fit in place and the operation doesn't grow, a new
string's size is stored to `self`, but then the uninitialised `newO` is moved to `self`. -/
def modifyAndCopy (ok : Bool) (w : Wld) (i : Nat) (op : ModifyOp) (str : Src UInt8) : Option (Result × Wld) := do
  let v ← w.vars[i]?
  let u ← unpack w v
  let isMut ← w.isMutable v
  let index := if op.assign then 0 else u.size
  let sizeAfter := uaddSat index str.len
  if masked sizeAfter isMut > u.cap then
    if sizeAfter > maxSize then return (.outOfMemory, w)
    else if sizeAfter ≤ ssoCap ∧ op.grow = false then none
    else do
      let d ← initDynamic ok (expandOp (implSize sizeAfter) op) sizeAfter
      match d with
      | none => return (.outOfMemory, w)
      | some d => do
        let old ← rd u.cells 0 index
        let xs ← str.read u.cells
        let cells ← wr d.cells 0 old
        let cells ← wr cells index xs
        let w ← install w i (.dyn { d with cells := cells })
        return (.success, w)
  else do
    let xs ← str.read u.cells
    let cells ← wr u.cells index xs
    let cells ← wr cells sizeAfter [some 0]
    let d := setSize v { u with cells := cells } sizeAfter
    match v with
    | .sso _ =>
      if op.assign then do
        let cells ← wr d.cells sizeAfter (List.replicate (ssoCap - sizeAfter) (some 0))
        let w ← commit w i { d with cells := cells }
        return (.success, w)
      else do
        let w ← commit w i d
        return (.success, w)
    | .dyn _ => do
      let w ← commit w i d
      return (.success, w)

/-- The in-place part of `insert_and_copy` (`string.cpp:173-228`): the move with the NUL, the leading characters, and
the shifted trailing ones.  Unrelated characters below the string's own are all leading, those above it start at or
after `dst_end` and are not shifted. -/
def insertInPlace (cells : List (Option UInt8)) (size index : Nat) (str : Src UInt8) : Option (List (Option UInt8)) := do
  let cells ← move cells (index + str.len) index (size - index + 1)
  match str with
  | .ext l _ => wr cells index (l.map some)
  | .own off n => do
    let lead := if off < index then min (index - off) n else 0
    let cells ← copy cells index off lead
    let src := off + lead
    let src := if src < size + n then src + n else src
    copy cells (index + lead) src (n - lead)

/-- `insert_and_copy` (`string.cpp:153-229`); as for `insertOp`, `index ≤ size`. -/
def insertAndCopy (ok : Bool) (w : Wld) (i index : Nat) (str : Src UInt8) : Option (Result × Wld) := do
  let v ← w.vars[i]?
  let u ← unpack w v
  let isMut ← w.isMutable v
  if index > u.size then none
  else
    let n := str.len
    let sizeAfter := uaddSat u.size n
    if masked sizeAfter isMut > u.cap then
      if sizeAfter > maxSize then return (.outOfMemory, w)
      else do
        let d ← initDynamic ok (expand (implSize sizeAfter)) sizeAfter
        match d with
        | none => return (.outOfMemory, w)
        | some d => do
          let a ← rd u.cells 0 index
          let b ← rd u.cells index (u.size - index)
          let cells ← wr d.cells 0 a
          let cells ← wr cells (index + n) b
          let xs ← str.read u.cells
          let cells ← wr cells index xs
          let w ← install w i (.dyn { d with cells := cells })
          return (.success, w)
    else do
      let d := setSize v u sizeAfter
      let cells ← insertInPlace d.cells u.size index str
      let w ← commit w i { d with cells := cells }
      return (.success, w)

/-- `get_data(other)`, `get_size(other)` (`string_p.h:107-113`) as an argument for string `i`.  The content of another
string that shares the impl is copied before the impl is released. -/
def source (w : Wld) (i j : Nat) : Option (Src UInt8) := do
  let v ← w.vars[j]?
  let u ← unpack w v
  if i = j then return .own 0 u.size
  else
    let xs ← rd u.cells 0 u.size
    let xs ← xs.mapM id
    return .ext xs true

/-- `bl_string_insert_string` (`string.cpp:739-752`): if a string is inserted to itself, its instance is copied first,
which copies the characters of a string in place, but only the pointer of a dynamic one. -/
def insertString (ok : Bool) (w : Wld) (i index j : Nat) : Option (Result × Wld) := do
  let src ← source w i j
  let v ← w.vars[i]?
  let u ← unpack w v
  if i = j ∧ isSso v then do
    let xs ← rd u.cells 0 u.size
    let xs ← xs.mapM id
    insertAndCopy ok w i index (.ext xs true)
  else insertAndCopy ok w i index src

/-- `bl_string_assign_deep` (`string.cpp:579-586`). -/
def assignDeep (ok : Bool) (w : Wld) (i j : Nat) : Option (Result × Wld) := do
  let src ← source w i j
  modifyAndCopy ok w i { assign := true, grow := false } src

/-- `bl_string_apply_op_string` (`string.cpp:622-627`). -/
def applyString (ok : Bool) (w : Wld) (i : Nat) (op : ModifyOp) (j : Nat) : Option (Result × Wld) := do
  let src ← source w i j
  modifyAndCopy ok w i op src

/-- `bl_string_apply_op_char` (`string.cpp:601-610`). -/
def applyChar (ok : Bool) (w : Wld) (i : Nat) (op : ModifyOp) (c : UInt8) (n : Nat) : Option (Result × Wld) := do
  let (r, start, w) ← modifyOp ok w i op n
  if r ≠ .success then return (r, w)
  else do
    let w ← fillAt w i start (List.replicate n c)
    return (.success, w)

/-- `bl_string_insert_char` (`string.cpp:718-727`). -/
def insertChar (ok : Bool) (w : Wld) (i index : Nat) (c : UInt8) (n : Nat) : Option (Result × Wld) := do
  let (r, w) ← insertOp ok w i index n
  if r ≠ .success then return (r, w)
  else do
    let w ← fillAt w i index (List.replicate n c)
    return (.success, w)

/-- `vsnprintf(dst, room, ...)` that formats `out`: at most `room - 1` characters and a NUL. -/
def snprintf (out : List UInt8) (room : Nat) : List (Option UInt8) :=
  (out.take (room - 1)).map some ++ [some 0]

/-- `bl_string_apply_op_format_v` (`string.cpp:629-699`).  `out` is what the arguments format to, `none` if `vsnprintf`
fails; formatting the same arguments again has the same result. -/
def applyFormat (ok : Bool) (w : Wld) (i : Nat) (op : ModifyOp) (out : Option (List UInt8)) : Option (Result × Wld) := do
  let v ← w.vars[i]?
  let u ← unpack w v
  let isMut ← w.isMutable v
  let index := if op.assign then 0 else u.size
  let remaining := u.cap - index
  match out with
  | none => return (.invalidValue, w)
  | some out => do
    if isMut = true ∧ remaining ≥ 64 then do
      let cells ← wr u.cells index (snprintf out (remaining + 1))
      if out.length ≤ remaining then do
        let w ← commit w i (setSize v { u with cells := cells } (index + out.length))
        return (.success, w)
      else do
        let w ← commit w i { u with cells := cells }
        alloc w { u with cells := cells } index out
    else if out.length < 1024 then modifyAndCopy ok w i op (.ext out false)
    else alloc w u index out
where
  /-- `string.cpp:674-698` -/
  alloc (w : Wld) (u : Data) (index : Nat) (out : List UInt8) : Option (Result × Wld) := do
    let sizeAfter := uaddSat index out.length
    if sizeAfter > maxSize then return (.outOfMemory, w)
    else do
      let d ← initDynamic ok (expandOp (implSize sizeAfter) op) sizeAfter
      match d with
      | none => return (.outOfMemory, w)
      | some d => do
        let cells ← wr d.cells index (snprintf out (out.length + 1))
        let old ← rd u.cells 0 index
        let cells ← wr cells 0 old
        let w ← install w i (.dyn { d with cells := cells })
        return (.success, w)

/-- `bl_string_remove_range` (`string.cpp:764-806`). -/
def removeRange (ok : Bool) (w : Wld) (i rStart rEnd : Nat) : Option (Result × Wld) := do
  let v ← w.vars[i]?
  let u ← unpack w v
  let stop := min rEnd u.size
  let index := min rStart stop
  let n := stop - index
  let sizeAfter := u.size - n
  if n = 0 then return (.success, w)
  else
    match v with
    | .sso _ => do
      let cells ← move u.cells index (index + n) (u.size - stop)
      let cells ← wr cells sizeAfter (List.replicate (ssoCap - sizeAfter) (some 0))
      let w ← commit w i (setSize v { u with cells := cells } sizeAfter)
      return (.success, w)
    | .dyn _ => do
      let isMut ← w.isMutable v
      if isMut then do
        let cells ← move u.cells index (index + n) (u.size - stop + 1)
        let w ← commit w i ⟨sizeAfter, cells⟩
        return (.success, w)
      else do
        let x ← initString ok sizeAfter sizeAfter
        match x with
        | none => return (.outOfMemory, w)
        | some x => do
          let a ← rd u.cells 0 index
          let b ← rd u.cells stop (u.size - stop)
          let cells ← wr x.cells 0 a
          let cells ← wr cells index b
          let w ← install w i (x.withCells cells)
          return (.success, w)

/-- `bl_string_remove_index` (`string.cpp:757-762`): `index + 1` wraps. -/
def removeIndex (ok : Bool) (w : Wld) (i index : Nat) : Option (Result × Wld) :=
  removeRange ok w i index ((index + 1) % 2 ^ 64)

/-! ### Queries -/

/-- `memcmp` of two regions of the same length: the difference of the first pair of bytes that differ. -/
def memcmp : List UInt8 → List UInt8 → Int
  | a :: s, b :: t => if a = b then memcmp s t else (a.toNat : Int) - b.toNat
  | _, _ => 0

/-- What a program reads: `size()` characters from `data()`, which must be initialised. -/
def content (w : Wld) (i : Nat) : Option (List UInt8) := do
  let v ← w.vars[i]?
  let u ← unpack w v
  let xs ← rd u.cells 0 u.size
  xs.mapM id

/-- `data()[size()]`. -/
def terminator (w : Wld) (i : Nat) : Option UInt8 := do
  let v ← w.vars[i]?
  let u ← unpack w v
  let xs ← u.cells[u.size]?
  xs

/-- `bl_string_equals` (`string.cpp:811-824`). -/
def equals (w : Wld) (i j : Nat) : Option Bool := do
  let a ← content w i
  let b ← content w j
  if a.length ≠ b.length then return false else return memcmp a b == 0

/-- The loop of `bl_string_equals_data` for a NUL terminated string (`string.cpp:834-839`).  Reading behind the NUL is
undefined: `str` is all the memory there is. -/
def equalsZ : List UInt8 → List UInt8 → Option Bool
  | _, [] => none
  | [], b :: _ => some (b == 0)
  | a :: s, b :: t => if a ≠ b ∨ b = 0 then some false else equalsZ s t

/-- `bl_string_equals_data` (`string.cpp:826-847`); `n = none` is `SIZE_MAX`. -/
def equalsData (w : Wld) (i : Nat) (str : List UInt8) (n : Option Nat) : Option Bool := do
  let a ← content w i
  match n with
  | none => equalsZ a str
  | some n =>
    if a.length ≠ n then return false
    else if str.length < n then none
    else return memcmp a (str.take n) == 0

/-- `bl_string_compare` (`string.cpp:849-865`). -/
def compareLists (a b : List UInt8) : Int :=
  let n := min a.length b.length
  let c := memcmp (a.take n) (b.take n)
  if c ≠ 0 then c
  else if a.length < b.length then -1
  else if a.length > b.length then 1 else 0

def compare (w : Wld) (i j : Nat) : Option Int := do
  let a ← content w i
  let b ← content w j
  return compareLists a b

/-- The loop of `bl_string_compare_data` for a NUL terminated string (`string.cpp:877-901`). -/
def compareZ : List UInt8 → List UInt8 → Option Int
  | _, [] => none
  | [], b :: _ => some (if b ≠ 0 then -1 else 0)
  | a :: s, b :: t =>
    let c : Int := if b = 0 then 1 else (a.toNat : Int) - b.toNat
    if c ≠ 0 then some c else compareZ s t

/-- `bl_string_compare_data` (`string.cpp:867-912`); `n = none` is `SIZE_MAX`. -/
def compareData (w : Wld) (i : Nat) (str : List UInt8) (n : Option Nat) : Option Int := do
  let a ← content w i
  match n with
  | none => compareZ a str
  | some n => if str.length < n then none else return compareLists a (str.take n)

/-- The loop of `index_of` (`string.h:384-388`) over the characters from `from_index` on; `none` is `SIZE_MAX`. -/
def indexLoop (c : UInt8) : List UInt8 → Nat → Option Nat
  | [], _ => none
  | x :: t, i => if x = c then some i else indexLoop c t (i + 1)

/-- `index_of` (`string.h:380-389`). -/
def indexOf (a : List UInt8) (c : UInt8) (start : Nat) : Option Nat := indexLoop c (a.drop start) start

/-- The loop of `last_index_of` (`string.h:397-398`) over the first `k` characters, from the last one down. -/
def lastLoop (a : List UInt8) (c : UInt8) : Nat → Option Nat
  | 0 => none
  | k + 1 => if a[k]? = some c then some k else lastLoop a c k

/-- `last_index_of(c)` (`string.h:393-401`). -/
def lastIndexOf (a : List UInt8) (c : UInt8) : Option Nat := lastLoop a c a.length

/-- `last_index_of(c, from_index)` (`string.h:406-418`). -/
def lastIndexFrom (a : List UInt8) (c : UInt8) (start : Nat) : Option Nat :=
  if a.length = 0 then none else lastLoop a c (min (a.length - 1) start + 1)

end Blend2D.Str
