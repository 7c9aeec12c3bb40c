import Verif.Cow.Heap
/-!
# `BLArray` (`blend2d/core/array.cpp`, `array_p.h`)

Arrays of plain items (all array types except `ARRAY_OBJECT`).  Memory is counted in items: an offset of
`k * item_size` bytes is the cell number `k`; a cell is `none` while it is uninitialised.  Reading or
writing outside of a buffer, using a freed impl and a `memcpy` between overlapping ranges are undefined
behaviour, modelled by `none`.

Allocation is an oracle: `ok = false` makes `malloc` fail.

Simplification: a new impl is filled before it enters the heap (nobody else can see it in between).
-/
namespace Blend2D.Arr
open Cow

inductive Result where
  | success | outOfMemory | invalidValue
  deriving DecidableEq, Repr

/-- Size, and the cells of the buffer (`BLArrayImpl`, `array.h:46-65`; `capacity` is the number of cells). -/
structure Data (α : Type) where
  size : Nat
  cells : List (Option α)
  deriving DecidableEq, Repr

/-- The impl: its data and `is_impl_external` (`object_p.h:274-277`). -/
structure Impl (α : Type) where
  ext : Bool
  d : Data α
  deriving DecidableEq, Repr

abbrev Wld (α : Type) := World (Data α) (Impl α)

/-- The array type: the size of an item in bytes, and the item whose bytes are all zero. -/
structure Cfg (α : Type) where
  itemSize : Nat
  zero : α

variable {α : Type}

/-- `SSOCapacityGen` (`array.cpp:49-55`; `kStaticDataSize = 12`, `object.h:657`). -/
def Cfg.ssoCap (c : Cfg α) : Nat := 12 / c.itemSize

/-- `BL_OBJECT_IMPL_MAX_SIZE` (`object_p.h:31`). -/
def implMaxSize : Nat := (2 ^ 64 - 1) / 2 - 4096

/-- `MaximumCapacityGen` (`array.cpp:57-63`; `sizeof(BLArrayImpl) = 24`). -/
def Cfg.maxCap (c : Cfg α) : Nat := (implMaxSize - 24) / c.itemSize

/-- `impl_size_from_capacity` (`array.cpp:93-95`) in `size_t`. -/
def Cfg.implSize (c : Cfg α) (capacity : Nat) : Nat := (24 + capacity * c.itemSize) % 2 ^ 64

/-- `capacity_from_impl_size` (`array.cpp:89-91`) in `size_t`. -/
def Cfg.capacity (c : Cfg α) (implSize : Nat) : Nat := (implSize + 2 ^ 64 - 24) % 2 ^ 64 / c.itemSize

/-- `bl_object_expand_impl_size` (`object_p.h:487-505`; `BL_ALLOC_GROW_LIMIT`, `api-internal_p.h:547`).
`1 << (64 - clz(n + 1))` is `2 ^ (log2 (n + 1) + 1)`. -/
def expand (n : Nat) : Nat :=
  let m := if n ≥ 2 ^ 23 then (n + n / 4 + n / 8) % 2 ^ 64 else 2 ^ (Nat.log2 (n + 1) + 1)
  max m n

/-- `n | immutable_msk` (`IntOps::bool_as_mask`). -/
def masked (n : Nat) (isMutable : Bool) : Nat := if isMutable then n else 2 ^ 64 - 1

/-- `IntOps::uadd_saturate` on `size_t` (`intops_p.h:762-766`, see `C33`). -/
def uaddSat (a b : Nat) : Nat := min (a + b) (2 ^ 64 - 1)

/-! ### Buffers -/

/-- Reading `n` cells. -/
def rd (cells : List (Option α)) (off n : Nat) : Option (List (Option α)) :=
  if off + n ≤ cells.length then some ((cells.drop off).take n) else none

/-- Writing cells. -/
def wr (cells : List (Option α)) (off : Nat) (xs : List (Option α)) : Option (List (Option α)) :=
  if off + xs.length ≤ cells.length then some (cells.take off ++ xs ++ cells.drop (off + xs.length)) else none

/-- `memmove` inside a buffer. -/
def move (cells : List (Option α)) (dst src n : Nat) : Option (List (Option α)) := do
  let xs ← rd cells src n
  wr cells dst xs

/-- `memcpy` inside a buffer: undefined if the ranges overlap. -/
def copy (cells : List (Option α)) (dst src n : Nat) : Option (List (Option α)) :=
  if 0 < n ∧ dst < src + n ∧ src < dst + n then none else move cells dst src n

/-- Items passed to a function: an unrelated buffer, which lies below or above the array's own, or a part of the
array's own content. -/
inductive Src (α : Type) where
  | ext (l : List α) (below : Bool)
  | own (off n : Nat)
  deriving DecidableEq, Repr

def Src.len : Src α → Nat
  | .ext l _ => l.length
  | .own _ n => n

/-- Reading the items while the array's own buffer contains `cells`. -/
def Src.read (s : Src α) (cells : List (Option α)) : Option (List (Option α)) :=
  match s with
  | .ext l _ => some (l.map some)
  | .own off n => rd cells off n

/-- `memcpy` of the items to the position `dst` of the array's own buffer. -/
def Src.copyTo (s : Src α) (cells : List (Option α)) (dst : Nat) : Option (List (Option α)) :=
  match s with
  | .ext l _ => wr cells dst (l.map some)
  | .own off n => copy cells dst off n

/-! ### Instances -/

/-- The content of `bl_object_defaults[array_type]` with the given size (`init_static`, `array.cpp:229-235`;
`bl_array_rt_init`, `array.cpp:1324-1333`). -/
def Cfg.static (c : Cfg α) (size : Nat) : Data α := ⟨size, List.replicate c.ssoCap (some c.zero)⟩

/-- `unpack` (`array_p.h:82-90`). -/
def unpack (w : Wld α) : Core (Data α) → Option (Data α)
  | .sso d => some d
  | .dyn a => (w.block? a).map (fun b => b.val.d)

/-- Storing to the buffer and the size of variable `i` in place. -/
def put (w : Wld α) (i : Nat) (d : Data α) : Option (Wld α) := do
  let c ← w.vars[i]?
  match c with
  | .sso _ => return w.setVar i (.sso d)
  | .dyn a => do
    let b ← w.block? a
    return w.setVal a { b.val with d := d }

/-- `bl_object_alloc_impl_internal` (`object.cpp:38-66`) and `init_dynamic` (`array.cpp:237-249`): the new impl's
data, or `none` if out of memory. -/
def Cfg.initDynamic (c : Cfg α) (ok : Bool) (size implSize : Nat) : Option (Data α) :=
  if implSize > implMaxSize then none
  else if ok then some ⟨size, List.replicate (c.capacity implSize) none⟩
  else none

/-- `init_array` (`array.cpp:269-281`): in place (`true`) or dynamic (`false`). -/
def Cfg.initArray (c : Cfg α) (ok : Bool) (size capacity : Nat) : Option (Bool × Data α) :=
  if capacity ≤ c.ssoCap then some (true, c.static size)
  else (c.initDynamic ok size (c.implSize capacity)).map (fun d => (false, d))

/-- `replace_instance(self, &newO)` where `newO` is a new instance. -/
def install (w : Wld α) (i : Nat) (sso : Bool) (d : Data α) : Option (Wld α) :=
  if sso then w.replace i (.sso d)
  else
    let (c, w) := w.alloc 1 ⟨false, d⟩
    w.replace i c

/-- `set_size(self, 0)` before the content is moved away, if the impl is going to be destroyed. -/
def moved (w : Wld α) (i : Nat) (isMut : Bool) (u : Data α) : Option (Wld α) :=
  if isMut then put w i { u with size := 0 } else some w

/-- `is_instance_dynamic_and_mutable` (`object_p.h:378-381`). -/
def isDynMutable (w : Wld α) (v : Core (Data α)) : Option Bool :=
  match v with
  | .sso _ => some false
  | .dyn _ => w.isMutable v

/-! ### Operations -/

/-- `bl_array_reset` (`array.cpp:445-451`). -/
def reset (c : Cfg α) (w : Wld α) (i : Nat) : Option (Result × Wld α) := do
  let w ← w.replace i (.sso (c.static 0))
  return (.success, w)

/-- `bl_array_clear` (`array.cpp:487-518`). -/
def clear (c : Cfg α) (w : Wld α) (i : Nat) : Option (Result × Wld α) := do
  let v ← w.vars[i]?
  match v with
  | .sso d =>
    if d.size ≠ 0 then return (.success, w.setVar i (.sso (c.static 0))) else return (.success, w)
  | .dyn a => do
    let b ← w.block? a
    if b.rc ≠ 1 then do
      let w ← w.replace i (.sso (c.static 0))
      return (.success, w)
    else if b.val.d.size = 0 then return (.success, w)
    else do
      let w ← put w i { b.val.d with size := 0 }
      return (.success, w)

/-- `realloc_to_dynamic` (`array.cpp:283-303`). -/
def reallocToDynamic (c : Cfg α) (ok : Bool) (w : Wld α) (i : Nat) (implSize : Nat) : Option (Result × Wld α) := do
  let v ← w.vars[i]?
  let u ← unpack w v
  match c.initDynamic ok u.size implSize with
  | none => return (.outOfMemory, w)
  | some n => do
    let old ← rd u.cells 0 u.size
    let cells ← wr n.cells 0 old
    let isDynMut ← isDynMutable w v
    let w ← moved w i isDynMut u
    let w ← install w i false { n with cells := cells }
    return (.success, w)

/-- `bl_array_shrink` (`array.cpp:520-554`). -/
def shrink (c : Cfg α) (ok : Bool) (w : Wld α) (i : Nat) : Option (Result × Wld α) := do
  let v ← w.vars[i]?
  let u ← unpack w v
  if u.size ≤ c.ssoCap then
    match v with
    | .sso _ => return (.success, w)
    | .dyn _ => do
      let old ← rd u.cells 0 u.size
      -- `init_static` zeroes the in-place bytes
      let cells ← wr (c.static 0).cells 0 old
      let w ← install w i true ⟨u.size, cells⟩
      return (.success, w)
  else
    match v with
    | .sso _ => none   -- an in-place array never holds more than `sso_capacity` items
    | .dyn a => do
      let b ← w.block? a
      if b.val.ext then return (.success, w)
      else if c.implSize u.cells.length - c.implSize u.size ≥ 16 then
        reallocToDynamic c ok w i (c.implSize u.size)
      else return (.success, w)

/-- `bl_array_reserve` (`array.cpp:601-630`). -/
def reserve (c : Cfg α) (ok : Bool) (w : Wld α) (i : Nat) (n : Nat) : Option (Result × Wld α) := do
  let v ← w.vars[i]?
  let u ← unpack w v
  let isMut ← w.isMutable v
  if masked n isMut ≤ u.cells.length then return (.success, w)
  else if n > c.maxCap then return (.outOfMemory, w)
  else
    let n := max n u.size
    if n ≤ c.ssoCap then do
      let old ← rd u.cells 0 u.size
      let cells ← wr (c.static 0).cells 0 old
      let w ← install w i true ⟨u.size, cells⟩
      return (.success, w)
    else reallocToDynamic c ok w i (c.implSize n)

/-- `bl_array_make_mutable` (`array.cpp:632-660`). -/
def makeMutable (c : Cfg α) (ok : Bool) (w : Wld α) (i : Nat) : Option (Result × Wld α) := do
  let v ← w.vars[i]?
  match v with
  | .sso _ => return (.success, w)
  | .dyn a => do
    let b ← w.block? a
    if b.rc = 1 then return (.success, w)
    else
      let u := b.val.d
      match c.initArray ok u.size u.size with
      | none => return (.outOfMemory, w)
      | some (sso, n) => do
        let old ← rd u.cells 0 u.size
        let cells ← wr n.cells 0 old
        let w ← install w i sso { n with cells := cells }
        return (.success, w)

/-- `BLModifyOp` (`api.h`): assign or append, fitting or growing. -/
structure ModifyOp where
  assign : Bool
  grow : Bool
  deriving DecidableEq, Repr

/-- The buffer `modify_op` leaves in place: assigning clears the static data (`array.cpp:680-690`). -/
def modifyCells (c : Cfg α) (v : Core (Data α)) (op : ModifyOp) (u : Data α) : List (Option α) :=
  match v with
  | .sso _ => if op.assign then (c.static 0).cells else u.cells
  | .dyn _ => u.cells

/-- `bl_array_modify_op` (`array.cpp:662-777`).  Returns the index of the first item the caller may write. -/
def modifyOp (c : Cfg α) (ok : Bool) (w : Wld α) (i : Nat) (op : ModifyOp) (n : Nat) : Option (Result × Nat × Wld α) := do
  let v ← w.vars[i]?
  let u ← unpack w v
  let isMut ← w.isMutable v
  let index := if op.assign then 0 else u.size
  let sizeAfter := if op.assign then n else u.size + n
  if sizeAfter ≥ 2 ^ 64 then return (.outOfMemory, 0, w)
  else if masked sizeAfter isMut ≤ u.cells.length then
    let w ← put w i ⟨sizeAfter, modifyCells c v op u⟩
    return (.success, index, w)
  else if sizeAfter ≤ c.ssoCap then do
    let old ← rd u.cells 0 index
    let cells ← wr (c.static 0).cells 0 old
    let w ← install w i true ⟨sizeAfter, cells⟩
    return (.success, index, w)
  else
    let implSize := if op.grow then expand (c.implSize sizeAfter) else c.implSize sizeAfter
    match c.initDynamic ok sizeAfter implSize with
    | none => return (.outOfMemory, 0, w)
    | some d => do
      let old ← rd u.cells 0 index
      let cells ← wr d.cells 0 old
      let isDynMut ← isDynMutable w v
      let w ← moved w i isDynMut u
      let w ← install w i false { d with cells := cells }
      return (.success, index, w)

/-- A store through the pointer returned by `modify_op` or `insert_op`. -/
def fillAt (w : Wld α) (i : Nat) (off : Nat) (xs : List (Option α)) : Option (Wld α) := do
  let v ← w.vars[i]?
  let u ← unpack w v
  let cells ← wr u.cells off xs
  put w i { u with cells := cells }

/-- `bl_array_resize` (`array.cpp:556-599`); `fill = none` is a null pointer. -/
def resize (c : Cfg α) (ok : Bool) (w : Wld α) (i : Nat) (n : Nat) (fill : Option α) : Option (Result × Wld α) := do
  let v ← w.vars[i]?
  let u ← unpack w v
  if n ≤ u.size then
    let isMut ← w.isMutable v
    if !isMut then
      if n = u.size then return (.success, w)
      else
        match c.initArray ok n n with
        | none => return (.outOfMemory, w)
        | some (sso, d) => do
          let old ← rd u.cells 0 n
          let cells ← wr d.cells 0 old
          let w ← install w i sso { d with cells := cells }
          return (.success, w)
    else do
      let w ← put w i { u with size := n }
      return (.success, w)
  else
    let n := n - u.size
    let (r, start, w) ← modifyOp c ok w i { assign := false, grow := false } n
    if r ≠ .success then return (r, w)
    else do
      let w ← fillAt w i start (List.replicate n (some (fill.getD c.zero)))
      return (.success, w)

/-- `bl_array_insert_op` (`array.cpp:779-833`).  The caller guarantees `index ≤ size`; otherwise
`(u.size - index)` wraps, which is modelled as undefined. -/
def insertOp (c : Cfg α) (ok : Bool) (w : Wld α) (i : Nat) (index n : Nat) : Option (Result × Wld α) := do
  let v ← w.vars[i]?
  let u ← unpack w v
  let isMut ← w.isMutable v
  if index > u.size then none
  else
    let sizeAfter := uaddSat u.size n
    if masked sizeAfter isMut > u.cells.length then
      if sizeAfter > c.maxCap then return (.outOfMemory, w)
      else
        let new := if sizeAfter ≤ c.ssoCap then some (true, c.static sizeAfter)
          else (c.initDynamic ok sizeAfter (expand (c.implSize sizeAfter))).map (fun d => (false, d))
        match new with
        | none => return (.outOfMemory, w)
        | some (sso, d) => do
          let a ← rd u.cells 0 index
          let b ← rd u.cells index (u.size - index)
          let cells ← wr d.cells 0 a
          let cells ← wr cells (index + n) b
          let w ← moved w i isMut u
          let w ← install w i sso { d with cells := cells }
          return (.success, w)
    else do
      let cells ← move u.cells (index + n) index (u.size - index)
      let w ← put w i ⟨sizeAfter, cells⟩
      return (.success, w)

/-- `bl_array_assign_data` (`array.cpp:873-914`).  The new impl is sized by the *old* size. -/
def assignData (c : Cfg α) (ok : Bool) (w : Wld α) (i : Nat) (items : Src α) : Option (Result × Wld α) := do
  let v ← w.vars[i]?
  let u ← unpack w v
  let isMut ← w.isMutable v
  let n := items.len
  if masked n isMut > u.cells.length then
    if n > c.maxCap then return (.outOfMemory, w)
    else
      match c.initDynamic ok n (c.implSize u.size) with
      | none => return (.outOfMemory, w)
      | some d => do
        let xs ← items.read u.cells
        let cells ← wr d.cells 0 xs
        let w ← install w i false { d with cells := cells }
        return (.success, w)
  else if n = 0 then clear c w i
  else do
    let xs ← items.read u.cells
    let cells ← wr u.cells 0 xs
    let w ← put w i ⟨n, cells⟩
    return (.success, w)

/-- `bl_array_assign_external_data` (`array.cpp:916-933`, `init_external`, `array.cpp:251-267`): the caller's buffer
`cells`, of which the first `size` items are used. -/
def assignExternal (c : Cfg α) (ok : Bool) (w : Wld α) (i : Nat) (cells : List (Option α)) (size : Nat) (writable : Bool) :
    Option (Result × Wld α) :=
  if cells.length = 0 ∨ cells.length < size ∨ cells.length * c.itemSize ≥ 2 ^ 64 then some (.invalidValue, w)
  else if !ok then some (.outOfMemory, w)
  else do
    let (v, w) := w.alloc (if writable then 1 else 3) ⟨true, ⟨size, cells⟩⟩
    let w ← w.replace i v
    return (.success, w)

/-- `bl_array_append_data` (`array.cpp:983-1021`). -/
def appendData (c : Cfg α) (ok : Bool) (w : Wld α) (i : Nat) (items : Src α) : Option (Result × Wld α) := do
  let v ← w.vars[i]?
  let u ← unpack w v
  let isMut ← w.isMutable v
  let sizeAfter := uaddSat u.size items.len
  if masked sizeAfter isMut > u.cells.length then
    if sizeAfter > c.maxCap then return (.outOfMemory, w)
    else
      match c.initDynamic ok sizeAfter (expand (c.implSize sizeAfter)) with
      | none => return (.outOfMemory, w)
      | some d => do
        let old ← rd u.cells 0 u.size
        let cells ← wr d.cells 0 old
        let xs ← items.read u.cells
        let cells ← wr cells u.size xs
        let w ← moved w i isMut u
        let w ← install w i false { d with cells := cells }
        return (.success, w)
  else do
    let cells ← items.copyTo u.cells u.size
    let w ← put w i ⟨sizeAfter, cells⟩
    return (.success, w)

/-- `bl_array_append_item` (`array.cpp:945-981`); the item is passed by value. -/
def appendItem (c : Cfg α) (ok : Bool) (w : Wld α) (i : Nat) (x : α) : Option (Result × Wld α) := do
  let v ← w.vars[i]?
  let u ← unpack w v
  let isMut ← w.isMutable v
  if masked u.size isMut ≥ u.cells.length then
    if u.size ≥ c.maxCap then return (.outOfMemory, w)
    else
      match c.initDynamic ok (u.size + 1) (expand (c.implSize (u.size + 1))) with
      | none => return (.outOfMemory, w)
      | some d => do
        let old ← rd u.cells 0 u.size
        let cells ← wr d.cells 0 old
        let cells ← wr cells u.size [some x]
        let w ← moved w i isMut u
        let w ← install w i false { d with cells := cells }
        return (.success, w)
  else do
    let cells ← wr u.cells u.size [some x]
    let w ← put w i ⟨u.size + 1, cells⟩
    return (.success, w)

/-- The in-place insertion of `bl_array_insert_data` (`array.cpp:1064-1122`): the memory move, the leading part that
precedes the insertion point and the shifted trailing part.  An unrelated buffer below the array's is all leading,
one above it is all trailing and is not shifted because it starts at or after `dst_end`. -/
def insertInPlace (cells : List (Option α)) (size index : Nat) (items : Src α) : Option (List (Option α)) := do
  let cells ← move cells (index + items.len) index (size - index)
  match items with
  | .ext l _ => wr cells index (l.map some)
  | .own off n => do
    let lead := if off < index then min (index - off) n else 0
    let cells ← copy cells index off lead
    let src := off + lead
    let src := if src < size + n then src + n else src
    copy cells (index + lead) src (n - lead)

/-- `bl_array_insert_data` (`array.cpp:1034-1124`); as for `insertOp`, `index ≤ size`. -/
def insertData (c : Cfg α) (ok : Bool) (w : Wld α) (i : Nat) (index : Nat) (items : Src α) : Option (Result × Wld α) := do
  let v ← w.vars[i]?
  let u ← unpack w v
  let isMut ← w.isMutable v
  if index > u.size then none
  else
    let n := items.len
    let sizeAfter := uaddSat u.size n
    if masked sizeAfter isMut > u.cells.length then
      if sizeAfter > c.maxCap then return (.outOfMemory, w)
      else
        match c.initDynamic ok sizeAfter (expand (c.implSize sizeAfter)) with
        | none => return (.outOfMemory, w)
        | some d => do
          let a ← rd u.cells 0 index
          let b ← rd u.cells index (u.size - index)
          let cells ← wr d.cells 0 a
          let cells ← wr cells (index + n) b
          let xs ← items.read u.cells
          let cells ← wr cells index xs
          let w ← moved w i isMut u
          let w ← install w i false { d with cells := cells }
          return (.success, w)
    else do
      let cells ← insertInPlace u.cells u.size index items
      let w ← put w i ⟨sizeAfter, cells⟩
      return (.success, w)

/-- `bl_array_replace_item` (`array.cpp:1136-1170`). -/
def replaceItem (c : Cfg α) (ok : Bool) (w : Wld α) (i : Nat) (index : Nat) (x : α) : Option (Result × Wld α) := do
  let v ← w.vars[i]?
  let u ← unpack w v
  if index ≥ u.size then return (.invalidValue, w)
  else
    let isMut ← w.isMutable v
    if !isMut then
      match c.initDynamic ok u.size (c.implSize u.size) with
      | none => return (.outOfMemory, w)
      | some d => do
        let a ← rd u.cells 0 index
        let b ← rd u.cells (index + 1) (u.size - index - 1)
        let cells ← wr d.cells 0 a
        let cells ← wr cells index [some x]
        let cells ← wr cells (index + 1) b
        let w ← install w i false { d with cells := cells }
        return (.success, w)
    else do
      let cells ← wr u.cells index [some x]
      let w ← put w i { u with cells := cells }
      return (.success, w)

/-- The overlap test of `bl_array_replace_data` (`array.cpp:1201-1204`), which compares with `u.data + u.size * n`
bytes.  An unrelated buffer below the array's always passes it, one above it at a distance of `gap` bytes from `u.data`
passes if `gap ≥ size * n`. -/
def Src.testApart (items : Src α) (c : Cfg α) (size gap : Nat) : Bool :=
  match items with
  | .ext l below => below || decide (gap ≥ size * l.length)
  | .own off n => decide (off * c.itemSize ≥ size * n) || decide ((off + n) * c.itemSize ≤ 0)

/-- `bl_array_replace_data` (`array.cpp:1172-1232`). -/
def replaceData (c : Cfg α) (ok : Bool) (w : Wld α) (i : Nat) (rStart rEnd : Nat) (items : Src α) (gap : Nat) :
    Option (Result × Wld α) := do
  let v ← w.vars[i]?
  let u ← unpack w v
  let stop := min rEnd u.size
  let index := min rStart stop
  let rangeSize := stop - index
  if rangeSize = 0 then insertData c ok w i index items
  else
    let n := items.len
    let tailSize := u.size - stop
    let sizeAfter := (u.size - rangeSize + n) % 2 ^ 64
    let isMut ← w.isMutable v
    if isMut && items.testApart c u.size gap then
      if rangeSize = n then do
        let cells ← items.copyTo u.cells index
        let w ← put w i { u with cells := cells }
        return (.success, w)
      else do
        let cells ← move u.cells (index + rangeSize) stop tailSize
        let cells ← items.copyTo cells index
        let w ← put w i ⟨sizeAfter, cells⟩
        return (.success, w)
    else
      match c.initArray ok sizeAfter sizeAfter with
      | none => return (.outOfMemory, w)
      | some (sso, d) => do
        let a ← rd u.cells 0 index
        let xs ← items.read u.cells
        let b ← rd u.cells (index + rangeSize) tailSize
        let cells ← wr d.cells 0 a
        let cells ← wr cells index xs
        let cells ← wr cells (index + n) b
        let w ← install w i sso { d with cells := cells }
        return (.success, w)

/-- `bl_array_remove_range` (`array.cpp:1244-1288`).  In place, the cells behind the new end are zeroed. -/
def removeRange (c : Cfg α) (ok : Bool) (w : Wld α) (i : Nat) (rStart rEnd : Nat) : Option (Result × Wld α) := do
  let v ← w.vars[i]?
  let u ← unpack w v
  let stop := min rEnd u.size
  let index := min rStart stop
  let n := stop - index
  let sizeAfter := u.size - n
  if n = 0 then return (.success, w)
  else
    match v with
    | .sso _ => do
      let cells ← move u.cells index (index + n) (u.size - stop)
      let cells ← wr cells sizeAfter (List.replicate (u.cells.length - sizeAfter) (some c.zero))
      return (.success, w.setVar i (.sso ⟨sizeAfter, cells⟩))
    | .dyn _ => do
      let isMut ← w.isMutable v
      if !isMut then
        match c.initArray ok sizeAfter sizeAfter with
        | none => return (.outOfMemory, w)
        | some (sso, d) => do
          let a ← rd u.cells 0 index
          let b ← rd u.cells stop (u.size - stop)
          let cells ← wr d.cells 0 a
          let cells ← wr cells index b
          let w ← install w i sso { d with cells := cells }
          return (.success, w)
      else do
        let cells ← move u.cells index (index + n) (u.size - stop)
        let w ← put w i ⟨sizeAfter, cells⟩
        return (.success, w)

/-- `bl_array_remove_index` (`array.cpp:1237-1242`): `index + 1` wraps. -/
def removeIndex (c : Cfg α) (ok : Bool) (w : Wld α) (i : Nat) (index : Nat) : Option (Result × Wld α) :=
  removeRange c ok w i index ((index + 1) % 2 ^ 64)

/-- `bl_array_assign_deep` (`array.cpp:863-871`). -/
def assignDeep (c : Cfg α) (ok : Bool) (w : Wld α) (i j : Nat) : Option (Result × Wld α) := do
  let v ← w.vars[j]?
  let u ← unpack w v
  if i = j then assignData c ok w i (.own 0 u.size)
  else
    let xs ← rd u.cells 0 u.size
    let xs ← xs.mapM id
    assignData c ok w i (.ext xs true)

/-- `bl_array_equals` (`array.cpp:1293-1319`): identical instances, else equal sizes and equal content.  The in-place
comparison `a->_d == b->_d` of all 16 bytes is modelled as equality of the two instances. -/
def equals [DecidableEq α] (w : Wld α) (i j : Nat) : Option Bool := do
  let a ← w.vars[i]?
  let b ← w.vars[j]?
  if a = b then return true
  else
    let u ← unpack w a
    let v ← unpack w b
    if u.size ≠ v.size then return false
    else do
      let x ← rd u.cells 0 u.size
      let y ← rd v.cells 0 v.size
      -- comparing uninitialised cells has no meaning
      if x.any (·.isNone) || y.any (·.isNone) then none else return decide (x = y)

end Blend2D.Arr
