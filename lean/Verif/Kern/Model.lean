import Verif.Algo.Model
/-!
# Legacy kerning of OpenType fonts

Model of `opentype/otkern.cpp`: loading of the 'kern' table (`KernImpl::init`) and its application to a run of glyphs (`apply_kern`).  A table is a list of
bytes; an access outside of it, or outside of an array, gives `none`.  Sizes and offsets are 32-bit integers in the code; a table is smaller than 4 GB and
none of the sums leaves 32 bits, so natural numbers are used.  Kerning values are sums of 16-bit numbers in 32-bit integers, modelled by integers.
Failing allocations and diagnostic flags are not modelled.
-/

namespace Blend2D.Kern

abbrev Data := List UInt8

/-- `UInt8::value`, `otdefs_p.h`. -/
def u8 (d : Data) (i : Nat) : Option Nat := (d[i]?).map UInt8.toNat

/-- `UInt16::value`: two bytes, big endian. -/
def u16 (d : Data) (i : Nat) : Option Nat := do
  let a ← u8 d i
  let b ← u8 d (i + 1)
  some (a * 256 + b)

/-- `UInt32::value`: four bytes, big endian. -/
def u32 (d : Data) (i : Nat) : Option Nat := do
  let a ← u16 d i
  let b ← u16 d (i + 2)
  some (a * 65536 + b)

/-- `Int16::value`: two bytes, big endian, two's complement. -/
def i16 (d : Data) (i : Nat) : Option Int := do
  let a ← u16 d i
  some (if a < 32768 then a else (a : Int) - 65536)

/-- `KernTable::Pair`, `otkern_p.h:66-75`; `key` is `combined`. -/
structure Pair where
  key : Nat
  value : Int
deriving DecidableEq, Repr

/-- One pair of the table. -/
def pairAt (d : Data) (o : Nat) : Option Pair := do
  let k ← u32 d o
  let v ← i16 d (o + 4)
  some ⟨k, v⟩

/-- The memory behind a pointer to `n` pairs at the offset `o`: the pairs that are inside of the table.  Access to others fails.
Simplified: a pair of which only a part is inside counts as outside. -/
def pairsAt (d : Data) (o n : Nat) : Array Pair := ((List.range n).filterMap (fun i => pairAt d (o + 6 * i))).toArray

/-! ## Groups -/

/-- `KernGroup`, `otkern_p.h:144-182`: the packed word, and the offset in the table or the array of synthesized pairs. -/
structure Group where
  packed : Nat
  offset : Nat
  own : Array Pair
deriving Repr

/-- `is_synthesized`, `otkern_p.h:162`. -/
def Group.synthesized (g : Group) : Bool := g.packed &&& 1 ≠ 0

/-- `format`, `otkern_p.h:167`. -/
def Group.format (g : Group) : Nat := (g.packed >>> 4) &&& 3

/-- `flags`, `otkern_p.h:168`. -/
def Group.flags (g : Group) : Nat := g.packed &&& 15

/-- `data_size`, `otkern_p.h:169`. -/
def Group.size (g : Group) : Nat := g.packed >>> 6

/-- `make_referenced`, `otkern_p.h:175-177`: 32-bit operations. -/
def mkRef (format flags offset size : Nat) : Group :=
  ⟨flags ||| (format <<< 2) ||| (size <<< 6) % 2 ^ 32, offset, #[]⟩

/-- `make_synthesized`, `otkern_p.h:179-181`. -/
def mkOwn (format flags : Nat) (data : Array Pair) (size : Nat) : Group :=
  ⟨flags ||| (format <<< 2) ||| (size <<< 6) % 2 ^ 32 ||| 1, 0, data⟩

/-- The memory behind `calc_data_ptr`, `otkern_p.h:171-173`, as pairs. -/
def Group.pairs (d : Data) (g : Group) : Array Pair := if g.synthesized then g.own else pairsAt d g.offset g.size

/-! ## Order of the pairs -/

/-- The loop of `check_kern_pairs`, `otkern.cpp:70-77`. -/
def checkLoop (a : Array Pair) (n : Nat) (prev i : Nat) : Option Nat :=
  if i < n then
    match a[i]? with
    | none => none
    | some p => if prev > p.key then some i else checkLoop a n p.key (i + 1)
  else some i
termination_by n - i

/-- `check_kern_pairs`, `otkern.cpp:63-80`. -/
def check (a : Array Pair) (n start : Nat) : Option Nat :=
  if start ≥ n then some n
  else
    match a[start]? with
    | none => none
    | some p => checkLoop a n p.key start

/-- The local variables of `fix_unsorted_kern_pairs`, `otkern.cpp:93-101`, and the groups it appends. -/
structure Fix where
  rangeStart : Nat
  unsortedStart : Nat
  current : Nat
  ranges : List (Nat × Nat)
  groups : List Group

/-- `unsorted_ranges[unsorted_count]` of an array of `kMaxGroups + 1` elements, `otkern.cpp:99`. -/
def pushRange (rs : List (Nat × Nat)) (r : Nat × Nat) : Option (List (Nat × Nat)) :=
  if rs.length < 9 then some (rs ++ [r]) else none

/-- A range of the loop, `otkern.cpp:105-124`, up to `range_start = current_index`. -/
def fixRange (flags dataOffset threshold : Nat) (s : Fix) : Option Fix :=
  if s.current - s.rangeStart ≥ threshold then
    match (if s.rangeStart ≠ s.unsortedStart then pushRange s.ranges (s.unsortedStart, s.rangeStart) else some s.ranges) with
    | none => none
    | some ranges =>
      some { s with
        ranges := ranges
        unsortedStart := s.current
        groups := s.groups ++ [mkRef 0 flags (dataOffset + s.rangeStart * 6) (s.current - s.rangeStart)]
        rangeStart := s.current }
  else some { s with rangeStart := s.current }

/-- The loop of `fix_unsorted_kern_pairs`, `otkern.cpp:104-129`. -/
def fixLoop (a : Array Pair) (n flags dataOffset threshold : Nat) : Nat → Fix → Option Fix
  | 0, _ => none
  | fuel + 1, s =>
    match fixRange flags dataOffset threshold s with
    | none => none
    | some t =>
      if t.current = n then some t
      else
        match check a n t.current with
        | none => none
        | some c => fixLoop a n flags dataOffset threshold fuel { t with current := c }

/-- The comparison of the sort, `otkern.cpp:157-161`. -/
def cmp (a b : Pair) : Int := if a.key < b.key then -1 else if a.key > b.key then 1 else 0

/-- `memcpy` of the unsorted ranges, `otkern.cpp:146-155`. -/
def gather (a : Array Pair) (rs : List (Nat × Nat)) : Array Pair :=
  (rs.flatMap (fun r => (a.toList.take r.2).drop r.1)).toArray

/-- The end of `fix_unsorted_kern_pairs`, `otkern.cpp:131-167`. -/
def fixEnd (a : Array Pair) (n flags : Nat) (t : Fix) : Option (List Group) :=
  match (if t.unsortedStart ≠ n then pushRange t.ranges (t.unsortedStart, t.rangeStart) else some t.ranges) with
  | none => none
  | some ranges =>
    if ranges = [] then some t.groups
    else
      match Algo.quickSort cmp (gather a ranges) with
      | none => none
      | some data => some (t.groups ++ [mkOwn 0 flags data data.size])

/-- `fix_unsorted_kern_pairs`, `otkern.cpp:85-168`: the groups it appends. -/
def fix (a : Array Pair) (n current flags dataOffset : Nat) : Option (List Group) :=
  match fixLoop a n flags dataOffset (max (n / 8) 32) (n + 1) ⟨0, 0, current, [], []⟩ with
  | none => none
  | some t => fixEnd a n flags t

/-! ## Loading -/

/-- Format 0, `otkern.cpp:563-607`; `o` and `length` are without the header of the group. -/
def load0 (d : Data) (o length flags : Nat) : Option (List Group) :=
  match u16 d o with
  | none => none
  | some count =>
    if count = 0 then some []
    else
      let n := if count * 6 + 8 > length then (length - 8) / 6 else count
      let a := pairsAt d (o + 8) n
      match check a n 0 with
      | none => none
      | some k => if k ≠ n then fix a n k flags (o + 8) else some [mkRef 0 flags (o + 8) n]

/-- Format 2, `otkern.cpp:610-660`; `o` is the offset of the group with its header of `hs` bytes, `size` its size. -/
def load2 (d : Data) (o hs size flags : Nat) : Option (List Group) := do
  let left ← u16 d (o + hs + 2)
  let right ← u16 d (o + hs + 4)
  let array ← u16 d (o + hs + 6)
  if left > size - 6 ∨ right > size - 6 ∨ array > size - 2 then some []
  else
    let leftCount ← u16 d (o + left + 2)
    let rightCount ← u16 d (o + right + 2)
    if left + 4 + leftCount * 2 > size ∨ right + 4 + rightCount * 2 > size then some []
    else some [mkRef 2 flags o size]

/-- Format 3, `otkern.cpp:663-687`. -/
def load3 (d : Data) (o hs size flags : Nat) : Option (List Group) := do
  let glyphs ← u16 d (o + hs)
  let values ← u8 d (o + hs + 2)
  let left ← u8 d (o + hs + 3)
  let right ← u8 d (o + hs + 4)
  if hs + 6 + values * 2 + glyphs * 2 + left * right > size then some []
  else some [mkRef 3 flags o size]

/-- `min_kern_sub_table_size`, `otkern.cpp:30-35`. -/
def minSize (format : Nat) : Nat := [8, 10, 16, 6].getD format 0

/-- The groups of one sub-table at `o`, with a header of `hs` bytes and `length` bytes in all, `otkern.cpp:559-695`. -/
def loadSub (d : Data) (o hs length format flags : Nat) : Option (List Group) :=
  if format < 4 ∧ length - hs ≥ minSize format then
    if format = 0 then load0 d (o + hs) (length - hs) flags
    else if format = 2 then load2 d o hs length flags
    else if format = 3 then load3 d o hs length flags
    else some []
  else some []

/-- What the header of a sub-table says: length, format and coverage in the form of Windows. -/
structure Head where
  length : Nat
  format : Nat
  coverage : Nat

/-- The header of Windows, `otkern.cpp:495-517`. -/
def headWin (d : Data) (count index o : Nat) : Option Head := do
  let format ← u8 d (o + 4)
  let length ← u16 d (o + 2)
  let coverage ← u8 d (o + 5)
  let remaining := d.length - o
  let length := if length = d.length ∧ count = 1 then remaining else length
  let length := if length ≠ remaining ∧ index = count - 1 then remaining else length
  some ⟨length, format, coverage &&& 15⟩

/-- The header of Apple, `otkern.cpp:518-528`. -/
def headMac (d : Data) (o : Nat) : Option Head := do
  let format ← u8 d (o + 5)
  let length ← u32 d o
  let coverage ← u8 d (o + 4)
  some ⟨length, format, (if coverage &&& 0x80 = 0 then 1 else 0) ||| (if coverage &&& 0x40 ≠ 0 then 4 else 0)⟩

/-- The size of the header of a sub-table, `otkern.cpp:418,451`. -/
def headSize (mac : Bool) : Nat := if mac then 8 else 6

def head (mac : Bool) (d : Data) (count index o : Nat) : Option Head :=
  if mac then headMac d o else headWin d count index o

/-- The outcome of `init`: no kerning, or the groups of `collection[BL_ORIENTATION_HORIZONTAL]`. -/
inductive Loaded where
  | nothing
  | groups (gs : List Group)

/-- `coverage & kCoverageHorizontal`, `otkern.cpp:552`. -/
def Head.horizontal (h : Head) : Bool := h.coverage &&& 1 ≠ 0

/-- The loop over the sub-tables, `otkern.cpp:480-698`; `gs` is the horizontal collection.  The vertical one is not used by anything. -/
def loadLoop (mac : Bool) (d : Data) (count : Nat) : Nat → (index o : Nat) → List Group → Option Loaded
  | 0, _, _, _ => none
  | fuel + 1, index, o, gs =>
    if d.length - o < headSize mac then some (.groups gs)
    else
      match head mac d count index o with
      | none => none
      | some h =>
        if h.length < headSize mac ∨ h.length > d.length - o then some .nothing
        else
          match loadSub d o (headSize mac) h.length h.format (h.coverage &&& 14) with
          | none => none
          | some new =>
            if index + 1 < count then loadLoop mac d count fuel (index + 1) (o + h.length) (if h.horizontal then gs ++ new else gs)
            else some (.groups (if h.horizontal then gs ++ new else gs))

/-- The header of the table, `otkern.cpp:391-475`: whether it is that of Apple, the number of sub-tables and where they start. -/
def start (d : Data) : Option (Option (Bool × Nat × Nat)) :=
  if d.length < 4 then some none
  else do
    let major ← u16 d 0
    if major = 0 then
      let count ← u16 d 2
      some (if count = 0 then none else some (false, count, 4))
    else if major = 1 then
      let minor ← u16 d 2
      if minor ≠ 0 ∨ d.length < 8 then some none
      else
        let count ← u32 d 4
        some (if count = 0 then none else some (true, count, 8))
    else some none

/-- `KernImpl::init`, `otkern.cpp:383-709`. -/
def load (d : Data) : Option Loaded :=
  match start d with
  | none => none
  | some none => some .nothing
  | some (some (mac, count, o)) => loadLoop mac d count (d.length + 1) 0 o []

/-! ## Application -/

/-- `BLGlyphPlacement`: placement and advance. -/
structure Place where
  ox : Int
  oy : Int
  ax : Int
  ay : Int
deriving DecidableEq, Repr

/-- `mask_from_kern_group_flags` and `combine_kern_value`, `otkern.cpp:182-198`. -/
def combine (flags : Nat) (old new : Int) : Int :=
  if flags &&& 8 ≠ 0 then new else if flags &&& 2 ≠ 0 then min old new else old + new

/-- `find_kern_pair`, `otkern.cpp:170-172`. -/
def find (a : Array Pair) (n key : Nat) : Option (Option Nat) :=
  Algo.binarySearch a n key (fun p k => decide (p.key ≤ k)) (fun p k => decide (p.key = k))

/-- The loop of `apply_kern_format0`, `otkern.cpp:209-225`, over the glyphs and placements behind the first; the second result is
whether `all_combined` is not zero. -/
def apply0 (a : Array Pair) (n flags : Nat) : (pair : Nat) → List Nat → List Place → Option (List Place × Bool)
  | _, [], ps => some (ps, false)
  | _, _ :: _, [] => none
  | pair, g :: gs, p :: ps =>
    let pair := pair ||| g
    match find a n pair with
    | none => none
    | some none =>
      match apply0 a n flags ((pair <<< 16) % 2 ^ 32) gs ps with
      | none => none
      | some (qs, c) => some (p :: qs, c)
    | some (some i) =>
      match a[i]? with
      | none => none
      | some q =>
        match apply0 a n flags ((pair <<< 16) % 2 ^ 32) gs ps with
        | none => none
        | some (qs, c) => some ({ p with ox := combine flags p.ox q.value } :: qs, c || combine flags p.ox q.value ≠ 0)

/-- The loop over the groups, `otkern.cpp:356-370`, for the first glyph `g` and the others.  Groups of `format` 2 and 3 do not exist,
because `make_referenced` stores the format elsewhere than `format` reads it (`Group.format_made`), so that `apply_kern_format2`
and `apply_kern_format3` are never called. -/
def applyGroups (d : Data) (g : Nat) (gs : List Nat) : List Group → List Place → Option (List Place × Bool)
  | [], ps => some (ps, false)
  | k :: ks, ps =>
    if k.format ≠ 0 then none
    else
      match apply0 (k.pairs d) k.size k.flags ((g <<< 16) % 2 ^ 32) gs ps with
      | none => none
      | some (qs, c) =>
        match applyGroups d g gs ks qs with
        | none => none
        | some (rs, e) => some (rs, c || e)

/-- `finish_kern`, `otkern.cpp:335-341`, from a placement and those behind it. -/
def finish : Place → List Place → List Place
  | p, [] => [p]
  | p, q :: qs => { p with ax := p.ax + q.ox, ay := p.ay + q.oy } :: finish { q with ox := 0, oy := 0 } qs

/-- `apply_kern`, `otkern.cpp:343-378`. -/
def apply (d : Data) (groups : List Group) : List Nat → List Place → Option (List Place)
  | [], ps => some ps
  | [_], ps => some ps
  | _ :: _ :: _, [] => none
  | g :: h :: gs, p :: ps =>
    match applyGroups d g (h :: gs) groups ps with
    | none => none
    | some (qs, c) => some (if c then finish p qs else p :: qs)

/-- A font with the table `d` applied to a run of glyphs: without kerning data nothing changes, `otkern.cpp:700-707`. -/
def kern (d : Data) (glyphs : List Nat) (places : List Place) : Option (List Place) :=
  match load d with
  | none => none
  | some .nothing => some places
  | some (.groups gs) => if gs = [] then some places else apply d gs glyphs places

end Blend2D.Kern
