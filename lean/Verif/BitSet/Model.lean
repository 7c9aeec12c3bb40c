import Verif.BitOps.Model
import Verif.Algo.Model

/-!
# Bit sets (`core/bitset.cpp`)

A bit set is stored in one of three ways: as one range in the object itself, as two words and the index of the first of them in the
object itself, or as an array of segments.  A segment is four words, or a run of words whose bits are all set.

The result `none` is undefined behaviour: a write or read behind a buffer.  `mut` tells whether the array of segments is not shared
at the time of the call (`is_impl_mutable`); `newCap n` is the capacity of an array allocated for `n` segments.

Simplifications: allocations succeed; indexes are natural numbers, with the wrap-around of `uint32_t` written out where it can
happen; the flag that marks a run (`BL_BIT_SET_RANGE_MASK`) is a constructor, and the three unused words of a run are dropped.
-/

namespace Blend2D.BitSet

open Blend2D.BitOps

abbrev Word := BitVec 32

/-- `uint32_t` subtraction. -/
def sub32 (a b : Nat) : Nat := (a + 4294967296 - b) % 4294967296

/-- `uint32_t` wrap-around. -/
def wrap (a : Nat) : Nat := a % 4294967296

/-- `kInvalidIndex`, `bitset.h:21`. -/
def invalidIndex : Nat := 4294967295

/-- `kSSOLastWord`, `bitset_p.h:41-46`. -/
def ssoLastWord : Nat := 134217726

/-- `BLBitSetSegment`, `bitset.h:45-80`. -/
inductive Seg where
  | dense (start : Nat) (data : List Word)
  | range (start stop : Nat)
deriving DecidableEq, Repr

namespace Seg

/-- `all_ones`, `bitset.h:50`. -/
def allOnes : Seg → Bool
  | dense _ _ => false
  | range _ _ => true

/-- `start_word`, `bitset.h:67`. -/
def startWord : Seg → Nat
  | dense s _ => s
  | range s _ => s

/-- `end_word`, `bitset.h:71-75`. -/
def endWord : Seg → Nat
  | dense s _ => s + 4
  | range _ e => e

/-- `start_bit`, `bitset.h:69`. -/
def startBit (g : Seg) : Nat := wrap (g.startWord * 32)

/-- `last_bit`, `bitset.h:78`. -/
def lastBit (g : Seg) : Nat := sub32 (wrap (g.endWord * 32)) 1

end Seg

/-- `BLBitSetCore` and `BLBitSetImpl`: `range` is the in place range, `dense` the in place words and the index of the first one, and
`dyn` the segments, their capacity and the cached cardinality. -/
inductive BS where
  | range (start stop : Nat)
  | dense (word : Nat) (data : List Word)
  | dyn (segs : List Seg) (cap card : Nat)
deriving DecidableEq, Repr

/-- `init_sso_empty`, `bitset.cpp:234-237`. -/
def empty : BS := .range 0 0

/-- `Range::has_index`, `bitset_p.h:134`. -/
def rangeHas (start stop i : Nat) : Bool := decide (sub32 i start < sub32 stop start)

/-- `has_segment_word_index`, `bitset.cpp:367-369`. -/
def segHasWord (g : Seg) (w : Nat) : Bool := rangeHas g.startWord g.endWord w

/-- `lower_bound` with `operator<(BLBitSetSegment, SegmentWordIndex)`, `bitset.cpp:363-365`. -/
def lowerBound (segs : List Seg) (w : Nat) : Option Nat :=
  Algo.lowerBound segs.toArray segs.length w fun g w => decide (g.endWord ≤ w)

/-- `bl_bit_set_has_bit`, `bitset.cpp:1541-1573`. -/
def hasBit (s : BS) (i : Nat) : Option Bool :=
  match s with
  | .range a b => some (rangeHas a b i)
  | .dense w d =>
    if sub32 (i / 32) w < 2 then
      match d[sub32 (i / 32) w]? with
      | none => none
      | some x => some (BitOps.hasBit .msb x (i % 32))
    else some false
  | .dyn segs _ _ => do
    let k ← lowerBound segs (i / 32)
    if k ≥ segs.length then some false
    else
      match segs[k]? with
      | none => none
      | some g =>
        if !segHasWord g (i / 32) then some false
        else
          match g with
          | .range _ _ => some true
          | .dense _ d => BitOps.testBit .msb d (i % 128)

/-- `bit_count`, `bitset.cpp:44-53`, with `pop_count`. -/
def bitCount (d : List Word) : Nat := (d.map fun w => (List.range 32).countP fun i => w.getLsbD i).sum

/-- `SegmentCardinalityAggregator::aggregate`, `bitset.cpp:1875-1880`: what a segment adds to the dense cardinality. -/
def Seg.denseCount : Seg → Nat
  | .dense _ d => bitCount d
  | .range _ _ => 0

/-- `SegmentCardinalityAggregator::aggregate`: what a segment adds to the range cardinality in words. -/
def Seg.rangeWords : Seg → Nat
  | .dense _ _ => 0
  | .range a b => sub32 b a

/-- `SegmentCardinalityAggregator`, `bitset.cpp:1863-1887`. -/
def segsCardinality (segs : List Seg) : Nat :=
  wrap (wrap (segs.map Seg.denseCount).sum + wrap (segs.map Seg.rangeWords).sum * 32)

/-- `bl_bit_set_get_cardinality`, `bitset.cpp:1891-1914`: the result, and the set with the updated cache. -/
def cardinality (s : BS) : Nat × BS :=
  match s with
  | .range a b => (sub32 b a, s)
  | .dense _ d => (bitCount d, s)
  | .dyn segs cap card =>
    if card ≠ 0 then (card, s)
    else (segsCardinality segs, .dyn segs cap (segsCardinality segs))

/-- `bl_bit_set_is_empty`, `bitset.cpp:1466-1486`; `is_sso_empty`, `bitset_p.h:109`. -/
def isEmpty (s : BS) : Bool :=
  match s with
  | .range a b => a == 0 && b == 0
  | .dense _ d => d.all (· == 0)
  | .dyn segs _ card =>
    if card ≠ 0 then false
    else segs.all fun g => match g with | .range _ _ => false | .dense _ d => d.all (· == 0)

/-- The result of `precise_data_analysis`, `bitset.cpp:165-179`. -/
inductive Analysis where
  | empty
  | dense (start stop : Nat)
  | range (start stop : Nat)
deriving DecidableEq, Repr

/-- `precise_data_analysis`, `bitset.cpp:181-230`. -/
def analyze (startWord : Nat) (data : List Word) : Option Analysis :=
  match data.findIdx? (· ≠ 0), data.reverse.findIdx? (· ≠ 0) with
  | some i, some k => do
    let n := data.length - 1 - k
    let x ← data[i]?
    let y ← data[n]?
    let sz := countZerosFromStart .msb x
    let ez := countZerosFromEnd .msb y
    let start := wrap ((startWord + i) * 32 + sz)
    let stop := wrap ((startWord + n) * 32 + 32 - ez)
    if i = n then do
      let m ← startMask .msb 32 (32 - (sz + ez))
      let m ← shiftToEnd .msb m sz
      some (if x = m then .range start stop else .dense start stop)
    else do
      -- `non_zero_end_mask` in the order from the most significant bit
      let mx ← startMask .lsb 32 (32 - sz)
      let my ← startMask .msb 32 (32 - ez)
      if x ≠ mx ∨ y ≠ my then some (.dense start stop)
      else if ((data.take n).drop (i + 1)).all (· == BitVec.allOnes 32) then some (.range start stop)
      else some (.dense start stop)
  | _, _ => some .empty

/-- The loops over the segments of `bl_bit_set_get_range`, `bitset.cpp:1818-1831`. -/
def firstBitSegs : List Seg → Option Nat
  | [] => none
  | .range a b :: _ => some (Seg.range a b).startBit
  | .dense a d :: gs =>
    match firstBit .msb d 0 with
    | some i => some (wrap (i + (Seg.dense a d).startBit))
    | none => firstBitSegs gs

/-- `bitset.cpp:1839-1852`, on the reversed segments. -/
def lastBitSegsRev : List Seg → Option Nat
  | [] => none
  | .range a b :: _ => some (Seg.range a b).lastBit
  | .dense a d :: gs =>
    match BitOps.lastBit .msb d with
    | some i => some (wrap (i + (Seg.dense a d).startBit))
    | none => lastBitSegsRev gs

/-- `bl_bit_set_get_range`, `bitset.cpp:1792-1858`: whether it succeeded, start and end. -/
def getRange (s : BS) : Option (Bool × Nat × Nat) :=
  match s with
  | .range a b => some (true, a, b)
  | .dense w d => do
    match ← analyze w d with
    | .empty => some (false, 0, 0)
    | .dense a b => some (true, a, b)
    | .range a b => some (true, a, b)
  | .dyn segs _ _ =>
    match firstBitSegs segs with
    | none => some (false, 0, 0)
    | some a => some (true, a, wrap ((lastBitSegsRev segs.reverse).getD 0 + 1))

/-- Four zero words. -/
def zeros4 : List Word := [0, 0, 0, 0]

/-- Four words of ones. -/
def ones4 : List Word := List.replicate 4 (BitVec.allOnes 32)

/-- `init_dense_segment_with_range`, `bitset.cpp:385-391`. -/
def denseWithRange (startBit size : Nat) : Option Seg := do
  let d ← fill .msb zeros4 (startBit % 128) size
  some (.dense (startBit / 128 * 4) d)

/-- `init_range_segment`, `bitset.cpp:398-405`: less than two segments give a dense one. -/
def rangeSeg (startWord endWord : Nat) : Seg :=
  if sub32 endWord startWord < 8 then .dense startWord ones4 else .range startWord endWord

/-- `init_segments_from_range`, `bitset.cpp:859-888`. -/
def segsFromRange (startBit endBit : Nat) : Option (List Seg) := do
  let remain := sub32 endBit startBit
  let (l, remain, startBit) ←
    if startBit % 128 ≠ 0 ∨ startBit / 128 = sub32 endBit 1 / 128 then do
      let size := min remain (128 - startBit % 128)
      let g ← denseWithRange startBit size
      some ([g], remain - size, wrap (startBit + size))
    else some ([], remain, startBit)
  if l ≠ [] ∧ remain = 0 then some l
  else do
    let (l, remain, startBit) :=
      if remain ≥ 128 then
        let size := remain / 128 * 128
        (l ++ [rangeSeg (startBit / 32) (wrap (startBit + size) / 32)], remain % 128, wrap (startBit + size))
      else (l, remain, startBit)
    if remain ≠ 0 then do
      let g ← denseWithRange startBit remain
      some (l ++ [g])
    else some l

/-- `segment_count_from_range`, `bitset.cpp:843-857`. -/
def segCountFromRange (startBit endBit : Nat) : Nat :=
  let lastBit := sub32 endBit 1
  let maxSegs := min (sub32 (lastBit / 128) (startBit / 128) + 1) 3
  let collapsed := (if startBit % 128 = 0 then 1 else 0) + (if endBit % 128 = 0 then 1 else 0)
  let collapsed := if collapsed ≥ maxSegs then maxSegs - 1 else collapsed
  maxSegs - collapsed

/-- The loop of `init_segments_from_dense_data`, `bitset.cpp:890-911`. -/
def segsFromWords (wordIndex : Nat) (words : List Word) : List Seg :=
  match words with
  | [] => []
  | w :: ws =>
    let i := wordIndex % 4
    let n := min (4 - i) (ws.length + 1)
    .dense (wordIndex / 4 * 4) (List.replicate i 0 ++ (w :: ws).take n ++ List.replicate (4 - i - n) 0)
      :: segsFromWords (wordIndex + n) ((w :: ws).drop n)
termination_by words.length
decreasing_by simp only [List.length_drop, List.length_cons]; omega

/-- `make_segments_from_sso_bitset`, `bitset.cpp:913-925`. -/
def makeSegs (s : BS) : Option (List Seg) :=
  match s with
  | .range a b => segsFromRange a b
  | .dense w d => some (segsFromWords w d)
  | .dyn _ _ _ => none

/-- `bl_bit_set_clear`, `bitset.cpp:2070-2083`. -/
def clear (s : BS) (mut' : Bool) : BS :=
  match s with
  | .dyn _ cap _ => if mut' then .dyn [] cap 0 else empty
  | _ => empty

/-- `bl_bit_set_assign_range`, `bitset.cpp:1267-1294`; the flag is `BL_SUCCESS`.  Segments behind the capacity are a buffer overflow. -/
def assignRange (s : BS) (mut' : Bool) (a b : Nat) : Option (Bool × BS) :=
  if a ≥ b then if a > b then some (false, s) else some (true, clear s mut')
  else
    match s with
    | .dyn _ cap _ =>
      if mut' && decide (cap ≥ segCountFromRange a b) then do
        let segs ← segsFromRange a b
        if segs.length ≤ cap then some (true, .dyn segs cap 0) else none
      else some (true, .range a b)
    | _ => some (true, .range a b)

/-- `get_sso_word_count_from_data`, `bitset.cpp:247-251`, for two words. -/
def ssoWordCount (d : List Word) : Nat :=
  match d with
  | [x, y] => if y ≠ 0 then 2 else if x ≠ 0 then 1 else 0
  | _ => 0

/-- The segment index used by `add_bit` and `add_range`, `bitset.cpp:2496-2500`, `2680-2685`. -/
def findSeg (segs : List Seg) (w : Nat) : Option Nat :=
  match segs.getLast? with
  | some g =>
    if g.startWord ≤ w then some (segs.length - if g.endWord > w then 1 else 0)
    else lowerBound segs w
  | none => lowerBound segs w

/-- `splice_internal`, `bitset.cpp:1119-1148`. -/
def splice (newCap : Nat → Nat) (s : BS) (mut' : Bool) (segs : List Seg) (index del : Nat) (ins : List Seg) : BS :=
  let res := segs.take index ++ ins ++ segs.drop (index + del)
  match s with
  | .dyn _ cap _ => if mut' && decide (cap ≥ res.length) then .dyn res cap 0 else .dyn res (newCap res.length) 0
  | _ => .dyn res (newCap res.length) 0

/-- The second half of `bl_bit_set_add_bit`, `bitset.cpp:2486-2561`: `mut'` is false if the set was in place. -/
def addBitSegs (newCap : Nat → Nat) (s : BS) (mut' : Bool) (segs : List Seg) (cap : Nat) (bit : Nat) : Option (Bool × BS) := do
  let k ← findSeg segs (bit / 32)
  let insert : Option (Bool × BS) := do
    let d ← setBit .msb zeros4 (bit % 128)
    let g := Seg.dense (bit / 128 * 4) d
    let res := segs.take k ++ [g] ++ segs.drop k
    if mut' && decide (cap > segs.length) then some (true, .dyn res cap 0)
    else some (true, .dyn res (newCap (segs.length + 1)) 0)
  if k < segs.length then
    match segs[k]? with
    | none => none
    | some g =>
      if segHasWord g (bit / 32) then
        match g with
        | .range _ _ => some (true, s)
        | .dense w d => do
          let d' ← setBit .msb d (bit % 128)
          if mut' then some (true, .dyn (segs.set k (.dense w d')) cap 0)
          else
            let b ← testBit .msb d (bit % 128)
            if b then some (true, s)
            else some (true, .dyn (segs.set k (.dense w d')) (newCap segs.length) 0)
      else insert
  else insert

/-- `bl_bit_set_add_bit`, `bitset.cpp:2383-2562`; the flag is `BL_SUCCESS`. -/
def addBit (newCap : Nat → Nat) (s : BS) (mut' : Bool) (bit : Nat) : Option (Bool × BS) :=
  if bit = invalidIndex then some (false, s)
  else
    match s with
    | .range a b =>
      if bit = b then some (true, .range a (wrap (bit + 1)))
      else if wrap (bit + 1) = a then some (true, .range bit b)
      else if a ≥ b then some (true, .range bit (wrap (bit + 1)))
      else if rangeHas a b bit then some (true, s)
      else
        let first := min (min a bit / 32) ssoLastWord
        let last := max (sub32 b 1) bit / 32
        if sub32 last first < 2 then do
          let d ← fill .msb [0, 0] (sub32 a (first * 32)) (sub32 b a)
          let d ← setBit .msb d (sub32 bit (first * 32))
          some (true, .dense first d)
        else do
          let segs ← makeSegs s
          addBitSegs newCap s false segs 0 bit
    | .dense w d =>
      let dynamic : Option (Bool × BS) := do
        match ← analyze w d with
        | .range a b =>
          if bit = b then some (true, .range a (wrap (bit + 1)))
          else if bit = sub32 a 1 then some (true, .range bit b)
          else do
            let segs ← makeSegs s
            addBitSegs newCap s false segs 0 bit
        | _ => do
          let segs ← makeSegs s
          addBitSegs newCap s false segs 0 bit
      if bit / 32 < w + 2 then
        if bit / 32 ≥ w then do
          let d ← setBit .msb d (sub32 bit (w * 32))
          some (true, .dense w d)
        else
          let n := ssoWordCount d
          if bit / 32 + 2 ≥ w + n then do
            -- the copy of `n` words behind `w - bit / 32` zero words
            let m ← indexMask .msb 32 (bit % 32)
            let off := w - bit / 32
            if off + n ≤ 2 then
              match List.replicate off 0 ++ d.take n ++ List.replicate (2 - off - n) 0 with
              | x :: xs => some (true, .dense (bit / 32) ((x ||| m) :: xs))
              | [] => none
            else none
          else dynamic
      else dynamic
    | .dyn segs cap _ => addBitSegs newCap s mut' segs cap bit

/-- `clear_bit` and `clear_range` on in place words after the bits have been cleared, `bitset.cpp:3170-3186`, `3336-3352`. -/
def normalizeSso (w : Nat) (d : List Word) : Option BS :=
  match d with
  | [x, y] =>
    if x ≠ 0 then some (.dense w d)
    else if y = 0 then some empty
    else
      let start := min (w + 1) ssoLastWord
      let shift := sub32 start w
      some (.dense start ((d.drop shift) ++ List.replicate shift 0))
  | _ => none

/-- The second half of `bl_bit_set_clear_bit`, `bitset.cpp:3206-3266`: `mut'` is false if the set was in place. -/
def clearBitSegs (newCap : Nat → Nat) (s : BS) (mut' : Bool) (segs : List Seg) (cap : Nat) (bit : Nat) : Option (Bool × BS) := do
  let k ← lowerBound segs (bit / 32)
  if k ≥ segs.length then some (true, s)
  else
    match segs[k]? with
    | none => none
    | some g =>
      if !segHasWord g (bit / 32) then some (true, s)
      else
        match g with
        | .range a b => do
          let middle := bit / 128 * 4
          let last := middle + 4
          let d ← BitOps.clearBit .msb ones4 (bit % 128)
          let l1 := if a < middle then [if middle - a ≤ 4 then Seg.dense a ones4 else rangeSeg a middle] else []
          let l3 := if last < b then [if b - last ≤ 4 then Seg.dense last ones4 else rangeSeg last b] else []
          some (true, splice newCap s mut' segs k 1 (l1 ++ [.dense middle d] ++ l3))
        | .dense w d => do
          let d ← BitOps.clearBit .msb d (bit % 128)
          if mut' then some (true, .dyn (segs.set k (.dense w d)) cap 0)
          else some (true, .dyn (segs.set k (.dense w d)) (newCap segs.length) 0)

/-- `bl_bit_set_clear_bit`, `bitset.cpp:3114-3266`. -/
def clearBit (newCap : Nat → Nat) (s : BS) (mut' : Bool) (bit : Nat) : Option (Bool × BS) :=
  if bit = invalidIndex then some (false, s)
  else
    match s with
    | .range a b =>
      if !rangeHas a b bit then some (true, s)
      else if bit = a then
        if wrap (bit + 1) = b then some (true, empty) else some (true, .range (wrap (bit + 1)) b)
      else if bit = sub32 b 1 then some (true, .range a bit)
      else
        let first := a / 32
        let last := sub32 b 1 / 32
        if sub32 last first < 2 then do
          let d ← fill .msb [0, 0] (a % 32) (sub32 b a)
          let d ← BitOps.clearBit .msb d (sub32 bit (first * 32))
          some (true, .dense first d)
        else do
          let segs ← makeSegs s
          clearBitSegs newCap s false segs 0 bit
    | .dense w d =>
      if !(decide (sub32 (bit / 32) w < 2)) then some (true, s)
      else do
        let d ← BitOps.clearBit .msb d (sub32 bit (w * 32))
        let s ← normalizeSso w d
        some (true, s)
    | .dyn segs cap _ => clearBitSegs newCap s mut' segs cap bit

/-- `SSODenseInfo::last_bit` for two words, `bitset_p.h:187`. -/
def ssoLastBit (w : Nat) : Nat := sub32 (wrap ((w + 2) * 32)) 1

/-- `StaticSegmentInserter<8>`, `bitset.cpp:55-88`: `current` and `advance`.  Behind the eighth segment is undefined behaviour. -/
def push (ins : List Seg) (g : Seg) : Option (List Seg) := if ins.length < 8 then some (ins ++ [g]) else none

/-- The state of the loops of `bl_bit_set_add_range`: `range_start_bit`, `segment_index`, `insert_index` and the inserted segments.
`range_start_word` is always `range_start_bit / 32` at the head of the loops. -/
structure AddState where
  start : Nat
  index : Nat
  insertIndex : Nat
  ins : List Seg

/-- The loop that skips runs, `bitset.cpp:2688-2716`: `none` if the range to add has been skipped, and the new start of the range
and the segment index otherwise.  The dense segment that can be changed in place is treated by the caller. -/
def skipRuns (segs : List Seg) (endBit : Nat) (start index : Nat) : Nat → Option (Nat × Nat)
  | 0 => some (start, index)
  | fuel + 1 =>
    match segs[index]? with
    | some (.range a b) =>
      if segHasWord (.range a b) (start / 32) then
        if wrap (b * 32) ≥ endBit then none
        else skipRuns segs endBit (wrap (b * 32)) (index + 1) fuel
      else some (start, index)
    | _ => some (start, index)

/-- The discarding of overlapped segments, `bitset.cpp:2761-2762`. -/
def discard (segs : List Seg) (word : Nat) (index : Nat) : Nat → Nat
  | 0 => index
  | fuel + 1 =>
    match segs[index]? with
    | some g => if g.startWord < word then discard segs word (index + 1) fuel else index
    | none => index

/-- `BLBitSetSegment::_set_range_end_word`, `bitset.h:64`, of the last inserted segment. -/
def setLastEnd (ins : List Seg) (stop : Nat) : Option (List Seg) :=
  match ins.getLast? with
  | some (.range a _) => some (ins.dropLast ++ [.range a stop])
  | some (.dense a d) => some (ins.dropLast ++ [.dense a (d.set 0 (BitVec.ofNat 32 stop))])
  | none => none

/-- Whether the segment before `index` is a run that ends at `word`, `bitset.cpp:2738-2741`. -/
def prevRun (segs : List Seg) (index word : Nat) : Option Nat :=
  if index > 0 then
    match segs[index - 1]? with
    | some (.range a b) => if b = word then some a else none
    | _ => none
  else none

/-- The part of the loop from the label `InitRange` on, `bitset.cpp:2753-2775`: the new run starts at `startWord`; the flag says whether
the loop is left. -/
def initRange (segs : List Seg) (endBit : Nat) (startWord insertIndex : Nat) (st : AddState) : Option (Bool × AddState) := do
  let endWord := endBit / 128 * 4
  let ins ← push st.ins (rangeSeg startWord endWord)
  let index := discard segs endWord st.index segs.length
  let next : AddState := { start := wrap (endWord * 32), index, insertIndex, ins }
  if index ≠ 0 then
    match segs[index - 1]? with
    | some (.range _ e) =>
      if e > endWord then do
        let ins ← setLastEnd ins e
        some (true, { next with ins })
      else some (false, next)
    | _ => some (false, next)
  else some (false, next)

/-- One iteration of the main loop, `bitset.cpp:2725-2800`: the flag says whether the loop is left. -/
def addStep (segs : List Seg) (endBit : Nat) (st : AddState) : Option (Bool × AddState) :=
  let size := sub32 endBit st.start
  let dense : Option (Bool × AddState) := do
    let n := min size (128 - st.start % 128)
    let g ← denseWithRange st.start n
    let next (ins : List Seg) (index : Nat) : AddState := { st with start := wrap (st.start + n), index, ins }
    match segs[st.index]? with
    | some h =>
      if segHasWord h (st.start / 32) then
        match h, g with
        | .range _ _, g => do
          let ins ← push st.ins g
          some (true, { st with ins })
        | .dense _ d', .dense a d => do
          let ins ← push st.ins (.dense a (d.zipWith (· ||| ·) d'))
          some (false, next ins (st.index + 1))
        | _, _ => none
      else do
        let ins ← push st.ins g
        some (false, next ins st.index)
    | none => do
      let ins ← push st.ins g
      some (false, next ins st.index)
  if st.start % 128 = 0 ∧ size ≥ 128 then
    match (if st.ins = [] then prevRun segs st.index (st.start / 32) else none) with
    | some a => initRange segs endBit a (st.insertIndex - 1) st
    | none => if size ≥ 256 then initRange segs endBit (st.start / 32) st.insertIndex st else dense
  else dense

/-- The main loop, `bitset.cpp:2724-2806`.  Every iteration inserts a segment, so a ninth iteration is undefined behaviour. -/
def addLoop (segs : List Seg) (endBit : Nat) (st : AddState) : Nat → Option AddState
  | 0 => none
  | fuel + 1 => do
    let (quit, st) ← addStep segs endBit st
    if quit then some st
    else if st.start < endBit then addLoop segs endBit st fuel
    else some st

/-- The end of `bl_bit_set_add_range`, `bitset.cpp:2808-2818`. -/
def addFinish (segs : List Seg) (st : AddState) : Option AddState :=
  match segs[st.index]?, st.ins.getLast? with
  | some (.range a b), some p =>
    if a ≤ p.startWord then do
      let ins ← push st.ins (rangeSeg p.startWord b)
      some { st with ins, index := st.index + 1 }
    else some st
  | _, _ => some st

/-- The second half of `bl_bit_set_add_range`, `bitset.cpp:2676-2821`. -/
def addRangeSegs (newCap : Nat → Nat) (s : BS) (mut' : Bool) (segs : List Seg) (cap : Nat) (start endBit : Nat) : Option (Bool × BS) := do
  let k ← findSeg segs (start / 32)
  match skipRuns segs endBit start k segs.length with
  | none => some (true, s)
  | some (start, k) =>
    let generic : Option (Bool × BS) := do
      let st ← addLoop segs endBit { start, index := k, insertIndex := k, ins := [] } 8
      let st ← addFinish segs st
      some (true, splice newCap s mut' segs st.insertIndex (st.index - st.insertIndex) st.ins)
    match segs[k]? with
    | some (.dense w d) =>
      if segHasWord (.dense w d) (start / 32) && mut' && decide (sub32 endBit 1 / 32 < w + 4) then do
        let d ← fill .msb d (start % 128) (sub32 endBit start)
        some (true, .dyn (segs.set k (.dense w d)) cap 0)
      else generic
    | _ => generic

/-- The in place words with the part of the range that is in them, `bitset.cpp:2650-2661`. -/
def addPart (w : Nat) (d : List Word) (a b : Nat) : Option (List Word) :=
  if max (a / 32) w < min (sub32 b 1 / 32 + 1) (w + 2) then
    let first := max (wrap (w * 32)) a
    let last := min (ssoLastBit w) (sub32 b 1)
    fill .msb d (sub32 first (wrap (w * 32))) (wrap (sub32 last first + 1))
  else some d

/-- `bl_bit_set_add_range`, `bitset.cpp:2568-2821`; the flag is `BL_SUCCESS`. -/
def addRange (newCap : Nat → Nat) (s : BS) (mut' : Bool) (a b : Nat) : Option (Bool × BS) :=
  if a ≥ b then if a > b then some (false, s) else some (true, s)
  else
    let rsw := a / 32
    let rlw := sub32 b 1 / 32
    match s with
    | .range p q =>
      if a ≤ q ∧ b ≥ p then some (true, .range (min a p) (max b q))
      else if p ≥ q then some (true, .range a b)
      else
        let first := min (min rsw (p / 32)) ssoLastWord
        let last := max rlw (sub32 q 1 / 32)
        if sub32 last first < 2 then do
          let d ← fill .msb [0, 0] (sub32 p (first * 32)) (sub32 q p)
          let d ← fill .msb d (sub32 a (first * 32)) (sub32 b a)
          some (true, .dense first d)
        else do
          let segs ← makeSegs s
          addRangeSegs newCap s false segs 0 a b
    | .dense w d =>
      let dynamic : Option (Bool × BS) := do
        let tmp ← addPart w d a b
        let segs ← makeSegs s
        match ← analyze w tmp with
        | .range p q =>
          if a ≤ q ∧ b ≥ p then some (true, .range (min a p) (max b q))
          else addRangeSegs newCap s false segs 0 a b
        | _ => addRangeSegs newCap s false segs 0 a b
      if rlw < w + 2 then
        if rsw ≥ w then do
          let d ← fill .msb d (sub32 a (w * 32)) (sub32 b a)
          some (true, .dense w d)
        else
          let n := ssoWordCount d
          if sub32 rlw rsw < 2 ∧ rlw < w + n then
            -- the copy of `n` words behind `off` words: there are only two in the object
            let off := w - rsw
            if off + n ≤ 2 then do
              let d := List.replicate off 0 ++ d.take n ++ List.replicate (2 - off - n) 0
              let d ← fill .msb d (sub32 a (rsw * 32)) (sub32 b a)
              some (true, .dense rsw d)
            else none
          else dynamic
      else dynamic
    | .dyn segs cap _ => addRangeSegs newCap s mut' segs cap a b

/-- What the loop of `bl_bit_set_clear_range` ends with: the changed words of segment `index`, or the index behind the segments to be
replaced, and the segments that replace them. -/
inductive ClearResult where
  | inPlace (index : Nat) (data : List Word)
  | replace (index : Nat) (ins : List Seg)

/-- A part of a run that is kept, `bitset.cpp:3418-3430`, `3476-3489`. -/
def onesSeg (a b : Nat) : Seg := if b - a ≥ 8 then rangeSeg a b else .dense a ones4

/-- The end of the range to clear in a run that ends at word `b`, `bitset.cpp:3453-3489`: the new start of the range and the inserted segments. -/
def clearStop (b start endBit : Nat) (ins : List Seg) : Option (Nat × List Seg) :=
  let a := endBit / 128 * 4
  if a ≥ b then some (start, ins)
  else if endBit % 128 ≠ 0 ∧ start / 32 ≤ sub32 endBit 1 / 32 then do
    let d ← BitOps.clear .msb ones4 0 (endBit % 128)
    let ins ← push ins (.dense a d)
    if a + 4 ≥ b ∨ sub32 endBit 1 / 32 ≥ b then some (wrap ((a + 4) * 32), ins)
    else do
      let ins ← push ins (onesSeg (a + 4) b)
      some (wrap ((a + 4) * 32), ins)
  else do
    let ins ← push ins (onesSeg a b)
    some (start, ins)

/-- The beginning of the range to clear in a run, `bitset.cpp:3435-3450`; `a` is the first word that is left of the run. -/
def clearStart (a b start endBit : Nat) (ins : List Seg) : Option (Nat × List Seg) :=
  if start % 128 ≠ 0 then do
    let d ← BitOps.clear .msb ones4 (start % 128) (min (128 - start % 128) (sub32 endBit start))
    let ins ← push ins (.dense a d)
    if a ≥ b ∨ sub32 endBit 1 / 32 ≥ b then some (wrap (a * 32), ins) else clearStop b (wrap (a * 32)) endBit ins
  else clearStop b start endBit ins

/-- The segments of a run that is cut, `bitset.cpp:3396-3490`: the new start of the range and the inserted segments. -/
def clearRun (a b start endBit : Nat) (ins : List Seg) : Option (Nat × List Seg) :=
  let w := start / 128 * 4
  if a < w then do
    let ins ← push ins (onesSeg a w)
    clearStart w b start endBit ins
  else clearStart a b start endBit ins

/-- The loop of `bl_bit_set_clear_range`, `bitset.cpp:3381-3514`, over the segments from `index` on. -/
def clearLoop (mut' : Bool) (insertIndex endBit : Nat) : List Seg → (index start : Nat) → (ins : List Seg) → Option ClearResult
  | [], index, _, ins => some (.replace index ins)
  | g :: gs, index, start, ins =>
    let lastWord := sub32 endBit 1 / 32
    if start / 32 < g.startWord ∧ g.startWord > lastWord then some (.replace index ins)
    else
      let start := if start / 32 < g.startWord then g.startBit else start
      if lastWord ≥ g.endWord ∧ start = g.startBit then clearLoop mut' insertIndex endBit gs (index + 1) start ins
      else
        match g with
        | .range a b => do
          let (start, ins) ← clearRun a b start endBit ins
          clearLoop mut' insertIndex endBit gs (index + 1) start ins
        | .dense w d =>
          if lastWord < w + 4 ∧ mut' = true ∧ insertIndex = index ∧ ins = [] then do
            let d ← BitOps.clear .msb d (start % 128) (sub32 endBit start)
            some (.inPlace index d)
          else do
            let n := if lastWord < w + 4 then sub32 endBit start else 128 - start % 128
            let d ← BitOps.clear .msb d (start % 128) n
            let ins ← push ins (.dense w d)
            clearLoop mut' insertIndex endBit gs (index + 1) start ins

/-- The second half of `bl_bit_set_clear_range`, `bitset.cpp:3363-3517`. -/
def clearRangeSegs (newCap : Nat → Nat) (s : BS) (mut' : Bool) (segs : List Seg) (cap : Nat) (a b : Nat) : Option (Bool × BS) := do
  let k ← lowerBound segs (a / 32)
  if k ≥ segs.length then some (true, s)
  else
    match ← clearLoop mut' k b (segs.drop k) k a [] with
    | .inPlace i d =>
      match segs[i]? with
      | some (.dense w _) => some (true, .dyn (segs.set i (.dense w d)) cap 0)
      | _ => none
    | .replace i ins => some (true, splice newCap s mut' segs k (i - k) ins)

/-- `bl_bit_set_clear_range`, `bitset.cpp:3270-3517`. -/
def clearRange (newCap : Nat → Nat) (s : BS) (mut' : Bool) (a b : Nat) : Option (Bool × BS) :=
  if a ≥ b then if a > b then some (false, s) else some (true, s)
  else
    match s with
    | .range p q =>
      let x := max p a
      let y := min q b
      if x ≥ y then some (true, s)
      else if x = p then if y = q then some (true, empty) else some (true, .range y q)
      else if y = q then some (true, .range p x)
      else
        let first := p / 32
        let last := sub32 q 1 / 32
        if sub32 first last < 2 then do
          let d ← fill .msb [0, 0] (p % 32) (sub32 q p)
          let d ← BitOps.clear .msb d (sub32 x (first * 32)) (sub32 y x)
          some (true, .dense first d)
        else do
          let segs ← makeSegs s
          clearRangeSegs newCap s false segs 0 a b
    | .dense w d =>
      let x := max a (wrap (w * 32))
      let y := min (sub32 b 1) (ssoLastBit w)
      if x > y then some (true, s)
      else do
        let d ← BitOps.clear .msb d (sub32 x (wrap (w * 32))) (wrap (sub32 y x + 1))
        let s ← normalizeSso w d
        some (true, s)
    | .dyn segs cap _ => clearRangeSegs newCap s mut' segs cap a b

/-- The loop over the words of a segment in `bl_bit_set_has_bits_in_range`, `bitset.cpp:1655-1664`: `none` inside if all are zero. -/
def hitWords (start : Nat) (d : List Word) (endWord endBit : Nat) : Nat → Nat → Option (Option Bool)
  | 0, _ => some none
  | n + 1, cur =>
    match d[cur - start]? with
    | none => none
    | some x =>
      if x ≠ 0 then
        match startMask .msb 32 (if cur + 1 ≠ endWord then 32 else sub32 endBit 1 % 32 + 1) with
        | none => none
        | some m => some (some (x &&& m != 0))
      else hitWords start d endWord endBit n (cur + 1)

/-- `n` words of a segment in `bl_bit_set_has_bits_in_range`, `bitset.cpp:1650-1666`; `rest` is the loop over the following segments. -/
def hitInside (endWord endBit : Nat) (g : Seg) (n cur : Nat) (rest : Nat → Option Bool) : Option Bool :=
  match g with
  | .range _ _ => some true
  | .dense s d =>
    match hitWords s d endWord endBit n cur with
    | none => none
    | some (some r) => some r
    | some none => rest (cur + n)

/-- One segment in `bl_bit_set_has_bits_in_range`, `bitset.cpp:1645-1666`. -/
def hitStep (endWord endBit : Nat) (g : Seg) (cur : Nat) (rest : Nat → Option Bool) : Option Bool :=
  if max g.startWord cur ≥ endWord then some false
  else if sub32 (min g.endWord endWord) (max g.startWord cur) ≠ 0 then
    hitInside endWord endBit g (sub32 (min g.endWord endWord) (max g.startWord cur)) (max g.startWord cur) rest
  else rest (max g.startWord cur)

/-- The loop over the segments in `bl_bit_set_has_bits_in_range`, `bitset.cpp:1644-1667`. -/
def hitSegs (endWord endBit : Nat) : List Seg → Nat → Option Bool
  | [], _ => some false
  | g :: gs, cur => hitStep endWord endBit g cur (hitSegs endWord endBit gs)

/-- The first word of the range in a dense segment, `bitset.cpp:1632-1639`; `n` is the number of bits of the range. -/
def hitFirst (s : Nat) (d : List Word) (startBit n cur : Nat) : Option Bool := do
  let x ← d[cur - s]?
  let m ← startMask .msb 32 (min (32 - startBit % 32) n)
  let m ← shiftToEnd .msb m (startBit % 32)
  some (x &&& m != 0)

/-- `bitset.cpp:1625-1669`: the first word on its own, then the loops. -/
def hasBitsFrom (segs : List Seg) (startBit endBit cur endWord : Nat) : Option Bool :=
  match segs with
  | [] => none
  | .range s e :: gs => if segHasWord (.range s e) cur then some true else hitSegs endWord endBit (.range s e :: gs) cur
  | .dense s d :: gs =>
    if segHasWord (.dense s d) cur then do
      let hit ← hitFirst s d startBit (sub32 endBit startBit) cur
      if hit then some true
      else if cur + 1 ≥ endWord then some false
      else hitSegs endWord endBit (.dense s d :: gs) (cur + 1)
    else hitSegs endWord endBit (.dense s d :: gs) cur

/-- The in place words in `bl_bit_set_has_bits_in_range`, `bitset.cpp:1594-1611`: `start` and `last` have been clamped. -/
def hasBitsDense (w : Nat) (d : List Word) (start last : Nat) : Option Bool :=
  if start > last then some false
  else
    let cur := start / 32
    hasBitsFrom [.dense cur ((d.drop (cur - w)).take (w + 2 - cur) ++ List.replicate (4 - (w + 2 - cur)) 0)] start (wrap (last + 1)) cur (last / 32 + 1)

/-- The segments in `bl_bit_set_has_bits_in_range`, `bitset.cpp:1613-1623`. -/
def hasBitsDyn (segs : List Seg) (a b : Nat) : Option Bool := do
  let k ← lowerBound segs (a / 32)
  match segs[k]? with
  | none => some false
  | some g => if (b - 1) / 32 + 1 ≤ g.startWord then some false else hasBitsFrom (segs.drop k) a b (a / 32) ((b - 1) / 32 + 1)

/-- `bl_bit_set_has_bits_in_range`, `bitset.cpp:1575-1670`. -/
def hasBitsInRange (s : BS) (a b : Nat) : Option Bool :=
  if a ≥ b then some false
  else
    match s with
    | .range p q => some (decide (max p a < min q b))
    | .dense w d => hasBitsDense w d (max a (wrap (w * 32))) (min (b - 1) (ssoLastBit w))
    | .dyn segs _ _ => hasBitsDyn segs a b

/-- `bl_bit_set_get_data`, `bitset.cpp:1488-1503`. -/
def getData (s : BS) : Option (List Seg) :=
  match s with
  | .dyn segs _ _ => some segs
  | .range a b => segsFromRange a b
  | .dense w d => some (segsFromWords w d)

/-- `BLBitSetWordIterator`, `bitset.h:595-606`: the segments from `_segment_ptr` on and `_word_index`. -/
structure WordIter where
  segs : List Seg
  word : Nat
deriving DecidableEq, Repr

/-- `BLBitSetWordIterator::reset`, `bitset.h:640-645`. -/
def WordIter.init (s : BS) : Option WordIter := do
  let segs ← getData s
  match segs with
  | [] => some ⟨[], 4294967295⟩
  | g :: gs => some ⟨g :: gs, sub32 g.startWord 1⟩

/-- The loop over the words of a dense segment in `next_word`, `bitset.h:668-673`. -/
def scanDense (d : List Word) : Nat → Nat → Option (Option (Word × Nat))
  | 0, _ => some none
  | n + 1, w =>
    match d[w % 4]? with
    | none => none
    | some x => if x ≠ 0 then some (some (x, w)) else scanDense d n (w + 1)

/-- `_word_index` when the next segment is entered, `bitset.h:676-678`. -/
def nextStart (gs : List Seg) (w : Nat) : Nat :=
  match gs with
  | [] => w
  | g :: _ => g.startWord

/-- The loop of `next_word`, `bitset.h:661-679`. -/
def nextLoop : List Seg → Nat → Option (Word × List Seg × Nat)
  | [], w => some (0, [], w)
  | .range s e :: gs, w => if w < e then some (BitVec.allOnes 32, .range s e :: gs, w) else nextLoop gs (nextStart gs w)
  | .dense s d :: gs, w =>
    match scanDense d (s + 4 - w) w with
    | none => none
    | some (some (x, w')) => some (x, .dense s d :: gs, w')
    | some none => nextLoop gs (nextStart gs (max w (s + 4)))

/-- `BLBitSetWordIterator::next_word`, `bitset.h:656-680`. -/
def WordIter.next (it : WordIter) : Option (Word × WordIter) :=
  match it.segs with
  | [] => some (0, it)
  | _ :: _ => (nextLoop it.segs (wrap (it.word + 1))).map fun r => (r.1, ⟨r.2.1, r.2.2⟩)

end Blend2D.BitSet
