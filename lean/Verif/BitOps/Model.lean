/-!
# Bit vectors stored in words (`support/bitops_p.h`)

`ParametrizedBitOps<kBO, T>` is used by bit arrays, bit sets, the rasterizer's bit masks
and the zeroed memory allocator, with both bit orders and with 32-bit and 64-bit words.
The model is parametric in the bit order and in the number `N` of bits of a word.

An access outside of the buffer, an iterator step without a next bit and a shift by the
word size or more (undefined behaviour in C++) are `none`.

Simplification: `count_zeros_from_start` / `count_zeros_from_end` (machine instructions
`tzcnt`/`lzcnt`/…) are given by the position of the first/last bit.
-/

namespace Blend2D.BitOps

/-- `BitOrder`, `bitops_p.h:23-32`. -/
inductive Order
  | lsb
  | msb
deriving DecidableEq, Repr

variable {N : Nat}

/-- `has_bit`, `bitops_p.h:134-137`. -/
def hasBit (o : Order) (x : BitVec N) (i : Nat) : Bool :=
  match o with
  | .lsb => x.getLsbD i
  | .msb => x.getMsbD i

/-- `shift_to_end`, `bitops_p.h:144-147`. -/
def shiftToEnd (o : Order) (x : BitVec N) (k : Nat) : Option (BitVec N) :=
  if k < N then
    match o with
    | .lsb => some (x <<< k)
    | .msb => some (x >>> k)
  else none

/-- `non_zero_start_mask`, `bitops_p.h:149-152`: `non_zero_lsb_mask` is
`shr(all_ones, N - count)` and `non_zero_msb_mask` is `sar(1 << (N - 1), count - 1)`,
`intops_p.h:261-271`. -/
def startMask (o : Order) (N count : Nat) : Option (BitVec N) :=
  if 0 < count ∧ count ≤ N then
    match o with
    | .lsb => some (BitVec.allOnes N >>> (N - count))
    | .msb => some ((1#N <<< (N - 1)).sshiftRight (count - 1))
  else none

/-- `index_as_mask(index)`, `bitops_p.h:169-172`. -/
def indexMask (o : Order) (N i : Nat) : Option (BitVec N) :=
  if i < N then
    match o with
    | .lsb => some (1#N <<< i)
    | .msb => some ((1#N <<< (N - 1)) >>> i)
  else none

/-- Position of the first bit at or after `i`, `i + fuel = N`. -/
def firstFrom (o : Order) (x : BitVec N) (i : Nat) : Nat → Nat
  | 0 => i
  | fuel + 1 => if hasBit o x i then i else firstFrom o x (i + 1) fuel

/-- `count_zeros_from_start`, `bitops_p.h:179-181`. -/
def countZerosFromStart (o : Order) (x : BitVec N) : Nat := firstFrom o x 0 N

/-- The number of zero bits after the last bit. -/
def zerosFromEnd (o : Order) (x : BitVec N) : Nat → Nat
  | 0 => 0
  | k + 1 => if hasBit o x k then 0 else zerosFromEnd o x k + 1

/-- `count_zeros_from_end`, `bitops_p.h:183-185`. -/
def countZerosFromEnd (o : Order) (x : BitVec N) : Nat := zerosFromEnd o x N

/-- `bit_array_test_bit`, `bitops_p.h:194-199`. -/
def testBit (o : Order) (buf : List (BitVec N)) (i : Nat) : Option Bool := do
  let w ← buf[i / N]?
  let m ← indexMask o N (i % N)
  some ((w &&& m) != 0)

/-- `bit_array_set_bit`, `bitops_p.h:201-206`. -/
def setBit (o : Order) (buf : List (BitVec N)) (i : Nat) : Option (List (BitVec N)) := do
  let w ← buf[i / N]?
  let m ← indexMask o N (i % N)
  some (buf.set (i / N) (w ||| m))

/-- `bit_array_clear_bit`, `bitops_p.h:215-220`. -/
def clearBit (o : Order) (buf : List (BitVec N)) (i : Nat) : Option (List (BitVec N)) := do
  let w ← buf[i / N]?
  let m ← indexMask o N (i % N)
  some (buf.set (i / N) (w &&& ~~~m))

/-- The loop over full words in `bit_array_op`, `bitops_p.h:241-245`: the buffer, the word
index and the remaining count after it. -/
def fullLoop (fullOp : BitVec N → BitVec N → BitVec N) :
    Nat → List (BitVec N) → Nat → Nat → Option (List (BitVec N) × Nat × Nat)
  | 0, buf, w, count => if count ≥ N then none else some (buf, w, count)
  | fuel + 1, buf, w, count =>
    if count ≥ N then
      match buf[w]? with
      | none => none
      | some x => fullLoop fullOp fuel (buf.set w (fullOp x (BitVec.allOnes N))) (w + 1) (count - N)
    else some (buf, w, count)

/-- `bit_array_op<BitOp, FullOp>`, `bitops_p.h:222-252`. -/
def arrayOp (o : Order) (bitOp fullOp : BitVec N → BitVec N → BitVec N) (buf : List (BitVec N))
    (index count : Nat) : Option (List (BitVec N)) :=
  if count = 0 then some buf
  else do
    let w := index / N
    let b := index % N
    let n := min (N - b) count
    let m ← startMask o N n
    let m ← shiftToEnd o m b
    let x ← buf[w]?
    let buf := buf.set w (bitOp x m)
    let count := count - n
    if count = 0 then some buf
    else do
      let (buf, w, count) ← fullLoop fullOp (buf.length + 1) buf (w + 1) count
      if count = 0 then some buf
      else do
        let m ← startMask o N count
        let x ← buf[w]?
        some (buf.set w (bitOp x m))

/-- `bit_array_fill`, `bitops_p.h:261-263` (operators `Or` and `Assign`, `37-44`, `81-88`). -/
def fill (o : Order) (buf : List (BitVec N)) (index count : Nat) : Option (List (BitVec N)) :=
  arrayOp o (fun a b => a ||| b) (fun _ b => b) buf index count

/-- `bit_array_clear`, `bitops_p.h:270-272` (operators `AndNot` and `AssignNot`). -/
def clear (o : Order) (buf : List (BitVec N)) (index count : Nat) : Option (List (BitVec N)) :=
  arrayOp o (fun a b => a &&& ~~~b) (fun _ b => ~~~b) buf index count

/-- `bit_array_first_bit`, `bitops_p.h:278-290`; `i` counts the words already seen. -/
def firstBit (o : Order) : List (BitVec N) → Nat → Option Nat
  | [], _ => none
  | w :: ws, i => if w ≠ 0 then some (countZerosFromStart o w + i * N) else firstBit o ws (i + 1)

/-- `bit_array_last_bit`, `bitops_p.h:292-305`, on the reversed buffer; `i` is the index of
the word at the head plus one. -/
def lastBitRev (o : Order) : List (BitVec N) → Nat → Option Nat
  | [], _ => none
  | w :: ws, i => if w ≠ 0 then some ((N - 1 - countZerosFromEnd o w) + (i - 1) * N) else lastBitRev o ws (i - 1)

/-- `bit_array_last_bit`. -/
def lastBit (o : Order) (buf : List (BitVec N)) : Option Nat := lastBitRev o buf.reverse buf.length

/-- `BitVectorIterator` and `BitVectorFlipIterator` (`xor_mask` is zero in the former),
`bitops_p.h:369-493`. -/
structure Iter (N : Nat) where
  ptr : Nat
  idx : Nat
  «end» : Nat
  current : BitVec N
  mask : BitVec N
deriving DecidableEq, Repr

/-- The loop `while (!bit_word && (idx += kNumBits) < end) bit_word = *ptr++ ^ xor_mask`:
`ptr`, `idx` and the word after it. -/
def scan (data : List (BitVec N)) (mask : BitVec N) («end» : Nat) :
    Nat → Nat → Nat → BitVec N → Option (Nat × Nat × BitVec N)
  | 0, _, _, _ => none
  | fuel + 1, ptr, idx, word =>
    if word ≠ 0 then some (ptr, idx, word)
    else if idx + N < «end» then
      match data[ptr]? with
      | none => none
      | some w => scan data mask «end» fuel (ptr + 1) (idx + N) (w ^^^ mask)
    else some (ptr, idx + N, word)

/-- `init`, `bitops_p.h:380-398`, `430-449`. -/
def Iter.init (o : Order) (data : List (BitVec N)) (numWords start : Nat) (mask : BitVec N) :
    Option (Iter N) :=
  let ptr := start / N
  let idx := start / N * N
  let e := numWords * N
  if idx < e then do
    let m ← shiftToEnd o (BitVec.allOnes N) (start % N)
    let w ← data[ptr]?
    let (ptr, idx, word) ← scan data mask e (data.length + 2) (ptr + 1) idx ((w ^^^ mask) &&& m)
    some ⟨ptr, idx, e, word, mask⟩
  else some ⟨ptr, idx, e, 0, mask⟩

/-- `has_next`. -/
def Iter.hasNext (it : Iter N) : Bool := it.current != 0

/-- `peek_next`, `bitops_p.h:483-486`. -/
def Iter.peekNext (o : Order) (it : Iter N) : Option Nat :=
  if it.current = 0 then none else some (it.idx + countZerosFromStart o it.current)

/-- `next`, `bitops_p.h:404-416`, `454-466`. -/
def Iter.next (o : Order) (data : List (BitVec N)) (it : Iter N) : Option (Nat × Iter N) :=
  if it.current = 0 then none
  else do
    let cnt := countZerosFromStart o it.current
    let m ← indexMask o N cnt
    let (ptr, idx, word) ← scan data it.mask it.end (data.length + 2) it.ptr it.idx (it.current ^^^ m)
    some (it.idx + cnt, ⟨ptr, idx, it.end, word, it.mask⟩)

/-- `next_and_flip`, `bitops_p.h:468-481`. -/
def Iter.nextAndFlip (o : Order) (data : List (BitVec N)) (it : Iter N) : Option (Nat × Iter N) :=
  if it.current = 0 then none
  else do
    let cnt := countZerosFromStart o it.current
    let m ← shiftToEnd o (BitVec.allOnes N) cnt
    let mask := it.mask ^^^ BitVec.allOnes N
    let (ptr, idx, word) ← scan data mask it.end (data.length + 2) it.ptr it.idx (it.current ^^^ m)
    some (it.idx + cnt, ⟨ptr, idx, it.end, word, mask⟩)

/-- A loop `while (it.has_next()) out.push(it.next())` with at most `fuel` rounds. -/
def Iter.collect (o : Order) (data : List (BitVec N)) : Nat → Iter N → Option (List Nat)
  | 0, it => if it.hasNext then none else some []
  | fuel + 1, it =>
    if it.hasNext then do
      let (i, it') ← it.next o data
      let rest ← it'.collect o data fuel
      some (i :: rest)
    else some []

/-- A loop `while (it.has_next()) out.push(it.next_and_flip())` with at most `fuel` rounds. -/
def Iter.collectFlips (o : Order) (data : List (BitVec N)) : Nat → Iter N → Option (List Nat)
  | 0, it => if it.hasNext then none else some []
  | fuel + 1, it =>
    if it.hasNext then do
      let (i, it') ← it.nextAndFlip o data
      let rest ← it'.collectFlips o data fuel
      some (i :: rest)
    else some []

end Blend2D.BitOps
