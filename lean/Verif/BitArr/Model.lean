import Verif.Arr.Model
import Verif.BitOps.Model
/-!
# `BLBitArray` (`blend2d/core/bitarray.cpp`, `bitarray_p.h`, `bitarray.h`)

A bit array is stored in place (up to three words, 96 bits) or in a reference counted impl.  Bit 0 is the most
significant bit of word 0 (`BitArrayOps = ParametrizedBitOps<BitOrder::kMSB, uint32_t>`, `bitarray_p.h:26`).

Of an impl's buffer the model has the words that are in use (`size` bits); the further ones, up to the capacity, are
only counted, because what they contain is stale or uninitialised.  Reading or writing a word that is not in use,
using a freed impl and shifting by 32 or more are undefined behaviour, modelled by `none`.

Simplifications: 64-bit target; a new impl is filled before it enters the heap; an operation that leaves
uninitialised words *in use* is `none` at once (in the C++ program: as soon as the bits are used); `PopCounter` is the
number of set bits; an append that makes a bit array larger than 2³² - 1 bits without an error being reported is
`none`.  Allocation is an oracle: `ok = false` makes `malloc` fail.
-/
namespace Blend2D.BitArr
open Cow
open Blend2D.BitOps (hasBit shiftToEnd startMask)
open Blend2D.Arr (Result expand)

/-- `BitWord`. -/
abbrev W := BitVec 32

/-- Size in bits, the words in use, and the words there is memory for (`BLBitArrayImpl`, `bitarray.h:29-50`;
`BitData`, `bitarray_p.h:76-79`). -/
structure Data where
  size : Nat
  words : List W
  room : Nat
  deriving DecidableEq, Repr

abbrev Wld := World Data Data

/-- `kSSOWordCapacity` (`bitarray.cpp:15`, `bitarray.h:109-112`). -/
def ssoWords : Nat := 3

/-- `kSSOBitCapacity` (`bitarray.cpp:16`). -/
def ssoBits : Nat := ssoWords * 32

/-- `word_count_from_bit_count` (`bitarray.cpp:21-24`). -/
def wordCount (n : Nat) : Nat := (n + 31) / 32

/-- `bit_count_from_word_count` (`bitarray.cpp:26-28`). -/
def bitCount (n : Nat) : Nat := min (n * 32) (2 ^ 32 - 1)

/-- `capacity()`, in bits (`init_dynamic`, `bitarray.cpp:66`; `get_capacity`, `bitarray_p.h:112-114`). -/
def Data.cap (d : Data) : Nat := bitCount d.room

/-- `init_sso` (`bitarray.cpp:46-49`). -/
def initSso (size : Nat) : Data := ⟨size, List.replicate ssoWords 0, ssoWords⟩

/-- The words an impl of the expanded size has (`expand_impl_size`, `word_capacity_from_impl_size`,
`impl_size_from_word_capacity`, `bitarray.cpp:30-40`, `sizeof(BLBitArrayImpl) = 8`). -/
def expandWords (n : Nat) : Nat := (expand (8 + n * 4) - 8) / 4

/-- `unpack` (`bitarray_p.h:85-93`). -/
def unpack (w : Wld) : Core Data → Option Data
  | .sso s => some s
  | .dyn a => (w.block? a).map (fun b => b.val)

def isSso : Core Data → Bool
  | .sso _ => true
  | .dyn _ => false

/-- The stores to variable `i`'s own words and size become visible. -/
def commit (w : Wld) (i : Nat) (d : Data) : Option Wld := do
  let v ← w.vars[i]?
  match v with
  | .sso _ => return w.setVar i (.sso d)
  | .dyn a => do
    let _ ← w.block? a
    return w.setVal a d

/-- `replace_instance(self, &newO)` (`bitarray_p.h:62-69`) with a new impl (`init_dynamic`, `bitarray.cpp:59-70`). -/
def install (w : Wld) (i : Nat) (d : Data) : Option Wld :=
  let (c, w) := w.alloc 1 d
  w.replace i c

/-- The words in use of a new impl with room for `room` words: `src` copied to its beginning, zeros up to `n` bits.
Undefined if they do not fit. -/
def fresh (src : List W) (n room : Nat) : Option Data :=
  if src.length ≤ room ∧ wordCount n ≤ room then
    if src.length ≤ wordCount n then some ⟨n, src ++ List.replicate (wordCount n - src.length) 0, room⟩ else none
  else none

/-- The first `n` words in use. -/
def takeWords (d : Data) (n : Nat) : Option (List W) :=
  if n ≤ d.words.length then some (d.words.take n) else none

/-- `bl_bit_array_reset` (`bitarray.cpp:279-285`). -/
def reset (w : Wld) (i : Nat) : Option (Result × Wld) := do
  let w ← w.replace i (.sso (initSso 0))
  return (.success, w)

/-- `make_mutable_for_modify_op` (`bitarray.cpp:75-108`).  A shared bit array gets a new instance, the bits are *not*
copied: all of them are zero if the new instance is in place, uninitialised otherwise. -/
def makeModify (ok : Bool) (w : Wld) (i start : Nat) : Option (Result × Wld) := do
  let v ← w.vars[i]?
  let d ← unpack w v
  if start ≥ d.size then return (.invalidValue, w)
  else
    let m ← w.isMutable v
    if m then return (.success, w)
    else if d.size ≤ ssoBits then do
      let w ← w.replace i (.sso (initSso d.size))
      return (.success, w)
    else if ok then none
    else return (.outOfMemory, w)

/-- `make_mutable_for_append_op` (`bitarray.cpp:111-172`). -/
def makeAppend (ok : Bool) (w : Wld) (i n : Nat) : Option (Result × Wld) := do
  let v ← w.vars[i]?
  let d ← unpack w v
  let m ← w.isMutable v
  if isSso v then
    if n ≤ ssoBits - d.size then do
      let w ← commit w i { d with size := d.size + n }
      return (.success, w)
    else if n > 2 ^ 32 - 1 - d.size then return (.outOfMemory, w)
    else grow d
  else
    if n ≤ (if m then d.cap - d.size else 0) then do
      let size := d.size + n
      let d ← fresh d.words size d.room
      let w ← commit w i d
      return (.success, w)
    else grow d
where
  /-- `bitarray.cpp:153-171`. -/
  grow (d : Data) : Option (Result × Wld) :=
    if ok then
      if d.size + n < 2 ^ 32 then do
        let ws ← takeWords d (wordCount d.size)
        let x ← fresh ws (d.size + n) (expandWords (wordCount (d.size + n)))
        let w ← install w i x
        return (.success, w)
      else none
    else return (.outOfMemory, w)

/-- `Or`, `AndNot` and `Assign` (`bitops_p.h:42-48, 66-72, 82-88`). -/
inductive Comb where
  | or
  | andNot
  | assign
  deriving DecidableEq, Repr

/-- `BitOp::op`. -/
def Comb.op : Comb → W → W → W
  | .or, a, b => a ||| b
  | .andNot, a, b => a &&& ~~~b
  | .assign, _, b => b

/-- `BitOp::op_masked`. -/
def Comb.opMasked : Comb → W → W → W → W
  | .or, a, b, m => a ||| (b &&& m)
  | .andNot, a, b, m => a &&& ~~~(b &&& m)
  | .assign, a, b, m => (a &&& ~~~m) ||| (b &&& m)

/-- `shift_to_start` (`bitops_p.h:139-142`) in the MSB order. -/
def shiftToStart (x : W) (k : Nat) : Option W := if k < 32 then some (x <<< k) else none

/-- `non_zero_end_mask` (`bitops_p.h:161-164`) in the MSB order: `non_zero_lsb_mask`. -/
def endMask (n : Nat) : Option W := if 0 < n ∧ n ≤ 32 then some (BitVec.allOnes 32 >>> (32 - n)) else none

/-- `non_zero_start_mask(count, index)` (`bitops_p.h:156-159`). -/
def startMaskAt (count index : Nat) : Option W := do
  let m ← startMask .msb 32 count
  shiftToEnd .msb m index

/-- `bit_array_combine_words` (`bitops_p.h:256-260`) from word `k` of `dst` and word `i` of `src`. -/
def combineWords (c : Comb) (dst src : List W) (k i : Nat) : Nat → Option (List W)
  | 0 => some dst
  | n + 1 => do
    let x ← dst[k]?
    let y ← src[i]?
    combineWords c (dst.set k (c.op x y)) src (k + 1) (i + 1) n

/-- The loop over the guaranteed words (`bitarray.cpp:215-224`): the words, and the last source word read. -/
def combineLoop (c : Comb) (src : List W) (shift inv : Nat) (dst : List W) (w : W) (k i : Nat) : Nat → Option (List W × W)
  | 0 => some (dst, w)
  | n + 1 => do
    let prev ← shiftToStart w inv
    let w ← src[i]?
    let y ← shiftToEnd .msb w shift
    let x ← dst[k + i]?
    combineLoop c src shift inv (dst.set (k + i) (c.op x (prev ||| y))) w k (i + 1) n

/-- The last word (`bitarray.cpp:226-236`), with `count` bits. -/
def combineLast (c : Comb) (src : List W) (shift inv : Nat) (dst : List W) (w : W) (k i count : Nat) : Option (List W) := do
  let y ← shiftToStart w inv
  let y ← (if inv < count then do
    let w ← src[i]?
    let z ← shiftToEnd .msb w shift
    return y ||| z
  else some y)
  let m ← startMask .msb 32 count
  let x ← dst[k + i]?
  return dst.set (k + i) (c.opMasked x y m)

/-- `combine_word_data` (`bitarray.cpp:177-237`): `d` has `size` bits. -/
def combine (c : Comb) (size : Nat) (dst : List W) (index : Nat) (src : List W) : Option (List W) :=
  let bitEnd := index + min (src.length * 32) (size - index)
  let bits := bitEnd - index
  let k := index / 32
  let shift := index % 32
  if shift = 0 then
    let n := min (wordCount bits) src.length
    let endBits := bitEnd % 32
    let last := n - (if endBits ≠ 0 then 1 else 0)
    do
      let dst ← combineWords c dst src k 0 last
      if endBits ≠ 0 then do
        let x ← dst[k + last]?
        let y ← src[last]?
        let m ← startMask .msb 32 endBits
        return dst.set (k + last) (c.opMasked x y m)
      else return dst
  else do
    let w ← src[0]?
    let inv := 32 - shift
    let y ← shiftToEnd .msb w shift
    let x ← dst[k]?
    if bits ≤ inv then do
      let m ← startMaskAt bits shift
      return dst.set k (c.opMasked x y m)
    else do
      let m ← endMask inv
      let dst := dst.set k (c.opMasked x y m)
      let bits := bits - inv
      let (dst, w) ← combineLoop c src shift inv dst w k 1 (bits / 32)
      if bits % 32 = 0 then return dst
      else combineLast c src shift inv dst w k (1 + bits / 32) (bits % 32)

/-- A change of the words of a bit array that was made mutable. -/
def onWords (w : Wld) (i : Nat) (f : Nat → List W → Option (List W)) : Option Wld := do
  let v ← w.vars[i]?
  let d ← unpack w v
  let ws ← f d.size d.words
  commit w i { d with words := ws }

/-- `BL_PROPAGATE(make_mutable_for_modify_op(…))` and the change. -/
def modifyWith (ok : Bool) (w : Wld) (i start : Nat) (f : Nat → List W → Option (List W)) : Option (Result × Wld) := do
  let (r, w) ← makeModify ok w i start
  if r = .success then do
    let w ← onWords w i f
    return (r, w)
  else return (r, w)

/-- `bl_bit_array_set_bit` (`bitarray.cpp:757-766`). -/
def setBit (ok : Bool) (w : Wld) (i bit : Nat) : Option (Result × Wld) :=
  modifyWith ok w i bit (fun _ ws => BitOps.setBit .msb ws bit)

/-- `bl_bit_array_clear_bit` (`bitarray.cpp:798-807`). -/
def clearBit (ok : Bool) (w : Wld) (i bit : Nat) : Option (Result × Wld) :=
  modifyWith ok w i bit (fun _ ws => BitOps.clearBit .msb ws bit)

/-- `bl_bit_array_replace_bit` (`bitarray.cpp:896-904`). -/
def replaceBit (ok : Bool) (w : Wld) (i bit : Nat) (x : Bool) : Option (Result × Wld) :=
  if x then setBit ok w i bit else clearBit ok w i bit

/-- `bl_bit_array_fill_range` (`bitarray.cpp:768-782`). -/
def fillRange (ok : Bool) (w : Wld) (i a b : Nat) : Option (Result × Wld) :=
  if a ≥ b then some (.invalidValue, w)
  else modifyWith ok w i a (fun size ws => BitOps.fill .msb ws a (min b size - a))

/-- `bl_bit_array_clear_range` (`bitarray.cpp:809-823`). -/
def clearRange (ok : Bool) (w : Wld) (i a b : Nat) : Option (Result × Wld) :=
  if a ≥ b then some (.invalidValue, w)
  else modifyWith ok w i a (fun size ws => BitOps.clear .msb ws a (min b size - a))

/-- `bl_bit_array_fill_words`, `bl_bit_array_clear_words`, `bl_bit_array_replace_words`
(`bitarray.cpp:784-793, 829-838, 913-922`; the variants for one word forward to them, `825-827, 906-911`). -/
def combineAt (ok : Bool) (w : Wld) (i : Nat) (c : Comb) (bit : Nat) (ws : List W) : Option (Result × Wld) :=
  modifyWith ok w i bit (fun size dst => combine c size dst bit ws)

/-- `bit_array_or_bit` (`bitops_p.h:210-215`; `index_as_mask(index, value)`, `176-179`). -/
def orBit (ws : List W) (bit : Nat) (x : Bool) : Option (List W) := do
  let y ← ws[bit / 32]?
  return ws.set (bit / 32) (y ||| ((if x then 1#32 else 0#32) <<< 31) >>> (bit % 32))

/-- The append functions after `make_mutable_for_append_op` returned the old size. -/
def appendWith (ok : Bool) (w : Wld) (i n : Nat) (f : Nat → Nat → List W → Option (List W)) : Option (Result × Wld) := do
  let v ← w.vars[i]?
  let d ← unpack w v
  let (r, w) ← makeAppend ok w i n
  if r = .success then do
    let w ← onWords w i (f d.size)
    return (r, w)
  else return (r, w)

/-- `bl_bit_array_append_bit` (`bitarray.cpp:927-937`). -/
def appendBit (ok : Bool) (w : Wld) (i : Nat) (x : Bool) : Option (Result × Wld) :=
  appendWith ok w i 1 (fun index _ ws => orBit ws index x)

/-- `bl_bit_array_append_words` (`bitarray.cpp:943-956`; `append_word`, `939-941`). -/
def appendWords (ok : Bool) (w : Wld) (i : Nat) (ws : List W) : Option (Result × Wld) :=
  if ws.length = 0 then some (.success, w)
  else appendWith ok w i (ws.length * 32) (fun index size dst => combine .or size dst index ws)

/-- `bl_bit_array_assign_words` (`bitarray.cpp:311-345`).  As it is written: a new impl's size is left at zero, and if
the impl is shared or too small the words are stored in place, however many there are. -/
def assignWords (ok : Bool) (w : Wld) (i : Nat) (ws : List W) : Option (Result × Wld) := do
  let v ← w.vars[i]?
  let d ← unpack w v
  let m ← w.isMutable v
  if isSso v then
    if ws.length ≤ ssoWords then do
      let w ← commit w i ⟨ws.length * 32, ws ++ List.replicate (ssoWords - ws.length) 0, ssoWords⟩
      return (.success, w)
    else dynamic
  else
    if (if m then decide (ws.length > wordCount d.cap) else true) then
      if ws.length ≤ ssoWords then do
        let w ← w.replace i (.sso ⟨ws.length * 32, ws ++ List.replicate (ssoWords - ws.length) 0, ssoWords⟩)
        return (.success, w)
      else none
    else dynamic
where
  /-- `bitarray.cpp:337-344`. -/
  dynamic : Option (Result × Wld) :=
    if ok then do
      let w ← install w i ⟨0, [], ws.length⟩
      return (.success, w)
    else return (.outOfMemory, w)

/-- `bl_bit_array_clear` (`bitarray.cpp:592-609`). -/
def clear (w : Wld) (i : Nat) : Option (Result × Wld) := do
  let v ← w.vars[i]?
  let d ← unpack w v
  let m ← w.isMutable v
  if isSso v then do
    let w ← commit w i (initSso 0)
    return (.success, w)
  else if m then do
    let w ← commit w i { d with size := 0, words := [] }
    return (.success, w)
  else do
    let w ← w.replace i (.sso (initSso 0))
    return (.success, w)

/-- Clearing the bits from `n` on in word `n / 32`, if there are bits before `n` in it
(`bitarray.cpp:624-629, 646-648`). -/
def cutWord (ws : List W) (n : Nat) : Option (List W) :=
  if n % 32 ≠ 0 then do
    let x ← ws[n / 32]?
    let m ← startMask .msb 32 (n % 32)
    return ws.set (n / 32) (x &&& m)
  else some ws

/-- `bl_bit_array_resize` (`bitarray.cpp:614-683`). -/
def resize (ok : Bool) (w : Wld) (i n : Nat) : Option (Result × Wld) := do
  let v ← w.vars[i]?
  let d ← unpack w v
  let m ← w.isMutable v
  if isSso v then
    if n ≤ ssoBits then
      if n < d.size then do
        let ws ← cutWord d.words n
        let used := wordCount n
        let w ← commit w i ⟨n, ws.take used ++ List.replicate (ssoWords - used) 0, d.room⟩
        return (.success, w)
      else do
        let w ← commit w i { d with size := n }
        return (.success, w)
    else move d
  else
    if (if m then decide (n ≤ d.cap) else false) then
      if n < d.size then do
        let ws ← cutWord d.words n
        let w ← commit w i ⟨n, ws.take (wordCount n), d.room⟩
        return (.success, w)
      else do
        let d ← fresh d.words n d.room
        let w ← commit w i d
        return (.success, w)
    else move d
where
  /-- `bitarray.cpp:660-683`.  The words of a new impl that are not copied stay uninitialised. -/
  move (d : Data) : Option (Result × Wld) := do
    let bits := min n d.size
    let ws ← takeWords d (wordCount bits)
    let ws ← (if bits % 32 ≠ 0 then do
      let x ← ws[wordCount bits - 1]?
      let m ← startMask .msb 32 (bits % 32)
      return ws.set (wordCount bits - 1) (x &&& m)
    else some ws)
    if n ≤ ssoBits then do
      let w ← w.replace i (.sso ⟨n, ws ++ List.replicate (ssoWords - wordCount bits) 0, ssoWords⟩)
      return (.success, w)
    else if ok then
      if wordCount bits = wordCount n then do
        let w ← install w i ⟨n, ws, wordCount n⟩
        return (.success, w)
      else none
    else return (.outOfMemory, w)

/-- `bl_bit_array_reserve` (`bitarray.cpp:688-716`). -/
def reserve (ok : Bool) (w : Wld) (i n : Nat) : Option (Result × Wld) := do
  let v ← w.vars[i]?
  let d ← unpack w v
  let m ← w.isMutable v
  if (if isSso v then decide (n ≤ ssoBits) else if m then decide (n ≤ d.cap) else false) then return (.success, w)
  else if ok then do
    let ws ← takeWords d (wordCount d.size)
    let x ← fresh ws d.size (wordCount n)
    let w ← install w i x
    return (.success, w)
  else return (.outOfMemory, w)

/-- `bl_bit_array_shrink` (`bitarray.cpp:721-752`, `BL_OBJECT_IMPL_ALIGNMENT = 16`, `object_p.h:25`). -/
def shrink (ok : Bool) (w : Wld) (i : Nat) : Option (Result × Wld) := do
  let v ← w.vars[i]?
  let d ← unpack w v
  if isSso v then return (.success, w)
  else if d.size ≤ ssoBits then do
    let ws ← takeWords d (wordCount d.size)
    let w ← w.replace i (.sso ⟨d.size, ws ++ List.replicate (ssoWords - ws.length) 0, ssoWords⟩)
    return (.success, w)
  else if 8 + wordCount d.size * 4 + 16 ≤ 8 + wordCount d.cap * 4 then
    if ok then do
      let ws ← takeWords d (wordCount d.size)
      let x ← fresh ws d.size (wordCount d.size)
      let w ← install w i x
      return (.success, w)
    else return (.outOfMemory, w)
  else return (.success, w)

/-- `bl_bit_array_replace_op` (`bitarray.cpp:843-894`): `n` zero bits the caller stores to. -/
def replaceOp (ok : Bool) (w : Wld) (i n : Nat) : Option (Result × Wld) := do
  let v ← w.vars[i]?
  let d ← unpack w v
  let m ← w.isMutable v
  if isSso v then
    if n ≤ ssoBits then do
      let w ← commit w i (initSso n)
      return (.success, w)
    else dynamic
  else
    if (if m then decide (n ≤ d.cap) else false) then do
      let d ← fresh [] n d.room
      let w ← commit w i d
      return (.success, w)
    else if n ≤ ssoBits then do
      let w ← w.replace i (.sso (initSso n))
      return (.success, w)
    else dynamic
where
  /-- `bitarray.cpp:879-885`. -/
  dynamic : Option (Result × Wld) :=
    if ok then do
      let x ← fresh [] n (wordCount n)
      let w ← install w i x
      return (.success, w)
    else return (.outOfMemory, w)

/-! ## Queries -/

/-- `unpack` of variable `i`. -/
def data (w : Wld) (i : Nat) : Option Data := do
  let v ← w.vars[i]?
  unpack w v

/-- `IntOps::pop_count`: the number of set bits of a word. -/
def popCount (x : W) : Nat := (List.range 32).countP (hasBit .msb x)

/-- `PopCounter::add_array` (`intops_p.h:530-585`) of words `k, …, k + n - 1`. -/
def popWords (ws : List W) (k : Nat) : Nat → Option Nat
  | 0 => some 0
  | n + 1 => do
    let x ← ws[k]?
    let r ← popWords ws (k + 1) n
    return popCount x + r

/-- `bl_bit_array_get_cardinality` (`bitarray.cpp:386-397`). -/
def cardinality (d : Data) : Option Nat :=
  if d.size = 0 then some 0 else popWords d.words 0 (wordCount d.size)

/-- `bl_bit_array_get_cardinality_in_range` (`bitarray.cpp:399-429`). -/
def cardinalityIn (d : Data) (start stop : Nat) : Option Nat :=
  let stop := min stop d.size
  if start ≥ stop then some 0
  else
    let sw := start / 32
    let lw := (stop - 1) / 32
    if sw = lw then do
      let m ← startMaskAt (stop - start) start
      let x ← d.words[sw]?
      return popCount (x &&& m)
    else do
      let sm ← endMask (32 - start % 32)
      let em ← startMask .msb 32 ((stop - 1) % 32 + 1)
      let x ← d.words[sw]?
      let n ← popWords d.words (sw + 1) (lw - sw - 1)
      let y ← d.words[lw]?
      return popCount (x &&& sm) + n + popCount (y &&& em)

/-- `bl_bit_array_has_bit` (`bitarray.cpp:431-440`). -/
def hasBitAt (d : Data) (bit : Nat) : Option Bool :=
  if bit ≥ d.size then some false else BitOps.testBit .msb d.words bit

/-- A loop over words `k, …, k + n - 1` that stops at the first one that is not zero. -/
def anyWord (ws : List W) (k : Nat) : Nat → Option Bool
  | 0 => some false
  | n + 1 => do
    let x ← ws[k]?
    if x ≠ 0 then return true else anyWord ws (k + 1) n

/-- `bl_bit_array_has_bits_in_range` (`bitarray.cpp:442-472`). -/
def hasBitsIn (d : Data) (start stop : Nat) : Option Bool :=
  let stop := min d.size stop
  if start ≥ stop then some false
  else
    let sw := start / 32
    let ew := stop / 32
    if sw = ew then do
      let m ← startMaskAt (stop - start) start
      let x ← d.words[sw]?
      return (x &&& m) != 0
    else do
      let sm ← endMask (32 - start % 32)
      let x ← d.words[sw]?
      if (x &&& sm) ≠ 0 then return true
      else do
        let b ← anyWord d.words (sw + 1) (ew - (sw + 1))
        if b then return true
        else do
          let em ← startMask .msb 32 (stop % 32)
          let y ← d.words[ew]?
          return (y &&& em) != 0

/-- The shared loops of `subsumes`, `intersects`, `equals` and `compare`: the first pair of words with property `p`. -/
def findPair (p : W → W → Bool) (a b : List W) (k : Nat) : Nat → Option (Option (W × W))
  | 0 => some none
  | n + 1 => do
    let x ← a[k]?
    let y ← b[k]?
    if p x y then return some (x, y) else findPair p a b (k + 1) n

/-- `bl_bit_array_subsumes` (`bitarray.cpp:477-497`). -/
def subsumes (a b : Data) : Option Bool := do
  let n := wordCount (min a.size b.size)
  let r ← findPair (fun x y => (x &&& y) != y) a.words b.words 0 n
  match r with
  | some _ => return false
  | none => do
    let r ← anyWord b.words n (wordCount b.size - n)
    return !r

/-- `bl_bit_array_intersects` (`bitarray.cpp:499-514`). -/
def intersects (a b : Data) : Option Bool := do
  let r ← findPair (fun x y => (x &&& y) != 0) a.words b.words 0 (wordCount (min a.size b.size))
  return r.isSome

/-- `bl_bit_array_get_range` (`bitarray.cpp:516-543`): `none` if there is no set bit.  The two loops are those of
`BitOps.firstBit` and `BitOps.lastBit`; `end` is one behind the last bit. -/
def range (d : Data) : Option (Option (Nat × Nat)) := do
  let ws ← takeWords d (wordCount d.size)
  match BitOps.firstBit .msb ws 0, BitOps.lastBit .msb ws with
  | some a, some b => return some (a, b + 1)
  | _, _ => return none

/-- `bl_bit_array_equals` (`bitarray.cpp:548-566`). -/
def equals (a b : Data) : Option Bool :=
  if a.size ≠ b.size then some false
  else do
    let r ← findPair (fun x y => x != y) a.words b.words 0 (wordCount a.size)
    return r.isNone

/-- `BitArrayOps::compare` (`bitops_p.h:189-194`), the words are compared as numbers. -/
def cmpWord (x y : W) : Int := (if y < x then 1 else 0) - (if x < y then 1 else 0)

/-- `bl_bit_array_compare` (`bitarray.cpp:568-587`). -/
def compare (a b : Data) : Option Int := do
  let r ← findPair (fun x y => x != y) a.words b.words 0 (wordCount (min a.size b.size))
  match r with
  | some (x, y) => return cmpWord x y
  | none => return if a.size < b.size then -1 else if a.size > b.size then 1 else 0

end Blend2D.BitArr
