import Verif.BitOps.Model

/-!
# Allocator of zeroed memory (`support/zeroallocator.cpp`)

Provides the zeroed buffers of the rasterizer (cells and bit masks).  Every operation
runs under the allocator's mutex, so a history is a sequence of operations.

Simplifications:
* addresses are natural numbers; the address of a new block is an input (what `calloc`
  returned, or nothing if it failed);
* sizes up to `2^64`; the 32-bit counters of a block do not wrap (a block has less than
  `2^22` areas because `size ≤ 2^31`, see `allocUnits`);
* the tree of blocks (`_tree`, see C30) is used only to find the block an address
  belongs to: the model searches the list of blocks;
* `_overhead_size` (statistics only) is not modelled.
`none` is undefined behaviour or a violated assertion.
-/

namespace Blend2D.ZeroAlloc

open BitOps

/-- `kBlockGranularity`, `zeroallocator.cpp:59`. -/
def granularity : Nat := 1024

/-- `ZeroAllocator::Block`, `zeroallocator.cpp:69-141`. -/
structure Block (N : Nat) where
  /-- `_buffer_aligned` -/
  base : Nat
  /-- `_area_size` -/
  areaSize : Nat
  /-- `_area_used` -/
  areaUsed : Nat
  /-- `_largest_unused_area` -/
  largest : Nat
  /-- `_search_start` -/
  searchStart : Nat
  /-- `_search_end` -/
  searchEnd : Nat
  /-- `kFlagDirty` -/
  dirty : Bool
  /-- `kFlagStatic` -/
  static : Bool
  /-- `_bit_vector` -/
  bits : List (BitVec N)
deriving DecidableEq, Repr

variable {N : Nat}

/-- `ZeroAllocator_numGranularized`, `zeroallocator.cpp:43-49`. -/
def numGranularized (base g : Nat) : Nat := (base + g - 1) / g

/-- The end of a hole, `zeroallocator.cpp:334`. -/
def holeFinish (o : Order) (bits : List (BitVec N)) (searchEnd : Nat) (it : Iter N) : Option (Nat × Iter N) :=
  if it.hasNext then
    match it.nextAndFlip o bits with
    | none => none
    | some (e, it) => some (min searchEnd e, it)
  else some (searchEnd, it)

/-- The do-while loop over the holes of a block, `zeroallocator.cpp:329-345`: best area,
largest area, index of the best area, end of the last hole. -/
def holeLoop (o : Order) (bits : List (BitVec N)) (searchEnd area : Nat) :
    Nat → Iter N → Nat → Nat → Nat → Option Nat → Option (Nat × Nat × Option Nat × Nat)
  | 0, _, _, _, _, _ => none
  | fuel + 1, it, holeEnd, best, largest, index =>
    match it.nextAndFlip o bits with
    | none => none
    | some (holeIndex, it) =>
      if holeIndex ≥ searchEnd then some (best, largest, index, holeEnd)
      else
        match holeFinish o bits searchEnd it with
        | none => none
        | some (holeEnd, it) =>
          let holeSize := holeEnd - holeIndex
          let (best, largest, index) :=
            if holeSize ≥ area ∧ best ≥ holeSize then (holeSize, max largest best, some holeIndex)
            else (best, max largest holeSize, index)
          if it.hasNext then holeLoop o bits searchEnd area fuel it holeEnd best largest index
          else some (best, largest, index, holeEnd)

/-- The body of the loop over blocks, `zeroallocator.cpp:310-360`: the block with
its updated search range, and the index of the area found. -/
def tryBlock (o : Order) (b : Block N) (area : Nat) : Option (Block N × Option Nat) :=
  if b.areaSize - b.areaUsed ≥ area then
    if b.dirty ∨ b.largest ≥ area then
      match Iter.init o b.bits (numGranularized b.searchEnd N) b.searchStart (BitVec.allOnes N) with
      | none => none
      | some it =>
        match it.peekNext o with
        | none => none
        | some holeIndex =>
          match holeLoop o b.bits b.searchEnd area (b.searchEnd + 1) it holeIndex b.areaSize 0 none with
          | none => none
          | some (_, largest, index, holeEnd) =>
            let b' := { b with searchStart := holeIndex, searchEnd := holeEnd, largest := largest, dirty := false }
            match index with
            | none => some (b', none)
            | some i =>
              some (if holeIndex = i then { b' with searchStart := holeIndex + area } else b', some i)
    else some (b, none)
  else some (b, none)

/-- The end of `_alloc_internal` for the block that was chosen,
`zeroallocator.cpp:383-397`. -/
def occupy (o : Order) (b : Block N) (index area : Nat) : Option (Block N) :=
  let b := { b with areaUsed := b.areaUsed + area }
  let b := if b.areaSize - b.areaUsed = 0 then
      { b with searchStart := b.areaSize, searchEnd := 0, largest := 0, dirty := false } else b
  match fill o b.bits index area with
  | none => none
  | some bits => some { b with bits := bits }

/-- A freshly created block, `zeroallocator.cpp:104-114`, `195-217`. -/
def newBlock (N base areaSize : Nat) : Block N :=
  { base := base, areaSize := areaSize, areaUsed := 0, largest := areaSize, searchStart := 0,
    searchEnd := areaSize, dirty := false, static := false,
    bits := List.replicate (numGranularized areaSize N) 0 }

/-- The loop over the blocks, `zeroallocator.cpp:305-365`: the blocks before the chosen one
in front (updated), the index of the area and the address. -/
def tryBlocks (o : Order) (area : Nat) : List (Block N) → Option (List (Block N) × Option Nat)
  | [] => some ([], none)
  | b :: bs =>
    match tryBlock o b area with
    | none => none
    | some (b, some i) =>
      match occupy o b i area with
      | none => none
      | some b' => some (b' :: bs, some (b.base + i * granularity))
    | some (b, none) =>
      match tryBlocks o area bs with
      | none => none
      | some (bs', r) => some (b :: bs', r)

/-- The allocator. -/
structure Heap (N : Nat) where
  /-- `_blocks` -/
  blocks : List (Block N)
  /-- `_base_area_size` -/
  baseArea : Nat
  /-- `_total_area_size` -/
  totalArea : Nat
  /-- `_total_area_used` -/
  totalUsed : Nat
  /-- `_cleanup_threshold` -/
  threshold : Nat
deriving DecidableEq, Repr

/-- `calculate_ideal_block_size`, `zeroallocator.cpp:248-256`. -/
def idealBlockSize (blockCount size : Nat) : Nat :=
  let blockSize := (1024 * 1024) <<< min blockCount 4
  if blockSize < size then (size + blockSize - 1) / blockSize * blockSize else blockSize

/-- `calculate_cleanup_threshold`, `zeroallocator.cpp:258-265`. -/
def Heap.calcThreshold (h : Heap N) : Nat :=
  if h.blocks.length ≤ 6 then 0 else h.baseArea + (h.totalArea - h.baseArea) / 5

/-- The number of areas an allocation takes, `zeroallocator.cpp:294-303`; `none` if the
request is rejected. -/
def allocUnits (size : Nat) : Option Nat :=
  let size := (size + (granularity - 1)) % 2 ^ 64 / granularity * granularity
  if size = 0 ∨ size > (2 ^ 32 - 1) / 2 then none else some (size / granularity)

/-- `_alloc_internal`, `zeroallocator.cpp:291-406`.  The result is the address and the
allocated size, if the allocation succeeds. -/
def Heap.alloc (o : Order) (h : Heap N) (size : Nat) (newBase : Option Nat) :
    Option (Heap N × Option (Nat × Nat)) :=
  match allocUnits size with
  | none => some (h, none)
  | some area =>
    match tryBlocks o area h.blocks with
    | none => none
    | some (blocks, some addr) =>
      some ({ h with blocks := blocks, totalUsed := h.totalUsed + area }, some (addr, area * granularity))
    | some (blocks, none) =>
      let h := { h with blocks := blocks }
      match newBase with
      | none => some (h, none)
      | some base =>
        let areaSize := numGranularized (idealBlockSize h.blocks.length (area * granularity)) granularity
        let b := newBlock N base areaSize
        let h := { h with blocks := h.blocks ++ [b], totalArea := h.totalArea + areaSize }
        let h := { h with threshold := h.calcThreshold }
        match occupy o { b with searchStart := area, largest := areaSize - area } 0 area with
        | none => none
        | some b' =>
          some ({ h with blocks := h.blocks.dropLast ++ [b'], totalUsed := h.totalUsed + area },
            some (base, area * granularity))

/-- The scan of `_cleanup_internal` over the reversed list of blocks,
`zeroallocator.cpp:273-281`: what is left (still reversed) and the area removed. -/
def cleanupScan : Nat → List (Block N) → List (Block N) × Nat
  | _, [] => ([], 0)
  | 0, bs => (bs, 0)
  | n + 1, b :: bs =>
    if b.areaUsed = 0 ∧ b.static = false then
      let (r, a) := cleanupScan n bs
      (r, a + b.areaSize)
    else
      let (r, a) := cleanupScan (n + 1) bs
      (b :: r, a)

/-- `_cleanup_internal`, `zeroallocator.cpp:270-285`. -/
def Heap.cleanup (h : Heap N) (n : Nat) : Heap N :=
  let (bs, a) := cleanupScan n h.blocks.reverse
  let h := { h with blocks := bs.reverse, totalArea := h.totalArea - a }
  { h with threshold := h.calcThreshold }

/-- The address belongs to the block, `zeroallocator.cpp:138-140`. -/
def Block.owns (b : Block N) (addr : Nat) : Bool :=
  b.base ≤ addr && addr < b.base + b.areaSize * granularity

/-- `_release_internal` for the block the address belongs to, `zeroallocator.cpp:419-435`. -/
def Block.release (o : Order) (b : Block N) (addr size : Nat) : Option (Block N) :=
  let index := (addr - b.base) / granularity
  let area := numGranularized size granularity
  if area ≤ b.areaUsed then
    match clear o b.bits index area with
    | none => none
    | some bits => some { b with
        searchStart := min b.searchStart index, searchEnd := max b.searchEnd (index + area),
        dirty := true, areaUsed := b.areaUsed - area, bits := bits }
  else none

/-- Applies `release` to the block the address belongs to. -/
def releaseIn (o : Order) (addr size : Nat) : List (Block N) → Option (List (Block N))
  | [] => none
  | b :: bs =>
    if b.owns addr then
      match b.release o addr size with
      | none => none
      | some b' => some (b' :: bs)
    else
      match releaseIn o addr size bs with
      | none => none
      | some bs' => some (b :: bs')

/-- `_release_internal`, `zeroallocator.cpp:408-439`. -/
def Heap.release (o : Order) (h : Heap N) (addr size : Nat) : Option (Heap N) :=
  match releaseIn o addr size h.blocks with
  | none => none
  | some blocks =>
    let h := { h with blocks := blocks, totalUsed := h.totalUsed - numGranularized size granularity }
    some (if h.totalUsed < h.threshold then h.cleanup 1 else h)

/-- The allocator after `bl_zero_allocator_rt_init`, `zeroallocator.cpp:165-181`,
with the static block at the given address. -/
def Heap.init (N base : Nat) : Heap N :=
  { blocks := [{ newBlock N base 1024 with static := true }], baseArea := 1024, totalArea := 1024,
    totalUsed := 0, threshold := 1024 }

/-! ## Histories -/

/-- The allocator together with the memory it manages and with the live allocations
(address, allocated size). -/
structure World (N : Nat) where
  heap : Heap N
  mem : Nat → UInt8
  live : List (Nat × Nat)

/-- What can be done. -/
inductive Op
  /-- `bl_zero_allocator_alloc`; `newBase` is where `calloc` places a new block. -/
  | alloc (size : Nat) (newBase : Option Nat)
  /-- `bl_zero_allocator_release` of a live allocation. -/
  | release (addr size : Nat)
  /-- `bl_zero_allocator_resize` of a live allocation. -/
  | resize (addr size newSize : Nat) (newBase : Option Nat)
  /-- The owner of an allocation writes to it. -/
  | write (addr : Nat) (value : UInt8)
  /-- `BL_RUNTIME_CLEANUP_ZEROED_POOL`. -/
  | cleanup

/-- `calloc` clears the memory of the new block. -/
def zeroed (mem : Nat → UInt8) (base len : Nat) : Nat → UInt8 := fun a =>
  if base ≤ a ∧ a < base + len then 0 else mem a

/-- `alloc` on a world; also returns the allocation. -/
def World.alloc (o : Order) (w : World N) (size : Nat) (newBase : Option Nat) :
    Option (World N × Option (Nat × Nat)) :=
  match w.heap.alloc o size newBase with
  | none => none
  | some (h, r) =>
    let mem :=
      if h.blocks.length > w.heap.blocks.length then
        match h.blocks.getLast? with
        | none => w.mem
        | some b => zeroed w.mem b.base (b.areaSize * granularity)
      else w.mem
    some ({ heap := h, mem := mem, live := match r with | none => w.live | some a => a :: w.live }, r)

/-- `release` on a world. -/
def World.release (o : Order) (w : World N) (addr size : Nat) : Option (World N) :=
  match w.heap.release o addr size with
  | none => none
  | some h => some { w with heap := h, live := w.live.erase (addr, size) }

/-- Executes an operation. -/
def step (o : Order) (w : World N) : Op → Option (World N)
  | .alloc size newBase => (w.alloc o size newBase).map (·.1)
  | .release addr size => w.release o addr size
  | .resize addr size newSize newBase =>
    match w.release o addr size with
    | none => none
    | some w => (w.alloc o newSize newBase).map (·.1)
  | .write addr value => some { w with mem := fun a => if a = addr then value else w.mem a }
  | .cleanup => some { w with heap := w.heap.cleanup w.heap.blocks.length }

end Blend2D.ZeroAlloc
