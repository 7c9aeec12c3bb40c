import Mathlib.Tactic.Linarith
/-! Model of the arena allocator: `blend2d/support/arenaallocator.cpp` and `arenaallocator_p.h`.

Conventions: addresses are numbers, `size_t` has 64 bits; the difference of two pointers is converted to `size_t` and
wraps around.  Alignments are powers of two; aligning an address doesn't wrap around (no block is at the very end of
the address space).  What `malloc` returns is an argument: `none` if there is no memory.  The list of blocks, which is
linked in both directions, is split at the current block. -/
namespace Blend2D.Arena

/-- `ArenaAllocator::Block` (`arenaallocator_p.h:36-51`): its address and the size of its data. -/
structure Block where
  addr : Nat
  size : Nat
  deriving DecidableEq, Repr

/-- `Block::data` (`arenaallocator_p.h:44-46`): behind the header of 24 bytes. -/
def Block.data (b : Block) : Nat := b.addr + 24

/-- `Block::end` (`arenaallocator_p.h:48-50`). -/
def Block.stop (b : Block) : Nat := b.data + b.size

/-- `IntOps::align_up` of an address. -/
def alignUp (p a : Nat) : Nat := (p + a - 1) / a * a

/-- The difference of two pointers as `size_t`. -/
def diff (e p : Nat) : Nat := (e + 2 ^ 64 - p) % 2 ^ 64

/-- `ArenaAllocator` (`arenaallocator_p.h:64-85`): the blocks before the current one (the nearest first), the current
one (`none` is the zero block) and those behind it; `alignShift`, `minShift` and `static` are
`_block_alignment_shift`, `_min_block_size_shift` and `_has_static_block`.  `zero` is the address of the data of the zero
block. -/
structure Arena where
  zero : Nat
  prevs : List Block := []
  cur : Option Block := none
  nexts : List Block := []
  ptr : Nat
  stop : Nat
  alignShift : Nat
  minShift : Nat
  static : Bool
  count : Nat
  deriving DecidableEq, Repr

/-- `block_alignment` (`arenaallocator_p.h:166`). -/
def Arena.align (s : Arena) : Nat := 2 ^ s.alignShift

/-- `ArenaAllocator_assignBlock` (`arenaallocator.cpp:34-39`), with the blocks behind it. -/
def Arena.assign (s : Arena) (b : Block) (rest : List Block) : Arena :=
  { s with prevs := [], cur := some b, nexts := rest, ptr := alignUp b.data s.align, stop := b.stop }

/-- `_init` (`arenaallocator.cpp:41-70`): `mem` is the static memory, an address and a size.  `64 - clz(x)` is
`log2 x + 1`. -/
def init (zero blockSize blockAlignment : Nat) (mem : Option (Nat × Nat)) : Arena :=
  let s : Arena :=
    { zero, ptr := zero, stop := zero, alignShift := Nat.log2 (blockAlignment ||| 8) + 1,
      minShift := Nat.log2 blockSize + 1, static := mem.isSome, count := 0 }
  match mem with
  | none => s
  | some (a, n) => { s.assign ⟨a, n - 24⟩ [] with count := 1 }

/-- `reset` (`arenaallocator.cpp:72-108`): the arena and the addresses that are freed, in their order. -/
def reset (s : Arena) : Arena × List Nat :=
  match s.cur with
  | none => (s, [])
  | some b =>
    let z := { s with prevs := [], cur := none, nexts := [], ptr := s.zero, stop := s.zero, count := 0 }
    let back := b :: s.prevs
    if s.static then
      (match back.getLast? with | some f => z.assign f [] | none => z,
       back.dropLast.map (·.addr) ++ s.nexts.map (·.addr))
    else (z, back.map (·.addr) ++ s.nexts.map (·.addr))

/-- `clear` (`arenaallocator.cpp:110-116`). -/
def clear (s : Arena) : Arena :=
  match s.prevs.reverse ++ s.cur.toList ++ s.nexts with
  | [] => { s with ptr := alignUp s.zero s.align, stop := s.zero }
  | b :: rest => s.assign b rest

/-- The alignment a new block needs (`arenaallocator.cpp:122-123`). -/
def Arena.need (s : Arena) (alignment : Nat) : Nat := max alignment s.align

/-- The size that is given to `malloc` (`arenaallocator.cpp:144-167`), `none` if the size is too large. -/
def request (s : Arena) (size alignment : Nat) : Option Nat :=
  let default := 2 ^ min (s.count + s.minShift) 25
  let over := s.need alignment - min (s.need alignment) 8
  if size > default - (24 + 32 + over) then
    if size > 2 ^ 64 - 1 - (24 + 32 + over) then none else some (size + over + 24)
  else some (default - 32)

/-- A new block behind the current one (`arenaallocator.cpp:144-206`). -/
def grow (s : Arena) (size alignment : Nat) (mem : Option Nat) : Arena × Option Nat :=
  match request s size alignment, mem with
  | some n, some a =>
    let p := alignUp (a + 24) (s.need alignment)
    ({ s with prevs := s.cur.toList ++ s.prevs, cur := some ⟨a, n - 24⟩, ptr := p + size, stop := a + 24 + (n - 24),
              count := s.count + 1 }, some p)
  | _, _ => (s, none)

/-- `_alloc` (`arenaallocator.cpp:118-207`). -/
def slow (s : Arena) (size alignment : Nat) (mem : Option Nat) : Arena × Option Nat :=
  match s.nexts with
  | b :: rest =>
    let p := alignUp b.data (s.need alignment)
    if size ≤ diff b.stop p then
      ({ s with prevs := s.cur.toList ++ s.prevs, cur := some b, nexts := rest, ptr := p + size, stop := b.stop }, some p)
    else grow s size alignment mem
  | [] => grow s size alignment mem

/-- `alloc` (`arenaallocator_p.h:262-284`): without an alignment it is the same with 1. -/
def alloc (s : Arena) (size alignment : Nat) (mem : Option Nat) : Arena × Option Nat :=
  let p := alignUp s.ptr alignment
  if size > diff s.stop p then slow s size alignment mem
  else ({ s with ptr := p + size }, some p)

/-- `remaining_size` (`arenaallocator_p.h:170`). -/
def remaining (s : Arena) : Nat := diff s.stop s.ptr

/-- `ensure` (`arenaallocator_p.h:212-218`): the arena, and whether it succeeded. -/
def ensure (s : Arena) (size : Nat) (mem : Option Nat) : Arena × Bool :=
  if size ≤ remaining s then (s, true)
  else let r := slow s 0 1 mem; (r.1, r.2.isSome)

/-- The loop of `restore_state` (`arenaallocator_p.h:380-389`): the block, those before it (the nearest first), those
behind it, and the pointer. -/
def walk (p a : Nat) (b : Block) : List Block → List Block → Block × List Block × List Block × Nat
  | [], nexts => if b.data ≤ p ∧ p < b.stop then (b, [], nexts, p) else (b, [], nexts, alignUp b.data a)
  | q :: r, nexts => if b.data ≤ p ∧ p < b.stop then (b, q :: r, nexts, p) else walk p a q r (b :: nexts)

/-- `restore_state` (`arenaallocator_p.h:376-394`); what `save_state` (`:371-373`) returns is `ptr`. -/
def restore (s : Arena) (p : Nat) : Arena :=
  match s.cur with
  | none => { s with ptr := alignUp s.zero s.align, stop := s.zero }
  | some b =>
    let w := walk p s.align b s.prevs s.nexts
    { s with prevs := w.2.1, cur := some w.1, nexts := w.2.2.1, ptr := w.2.2.2, stop := w.1.stop }

end Blend2D.Arena
