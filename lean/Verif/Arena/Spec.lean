import Verif.Arena.Model
/-! What a user of the allocator relies on, and histories of calls. -/
namespace Blend2D.Arena.Spec

/-- The blocks of memory an arena owns. -/
def owned (s : Arena) : List Block := s.prevs ++ s.cur.toList ++ s.nexts

/-- Two ranges, given by their begin and size, have nothing in common. -/
def Apart (p m q n : Nat) : Prop := p + m ≤ q ∨ q + n ≤ p

/-- Alignments of this library's objects: powers of two up to 16. -/
def Alignment (a : Nat) : Prop := a = 1 ∨ a = 2 ∨ a = 4 ∨ a = 8 ∨ a = 16

/-- Memory of this address and size can be used for a block: it is aligned to 16 bytes, it isn't at the end of the
address space, and no block of the arena uses it. -/
def Fresh (s : Arena) (a n : Nat) : Prop :=
  a % 16 = 0 ∧ a + n + 128 ≤ 2 ^ 64 ∧ ∀ b ∈ owned s, Apart a n b.addr (24 + b.size)

/-- A call of `alloc` that is covered: sizes of more than 1900 bytes are multiples of 16, and what `malloc` returns can
be used. -/
def Call (s : Arena) (size alignment : Nat) (mem : Option Nat) : Prop :=
  Alignment alignment ∧ size < 2 ^ 64 ∧ (size ≤ 1900 ∨ size % 16 = 0) ∧
    ∀ a n, mem = some a → request s size alignment = some n → Fresh s a n

/-- Calls between a `save_state` and its `restore_state`; pairs of them can be nested. -/
inductive Grown : Arena → Arena → Prop
  | start (s) : Grown s s
  | alloc {s0 s} (size alignment : Nat) (mem : Option Nat) : Grown s0 s → Call s size alignment mem →
      Grown s0 (alloc s size alignment mem).1
  | ensure {s0 s} (size : Nat) (mem : Option Nat) : Grown s0 s → Call s 0 1 mem → Grown s0 (ensure s size mem).1
  | restore {s0 s t} : Grown s0 s → s.ptr < s.stop → Grown s t → Grown s0 (restore t s.ptr)

/-- An arena after a history of calls, with the ranges that are allocated. -/
inductive Reach : Arena → List (Nat × Nat) → Prop
  | init (zero blockSize blockAlignment : Nat) (mem : Option (Nat × Nat)) (hz : zero % 64 = 0) (hz' : zero + 128 ≤ 2 ^ 64)
      (h1 : 1024 ≤ blockSize) (h2 : blockAlignment < 64)
      (hm : ∀ a n, mem = some (a, n) → a % 16 = 0 ∧ n % 16 = 0 ∧ 96 ≤ n ∧ a + n + 128 ≤ 2 ^ 64) :
      Reach (init zero blockSize blockAlignment mem) []
  | alloc {s live} (size alignment : Nat) (mem : Option Nat) : Reach s live → Call s size alignment mem →
      Reach (alloc s size alignment mem).1
        (match (alloc s size alignment mem).2 with | some p => (p, size) :: live | none => live)
  | ensure {s live} (size : Nat) (mem : Option Nat) : Reach s live → Call s 0 1 mem → Reach (ensure s size mem).1 live
  | restore {s t live} : Reach s live → s.ptr < s.stop → Grown s t → Reach (restore t s.ptr) live
  | clear {s live} : Reach s live → Reach (clear s) []
  | reset {s live} : Reach s live → Reach (reset s).1 []

/-- The arenas and the ranges that are allocated after every history of calls that starts with one arena. -/
inductive Since (s0 : Arena) : Arena → List (Nat × Nat) → Prop
  | start : Since s0 s0 []
  | alloc {s live} (size alignment : Nat) (mem : Option Nat) : Since s0 s live → Call s size alignment mem →
      Since s0 (alloc s size alignment mem).1
        (match (alloc s size alignment mem).2 with | some p => (p, size) :: live | none => live)
  | ensure {s live} (size : Nat) (mem : Option Nat) : Since s0 s live → Call s 0 1 mem → Since s0 (ensure s size mem).1 live
  | restore {s t live} : Since s0 s live → s.ptr < s.stop → Grown s t → Since s0 (restore t s.ptr) live
  | clear {s live} : Since s0 s live → Since s0 (clear s) []
  | reset {s live} : Since s0 s live → Since s0 (reset s).1 []

end Blend2D.Arena.Spec
