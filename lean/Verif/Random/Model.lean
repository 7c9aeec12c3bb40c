/-!
# Pseudo random number generator (`core/random_p.h`, `core/random.cpp`)

`next_uint64AsI128` (the SSE2 variant of `next_uint64`) does the same operations on one
lane and is not modelled separately.
-/

namespace Blend2D.Random

/-- `BLRandom`, `core/random.h`: two words of state. -/
structure State where
  x : BitVec 64
  y : BitVec 64
deriving DecidableEq, Repr

/-- One word of splitmix64, the loop body of `reset_seed`, `random_p.h:45-52`;
`kZeroSeed` replaces zero. -/
def splitmix (seed : BitVec 64) : BitVec 64 :=
  let x := seed
  let x := (x ^^^ (x >>> 30)) * 0xBF58476D1CE4E5B9#64
  let x := (x ^^^ (x >>> 27)) * 0x94D049BB133111EB#64
  let x := x ^^^ (x >>> 31)
  if x ≠ 0 then x else 0x1F0A2BE71D163FA0#64

/-- `reset_seed`, `random_p.h:39-53`. -/
def resetSeed (seed : BitVec 64) : State :=
  let s1 := seed + 0x9E3779B97F4A7C15#64
  let s2 := s1 + 0x9E3779B97F4A7C15#64
  ⟨splitmix s1, splitmix s2⟩

/-- The state after `next_uint64`, `random_p.h:55-69`. -/
def next (s : State) : State :=
  let x := s.x ^^^ (s.x <<< 23)
  let y := s.y ^^^ (s.y >>> 5)
  let x := x ^^^ (x >>> 18)
  let x := x ^^^ y
  ⟨y, x⟩

/-- The value `next_uint64` returns, `random_p.h:55-69`. -/
def nextU64 (s : State) : BitVec 64 := (next s).y + (next s).x

/-- `next_uint32`, `random_p.h:71-73`. -/
def nextU32 (s : State) : BitVec 32 := (nextU64 s >>> 32).setWidth 32

/-- The bits of the double from which `next_double` subtracts `1.0`,
`random_p.h:97-110`. -/
def doubleBits (s : State) : BitVec 64 := (nextU64 s >>> 12) ||| 0x3FF0000000000000#64

/-- The state after `n` numbers. -/
def steps : Nat → State → State
  | 0, s => s
  | n + 1, s => next (steps n s)

end Blend2D.Random
