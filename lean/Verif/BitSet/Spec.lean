import Verif.BitSet.Model
import Verif.BitOps.Props

/-!
# What a bit set contains, and which representations are valid
-/

namespace Blend2D.BitSet

open Blend2D.BitOps

/-- Whether a segment contains the bit `i`. -/
def Seg.bit (g : Seg) (i : Nat) : Bool :=
  match g with
  | .dense s d => decide (s * 32 ≤ i) && bitAt .msb d (i - s * 32)
  | .range s e => decide (s * 32 ≤ i) && decide (i < e * 32)

/-- Whether the set contains `i`. -/
def member (s : BS) (i : Nat) : Bool :=
  match s with
  | .range a b => decide (a ≤ i) && decide (i < b)
  | .dense w d => decide (w * 32 ≤ i) && bitAt .msb d (i - w * 32)
  | .dyn segs _ _ => segs.any fun g => g.bit i

/-- A valid segment: it starts at a multiple of four words, and a run has two or more segments. -/
def SegOK : Seg → Prop
  | .dense s d => s % 4 = 0 ∧ s ≤ 134217728 ∧ d.length = 4
  | .range s e => s % 4 = 0 ∧ e % 4 = 0 ∧ s + 8 ≤ e ∧ e ≤ 134217728

/-- Valid segments in ascending order that do not overlap. -/
structure SegsOK (segs : List Seg) : Prop where
  each : ∀ g ∈ segs, SegOK g
  sorted : segs.Pairwise fun a b => a.endWord ≤ b.startWord

/-- How many numbers below `n` satisfy `p`. -/
def count (p : Nat → Bool) : Nat → Nat
  | 0 => 0
  | n + 1 => count p n + if p n then 1 else 0

/-- A valid bit set.  The index of the first in place word can be 134217727, one more than `kSSOLastWord`, as `clear_bit` on an in place
range can make it so; see `C36_clear_bit_last_word` in `Props.lean`. -/
structure OK (s : BS) : Prop where
  rep : match s with
    | .range a b => (a = 0 ∧ b = 0) ∨ (a < b ∧ b < 4294967296)
    | .dense w d => w ≤ 134217727 ∧ d.length = 2 ∧ ∃ i, bitAt .msb d i = true
    | .dyn segs cap card => SegsOK segs ∧ segs.length ≤ cap ∧ (card ≠ 0 → card = count (member s) 4294967296)
  last : ∀ i, invalidIndex ≤ i → member s i = false

end Blend2D.BitSet
