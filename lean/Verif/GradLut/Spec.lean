import Verif.Pixel.Spec
import Mathlib.Data.Rat.Floor

/-!
# What the colour table of a gradient has to hold, independent of the model
-/

namespace Blend2D.GradLut.Spec

open Blend2D.Pixel.Spec

/-- `x` differs from the point `k / n` on the way from `a` to `b` by at most `p / q`. -/
def Near (p q : Nat) (a b k n x : Nat) : Prop :=
  (q : Int) * |(n : Int) * x - (n * a + k * ((b : Int) - a))| ≤ p * n

/-- The pixel `p` is the premultiplied colour at `k / n` of the way from the colour `c` to the colour `d` (8 bits per component, not premultiplied): for some
colour `x` whose components are nearest to the interpolated ones, `p` has the alpha of `x` and the nearest values to the products of the components
of `x` with its alpha. -/
def Blend32 (c d : UInt32) (k n : Nat) (p : UInt32) : Prop :=
  ∃ x : Nat → Nat, (∀ i < 4, x i ≤ 255 ∧ Near 1 2 (chan i c.toNat) (chan i d.toNat) k n (x i)) ∧
    chan 3 p.toNat = x 3 ∧ ∀ i < 3, Nearest (chan i p.toNat) (x i * x 3) 255 ∧ chan i p.toNat ≤ chan 3 p.toNat

/-- The same with 16 bits per component; interpolated components may be off by 17/32 of a level (one half is the rounding). -/
def Blend64 (c d : UInt64) (k n : Nat) (p : UInt64) : Prop :=
  ∃ x : Nat → Nat, (∀ i < 4, x i ≤ 65535 ∧ Near 17 32 (chan16 i c.toNat) (chan16 i d.toNat) k n (x i)) ∧
    chan16 3 p.toNat = x 3 ∧ ∀ i < 3, Nearest (chan16 i p.toNat) (x i * x 3) 65535 ∧ chan16 i p.toNat ≤ chan16 3 p.toNat

/-- A multiplication of floating point numbers by a width: exact for 0 and 1, and monotone. -/
structure Multiplication (mul : ℚ → ℚ → ℚ) : Prop where
  zero : ∀ w, mul 0 w = 0
  one : ∀ w, mul 1 w = w
  mono : ∀ w, 0 ≤ w → ∀ x y, x ≤ y → mul x w ≤ mul y w

/-- The entry of an offset in a table of `n` entries: the offset is taken to 1/256 of an entry, the rest is dropped. -/
def entryOf (mul : ℚ → ℚ → ℚ) (n : Nat) (offset : ℚ) : Nat := (⌊mul offset (256 * (n - 1)) + 1 / 2⌋ / 256).toNat

/-- The stops of a gradient: offsets from 0 to 1 that do not decrease. -/
def Stops {C : Type} (stops : List (ℚ × C)) : Prop :=
  stops ≠ [] ∧ (∀ s ∈ stops, 0 ≤ s.1 ∧ s.1 ≤ 1) ∧ stops.Pairwise fun s t => s.1 ≤ t.1

/-- The table `t` has `n` entries, all of them written, and they are: the colour of the first stop in the first entry and up to the first stop, between the entries of
two stops that follow each other the interpolated colours, and the colour of the last stop from its entry on. -/
structure Table {C P : Type} (blend : C → C → Nat → Nat → P → Prop) (entry : ℚ → Nat) (n : Nat) (stops : List (ℚ × C)) (t : List (Option P)) : Prop where
  size : t.length = n
  written : ∀ k < n, ∃ p, t[k]? = some (some p)
  first : ∀ s ∈ stops.head?, ∀ k p, t[k]? = some (some p) → k = 0 ∨ k < entry s.1 → blend s.2 s.2 0 1 p
  between : ∀ j s s', stops[j]? = some s → stops[j + 1]? = some s' → ∀ k p, t[k]? = some (some p) → k ≠ 0 → entry s.1 ≤ k → k < entry s'.1 →
    blend s.2 s'.2 (k - entry s.1) (entry s'.1 - entry s.1) p
  last : ∀ s ∈ stops.getLast?, ∀ k p, t[k]? = some (some p) → k ≠ 0 → entry s.1 ≤ k → blend s.2 s.2 0 1 p

end Blend2D.GradLut.Spec
