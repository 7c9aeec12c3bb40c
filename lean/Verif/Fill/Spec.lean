import Verif.Fill.Model
import Verif.BitOps.Props
/-!
# Specification of the fill of a scanline
-/
namespace Blend2D.Fill.Spec
open BitOps (Order bitAt)

/-- Is the group of the four cells `4 g`, …, `4 g + 3` marked? -/
def marked (o : Order) (bits : List (BitVec 64)) (g : Nat) : Prop := bitAt o bits g = true

/-- The sum of the first `n` cells, modulo `2^32`. -/
def sum (cells : List (BitVec 32)) : Nat → BitVec 32
  | 0 => 0
  | n + 1 => sum cells n + (cells[n]?).getD 0

/-- What the rasterizer guarantees of a scanline that is `xEnd` pixels wide: the cells that are not zero are in marked groups
or directly behind one, there are no cells and marks behind `xEnd`, the buffers are as large as the renderer makes them
(`rendercommandprocsync_p.h:102-107`), and the cells sum up to zero, because shapes are closed. -/
structure Ready (o : Order) (xEnd : Nat) (bits : List (BitVec 64)) (cells : List (BitVec 32)) : Prop where
  marks : ∀ k, (cells[k]?).getD 0 ≠ 0 → marked o bits (k / 4) ∨ (k % 4 = 0 ∧ 0 < k ∧ marked o bits (k / 4 - 1))
  right : ∀ g, marked o bits g → 4 * g ≤ xEnd
  cellsRight : ∀ k, xEnd < k → (cells[k]?).getD 0 = 0
  words : xEnd + 5 ≤ 256 * bits.length
  room : xEnd < cells.length
  closed : sum cells (xEnd + 1) = 0

/-- The mask of an accumulated coverage `a` (512 times the covered part of 256 rows, with sign), for the non-zero rule. -/
def nonZero (a : Int) (alpha : Nat) : Nat := min (a / 512).natAbs 256 * alpha / 256

/-- The mask for the even-odd rule: the coverage is folded. -/
def evenOdd (a : Int) (alpha : Nat) : Nat :=
  let m := (a / 512 % 512).toNat
  (if m ≤ 256 then m else 512 - m) * alpha / 256

end Blend2D.Fill.Spec
