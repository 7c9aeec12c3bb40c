import Verif.Raster.Model

/-!
# What the cells of an edge must say

An edge goes from `p0` down to `p1`; coordinates have 8 fractional bits, a pixel is 256 × 256 units.  The coverage that
an edge contributes to a pixel is (twice) the area of the part of the pixel that lies to the right of the edge, signed
by the direction of the edge.  The edge crosses pixel boundaries at fractional positions; every crossing is rounded to
the nearest unit, and between the crossings the edge is straight.
-/

namespace Blend2D.Raster.Spec

/-- `n / d` rounded to the nearest integer; if `d` is odd, `1/2 - 1/(2 d)` is rounded up too (see `C49_round` in Props). -/
def round (n d : Int) : Int := (n + (d + 1) / 2) / d

/-- The `x` coordinate of the edge on the horizontal line `y`, rounded to a unit; exact at the end points. -/
def xAt (p0 p1 : Pt) (y : Int) : Int :=
  if y ≤ p0.y then p0.x
  else if p1.y ≤ y then p1.x
  else if p0.x ≤ p1.x then p0.x + round ((p1.x - p0.x) * (y - p0.y)) (p1.y - p0.y)
  else p0.x - round ((p0.x - p1.x) * (y - p0.y)) (p1.y - p0.y)

/-- The `y` coordinate of the edge on the vertical line `x`, rounded to a unit. -/
def yAt (p0 p1 : Pt) (x : Int) : Int :=
  if p0.x ≤ p1.x then p0.y + round ((p1.y - p0.y) * (x - p0.x)) (p1.x - p0.x)
  else p0.y + round ((p1.y - p0.y) * (p0.x - x)) (p0.x - p1.x)

/-- Where the edge enters scanline `k`. -/
def top (p0 : Pt) (k : Int) : Int := max p0.y (256 * k)

/-- Where the edge leaves scanline `k`. -/
def bottom (p1 : Pt) (k : Int) : Int := min p1.y (256 * k + 256)

/-- The height of the part of the edge in scanline `k` that lies to the left of the vertical line `x`. -/
def leftOf (p0 p1 : Pt) (k x : Int) : Int :=
  let a := xAt p0 p1 (top p0 k)
  let b := xAt p0 p1 (bottom p1 k)
  if x ≤ min a b then 0
  else if max a b ≤ x then bottom p1 k - top p0 k
  else if a ≤ b then yAt p0 p1 x - top p0 k
  else bottom p1 k - yAt p0 p1 x

/-- The vertical line `x` moved to the nearest `x` coordinate the edge has in scanline `k`. -/
def clamp (p0 p1 : Pt) (k x : Int) : Int :=
  let a := xAt p0 p1 (top p0 k)
  let b := xAt p0 p1 (bottom p1 k)
  max (min a b) (min x (max a b))

/-- Twice the area of the part of pixel `x` of scanline `k` that lies to the right of the edge: the part of the edge
left of the pixel has the whole pixel to its right, the part in the pixel (straight, from the left pixel boundary or
the edge's own end to the right pixel boundary or the edge's other end) has a trapezoid to its right. -/
def cover (p0 p1 : Pt) (k x : Int) : Int :=
  if top p0 k < bottom p1 k then
    leftOf p0 p1 k (256 * x) * 512
      + (leftOf p0 p1 k (256 * x + 256) - leftOf p0 p1 k (256 * x))
        * ((256 * x + 256 - clamp p0 p1 k (256 * x)) + (256 * x + 256 - clamp p0 p1 k (256 * x + 256)))
  else 0

/-- The value of cell `x` of row `y` and all cells to the left of it after the writes `log`: what the fill adds up. -/
def acc (y x : Int) : List Ev → Int
  | [] => 0
  | .cell y' x' v :: l => (if y' = y ∧ x' ≤ x then v else 0) + acc y x l
  | _ :: l => acc y x l

/-- Bit `g` of row `y` is set by `log`. -/
def marked (y g : Int) (log : List Ev) : Prop := ∃ a b, Ev.mark y a b ∈ log ∧ a ≤ g ∧ g ≤ b

/-- The two roundings contradict each other at a pixel corner that a steep edge passes: where the edge crosses the
horizontal boundary it is already past the corner, where it crosses the vertical boundary it is already at (or past)
the corner too.  The rasterizer paints such a scanline wrongly; `C49_glitch_diagonal` shows that it only concerns lines
that are one or two units steeper than the diagonal. -/
def Glitch (p0 p1 : Pt) : Prop :=
  p1.x - p0.x ≤ p1.y - p0.y ∧ p0.x - p1.x ≤ p1.y - p0.y ∧
  ∃ c r, p0.y < 256 * r ∧ 256 * r < p1.y ∧ 256 * r ≤ yAt p0 p1 (256 * c) ∧
    ((p0.x < 256 * c ∧ 256 * c < xAt p0 p1 (256 * r)) ∨ (256 * c < p0.x ∧ xAt p0 p1 (256 * r) < 256 * c))

end Blend2D.Raster.Spec
