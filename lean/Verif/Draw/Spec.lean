import Verif.Raster.Spec
import Verif.Raster.Lemmas
import Verif.Draw.Model

/-!
# What a filled shape must look like

A shape is a list of edge vectors; an edge vector is a chain of lines that go down, with a direction.  The coverage of a
pixel is the sum of the signed coverages (`Raster.Spec.cover`: twice the area right of the line, crossings rounded to units)
of all lines of the shape.
-/
namespace Blend2D.Draw.Spec
open Raster (Pt sgn)
open Raster.Spec (cover top bottom Glitch)

/-- The coverage of pixel `x` of scanline `y` by a chain of lines. -/
def chain : List Pt → Int → Int → Int
  | p :: q :: l, y, x => cover p q y x + chain (q :: l) y x
  | _, _, _ => 0

/-- The coverage by all edges of a shape. -/
def shape : List Vec → Int → Int → Int
  | [], _, _ => 0
  | v :: l, y, x => sgn v.neg * chain v.pts y x + shape l y x

/-- The height of the line from `p` down to `q` in scanline `y`. -/
def height (p q : Pt) (y : Int) : Int := max 0 (bottom q y - top p y)

/-- The height of a chain in scanline `y`. -/
def chainHeight : List Pt → Int → Int
  | p :: q :: l, y => height p q y + chainHeight (q :: l) y
  | _, _ => 0

/-- What goes up minus what goes down in scanline `y`; zero for closed outlines. -/
def winding : List Vec → Int → Int
  | [], _ => 0
  | v :: l, y => sgn v.neg * chainHeight v.pts y + winding l y

/-- A chain goes down, and none of its lines is one of the few that the rasterizer draws wrongly (C49). -/
def Down : List Pt → Prop
  | p :: q :: l => p.y ≤ q.y ∧ ¬ Glitch p q ∧ Down (q :: l)
  | _ => True

end Blend2D.Draw.Spec
