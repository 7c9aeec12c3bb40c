import Verif.FillMask.Model
/-!
# Specification of boxes and masks
-/
namespace Blend2D.FillMask.Spec

/-- How much of the pixel `x`, in 256 parts, is covered by the interval from `a` to `b` (in 1/256 of pixels). -/
def cov (a b x : Nat) : Nat := min b (256 * x + 256) - max a (256 * x)

/-- The mask of the pixel (`x`, `y`) for a box: the covered area (65536 for the whole pixel) times alpha. -/
def boxMask (alpha x0 y0 x1 y1 x y : Nat) : Nat := cov x0 x1 x * cov y0 y1 y * alpha / 65536

end Blend2D.FillMask.Spec
