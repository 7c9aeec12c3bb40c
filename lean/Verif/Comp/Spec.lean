import Verif.Pixel.Spec
/-!
# Specification of compositing on 8-bit components

Each operator is given component by component on integers in `0..255`; `mul255 x y` is the integer
nearest to `x * y / 255`.
-/
namespace Blend2D.Comp.Spec
open Pixel.Spec

/-- The integer nearest to `n / 255` (ties are impossible because 255 is odd). -/
def round255 (n : Nat) : Nat := (2 * n + 255) / 510

/-- `x * y / 255`, rounded. -/
def mul255 (x y : Nat) : Nat := round255 (x * y)

/-- Source copy with mask: linear interpolation between destination and source. -/
def copyMask (d s m : Nat) : Nat := round255 (d * (255 - m) + s * m)

/-- Source over: `s + d * (1 - sa)`. -/
def over (d s sa : Nat) : Nat := s + mul255 d (255 - sa)

/-- Saturating addition. -/
def satAdd (d s : Nat) : Nat := min 255 (d + s)

end Blend2D.Comp.Spec
