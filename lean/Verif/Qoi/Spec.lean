import Verif.Pixel.Spec
/-! Specification vocabulary for the QOI properties: what the pixels of a decoded image must be. -/
namespace Blend2D.Qoi.Spec
open Pixel.Spec

/-- An image of `h` rows of `w` pixels. -/
def WellFormed (w h : Nat) (rows : List (List UInt32)) : Prop :=
  rows.length = h ∧ ∀ r ∈ rows, r.length = w

/-- A 32-bit pixel with the given channels. -/
def HasChannels (p : UInt32) (a r g b : Nat) : Prop :=
  chan 3 p.toNat = a ∧ chan 2 p.toNat = r ∧ chan 1 p.toNat = g ∧ chan 0 p.toNat = b

end Blend2D.Qoi.Spec
