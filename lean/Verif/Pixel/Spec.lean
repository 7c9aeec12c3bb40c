/-!
# Specification of pixel arithmetic, independent of the model
-/
namespace Blend2D.Pixel.Spec

/-- `q` is the integer nearest to the fraction `n / d`. -/
def Nearest (q n d : Nat) : Prop := 2 * n ≤ 2 * (q * d) + d ∧ 2 * (q * d) ≤ 2 * n + d

/-- The `k`-th 8-bit component of a packed pixel (0 = blue, 1 = green, 2 = red, 3 = alpha). -/
def chan (k : Nat) (p : Nat) : Nat := p / 256 ^ k % 256

/-- The `k`-th 16-bit component of a packed 64-bit pixel. -/
def chan16 (k : Nat) (p : Nat) : Nat := p / 65536 ^ k % 65536

/-- A pixel is validly premultiplied if no colour component exceeds alpha. -/
def Premultiplied (p : Nat) : Prop := ∀ k < 3, chan k p ≤ chan 3 p

/-- Expansion of an `n`-bit component to 8 bits by bit replication
(the usual definition: repeat the bits of the component from the top). -/
def expand5 (c : Nat) : Nat := c * 8 + c / 4
def expand6 (c : Nat) : Nat := c * 4 + c / 16
def expand4 (c : Nat) : Nat := c * 16 + c

end Blend2D.Pixel.Spec
