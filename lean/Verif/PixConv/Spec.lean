import Verif.PixConv.Model
import Verif.Pixel.Spec

/-!
# Specification of pixel conversions

What a pixel of a format shows, whatever the code does: the number the bytes of the pixel make, the components in it and
the colour with 8 bits per component.
-/
namespace Blend2D.PixConv.Spec
open Blend2D.Pixel.Spec (Nearest)

/-- A number written in bytes, the most significant byte first (`big`) or last. -/
def number (big : Bool) (bytes : List UInt8) : Nat :=
  if big then bytes.foldl (fun n b => n * 256 + b.toNat) 0 else bytes.foldr (fun b n => b.toNat + 256 * n) 0

/-- The bytes of pixel `i` of a row with `n` bytes per pixel. -/
def slice (n i : Nat) (row : List UInt8) : List UInt8 := (row.drop (i * n)).take n

/-- Pixel `i` of a row. -/
def pixel (f : Fmt) (row : List UInt8) (i : Nat) : Nat := number f.swap (slice (f.depth / 8) i row)

/-- The bits of a component. -/
def field (c : Ch) (p : Nat) : Nat := p / 2 ^ c.shift % 2 ^ c.size

/-- A component of `m` bits as a component of `n` bits: the first `n` bits of the component repeated again and again, which
are the first bits of the fraction `v / (2 ^ m - 1)`. -/
def scale (m n v : Nat) : Nat := min (2 ^ n - 1) (2 ^ n * v / (2 ^ m - 1))

/-- Red, green, blue and alpha of 8 bits. -/
structure Color where
  r : Nat
  g : Nat
  b : Nat
  a : Nat

/-- The colour a pixel of a format shows: without alpha it is opaque, without colour it is white. -/
def color (f : Fmt) (p : Nat) : Color where
  r := if f.rgb ∨ f.lum then scale f.r.size 8 (field f.r p) else 255
  g := if f.rgb ∨ f.lum then scale f.g.size 8 (field f.g p) else 255
  b := if f.rgb ∨ f.lum then scale f.b.size 8 (field f.b p) else 255
  a := if f.alpha then scale f.a.size 8 (field f.a p) else 255

/-- The components of a pixel are multiplied by its alpha. -/
def isPremultiplied (f : Fmt) : Prop := f.alpha = true ∧ f.prem = true ∧ (f.rgb = true ∨ f.lum = true)

/-- `c'` is the colour `c` with components multiplied by alpha, to the nearest integer. -/
def Times (c c' : Color) : Prop :=
  Nearest c'.r (c.r * c.a) 255 ∧ Nearest c'.g (c.g * c.a) 255 ∧ Nearest c'.b (c.b * c.a) 255 ∧ c'.a = c.a

/-- `c'` is the premultiplied colour of a pixel of a format. -/
def Premultiplied (f : Fmt) (p : Nat) (c' : Color) : Prop :=
  (isPremultiplied f → c' = color f p) ∧ (¬ isPremultiplied f → Times (color f p) c')

/-- `c'` is the colour `c` with components divided by alpha, to the nearest integer. -/
def Over (c c' : Color) : Prop :=
  c'.a = c.a ∧ (c.a ≠ 0 → Nearest c'.r (c.r * 255) c.a ∧ Nearest c'.g (c.g * 255) c.a ∧ Nearest c'.b (c.b * 255) c.a)

/-- The components of a premultiplied colour do not exceed its alpha. -/
def Valid (c : Color) : Prop := c.r ≤ c.a ∧ c.g ≤ c.a ∧ c.b ≤ c.a

/-- The components of a pixel of a format are those of a colour. -/
def Stores (f : Fmt) (p : Nat) (c : Color) : Prop :=
  field f.r p = scale 8 f.r.size c.r ∧ field f.g p = scale 8 f.g.size c.g ∧ field f.b p = scale 8 f.b.size c.b ∧
  field f.a p = scale 8 f.a.size c.a

/-- A native pixel: alpha, red, green and blue from the most significant byte on. -/
def native (c : Color) : Nat := c.a * 2 ^ 24 + c.r * 2 ^ 16 + c.g * 2 ^ 8 + c.b

/-- A byte-swapped format has a component that spans two bytes, or all of its components are whole bytes. -/
def SwapOk (f : Fmt) : Prop :=
  f.swap = true →
    (∃ c ∈ [f.r, f.g, f.b, f.a], c.size ≠ 0 ∧ c.shift / 8 ≠ (c.shift + c.size - 1) / 8) ∨
    (∀ c ∈ [f.r, f.g, f.b, f.a], c.size = 0 ∨ c.size = 8)

end Blend2D.PixConv.Spec
