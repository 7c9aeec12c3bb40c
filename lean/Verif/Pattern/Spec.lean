import Verif.Pattern.Model

/-!
# Which pixel an extend mode prescribes
-/

namespace Blend2D.Pattern

/-- The pixel of an axis of `n` pixels that the extend mode shows at position `x`: the nearest one, the one at the same
place of a tile, or the one at the same place of a tile followed by its mirror image. -/
def pixelAt (n : Int) (m : Ext) (x : Int) : Int :=
  match m with
  | .pad => if x < 0 then 0 else if x < n then x else n - 1
  | .rep => x % n
  | .reflect => if x % (2 * n) < n then x % (2 * n) else 2 * n - 1 - x % (2 * n)

theorem pixelAt_range {n : Int} (hn : 0 < n) (m : Ext) (x : Int) : 0 ≤ pixelAt n m x ∧ pixelAt n m x < n := by
  have h1 := Int.emod_nonneg x (show n ≠ 0 by omega)
  have h2 := Int.emod_lt_of_pos x hn
  have h3 := Int.emod_nonneg x (show 2 * n ≠ 0 by omega)
  have h4 := Int.emod_lt_of_pos x (show 0 < 2 * n by omega)
  cases m <;> simp only [pixelAt] <;> (try split_ifs) <;> omega

/-- Reflected tiles are seamless, repeated tiles start over, and padding stays at the border. -/
example : (List.range 12).map (fun i => pixelAt 3 .reflect ((i : Int) - 4)) = [2, 2, 1, 0, 0, 1, 2, 2, 1, 0, 0, 1] := by decide
example : (List.range 8).map (fun i => pixelAt 3 .rep ((i : Int) - 4)) = [2, 0, 1, 2, 0, 1, 2, 0] := by decide
example : (List.range 8).map (fun i => pixelAt 3 .pad ((i : Int) - 2)) = [0, 0, 0, 1, 2, 2, 2, 2] := by decide

/-- Where the pipeline is: destination position of the next pixel and of the scanline. -/
structure Pos where
  x : Int
  y : Int

/-- Movement of the position by calls of the pipeline; `x0` is the left edge of a rectangle. -/
def Pos.move (x0 : Int) (p : Pos) : Call → Pos
  | .advanceY => { p with y := p.y + 1 }
  | .rectStart => { p with x := x0 }
  | .spanStart x => { p with x := x }
  | .spanAdvance n => { p with x := p.x + n }
  | .fetch => { p with x := p.x + 1 }

end Blend2D.Pattern

namespace Blend2D.Pattern

/-- Calls the pipeline makes: every scanline starts with `rectStart` (when the fetcher was initialized for a rectangle,
`rect`) or `spanStart`, positions are not negative and a span advances by less than 2^32 bytes. -/
def legal (bpp : Int) (rect : Bool) : Bool → List Call → Prop
  | _, [] => True
  | _, .advanceY :: cs => legal bpp rect false cs
  | _, .rectStart :: cs => rect = true ∧ legal bpp rect true cs
  | _, .spanStart x :: cs => rect = false ∧ 0 ≤ x ∧ legal bpp rect true cs
  | st, .spanAdvance n :: cs => st = true ∧ 0 ≤ n ∧ n * bpp < 2 ^ 32 ∧ legal bpp rect true cs
  | st, .fetch :: cs => st = true ∧ legal bpp rect true cs

/-- The destination pixels that are fetched by a sequence of calls. -/
def fetched (x0 : Int) (p : Pos) : List Call → List Pos
  | [] => []
  | .fetch :: cs => p :: fetched x0 (p.move x0 .fetch) cs
  | c :: cs => fetched x0 (p.move x0 c) cs

/-- Addresses an aligned fetcher reads in a sequence of calls. -/
def Aligned.run (bpp : Int) (k : Horz) (s : Aligned) : List Call → List Int
  | [] => []
  | c :: cs => (s.call bpp k c).2.toList ++ Aligned.run bpp k (s.call bpp k c).1 cs

/-- Colour values a fractional fetcher returns in a sequence of calls. -/
def FxFy.run (img : Int → Nat) (bpp : Int) (d : Data) (k : Horz) (s : FxFy) : List Call → List Nat
  | [] => []
  | c :: cs => (s.call img bpp d k c).2.toList ++ FxFy.run img bpp d k (s.call img bpp d k c).1 cs

/-- The byte offset of the pixel shown at position `(x, y)` of the pattern's own coordinate system. -/
def address (w h stride bpp : Int) (mx my : Ext) (x y : Int) : Int :=
  pixelAt h my y * stride + pixelAt w mx x * bpp

end Blend2D.Pattern
