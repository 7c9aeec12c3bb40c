/-! The PNG standard's filters (PNG specification, second edition, clause 9), on whole scanlines. -/
namespace Blend2D.Png.Spec

/-- Paeth predictor exactly as written in the standard. -/
def paeth (a b c : Nat) : Nat :=
  let p : Int := a + b - c
  let pa := (p - a).natAbs
  let pb := (p - b).natAbs
  let pc := (p - c).natAbs
  if pa ≤ pb ∧ pa ≤ pc then a else if pb ≤ pc then b else c

/-- Prediction of the filter type `t` from the byte to the left `a`, above `b` and above-left `c`. -/
def predict (t a b c : Nat) : Nat :=
  match t with
  | 1 => a
  | 2 => b
  | 3 => (a + b) / 2
  | 4 => paeth a b c
  | _ => 0

/-- Byte `i` of a scanline, `0` to the left of it. -/
def left (bpp : Nat) (r : List UInt8) (i : Nat) : Nat := if i < bpp then 0 else (r.getD (i - bpp) 0).toNat

/-- Filtering a scanline: every byte minus its prediction, modulo 256. -/
def filterRow (bpp t : Nat) (prior raw : List UInt8) : List UInt8 :=
  (List.range raw.length).map fun i =>
    UInt8.ofNat ((raw.getD i 0).toNat + 256 -
      predict t (left bpp raw i) (prior.getD i 0).toNat (left bpp prior i) % 256)

/-- A filtered image as it is stored: every scanline preceded by its filter type; the scanline before the first is
all zero. -/
def filterImage (bpp : Nat) : List UInt8 → List (UInt8 × List UInt8) → List UInt8
  | _, [] => []
  | prior, (t, raw) :: rest => t :: filterRow bpp t.toNat prior raw ++ filterImage bpp raw rest

/-- The same image unfiltered, in the same layout. -/
def rawImage (rows : List (UInt8 × List UInt8)) : List UInt8 := rows.flatMap fun r => r.1 :: r.2

end Blend2D.Png.Spec
