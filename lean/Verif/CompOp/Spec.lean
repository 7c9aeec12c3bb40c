import Mathlib.Analysis.Real.Sqrt
import Verif.CompOp.Model

/-!
# What the composition operators compute

One color channel and the alpha channel of a pixel, in exact real arithmetic (`1` is full intensity). The formulas are
the ones documented for premultiplied source and destination ("PRGBxPRGB") in compopsimplifyimpl_p.h; they are the
usual Porter-Duff and blend mode formulas. `m` is the coverage of the pixel.
-/

namespace Blend2D.CompOp

/-- A premultiplied pixel: one color channel (`Sca` or `Dca`) and alpha (`Sa` or `Da`). -/
structure Px where
  c : ℝ
  a : ℝ

/-- The source multiplied by the coverage. -/
def Px.scale (s : Px) (m : ℝ) : Px := ⟨s.c * m, s.a * m⟩

/-- Alpha of every blend mode: the union of both alphas. -/
def union (x y : ℝ) : ℝ := x + y - x * y

/-- The result of composing source `s` to destination `d` under coverage `m`. `ε` is the smallest divisor used by color
dodge and color burn (the documentation of the code uses `0.001`). -/
noncomputable def blend (ε : ℝ) (op : Op) (s d : Px) (m : ℝ) : Px :=
  let sm := s.scale m
  let keep := 1 - m
  -- The part of the source outside of the destination and of the destination outside of the source.
  let outside := sm.c * (1 - d.a) + d.c * (1 - sm.a)
  match op with
  | .clear => ⟨d.c * keep, d.a * keep⟩
  | .srcCopy => ⟨s.c * m + d.c * keep, s.a * m + d.a * keep⟩
  | .dstCopy => d
  | .srcOver => ⟨sm.c + d.c * (1 - sm.a), sm.a + d.a * (1 - sm.a)⟩
  | .dstOver => ⟨d.c + sm.c * (1 - d.a), d.a + sm.a * (1 - d.a)⟩
  | .srcIn => ⟨s.c * d.a * m + d.c * keep, s.a * d.a * m + d.a * keep⟩
  | .dstIn => ⟨d.c * s.a * m + d.c * keep, d.a * s.a * m + d.a * keep⟩
  | .srcOut => ⟨s.c * (1 - d.a) * m + d.c * keep, s.a * (1 - d.a) * m + d.a * keep⟩
  | .dstOut => ⟨d.c * (1 - sm.a), d.a * (1 - sm.a)⟩
  | .srcAtop => ⟨sm.c * d.a + d.c * (1 - sm.a), d.a⟩
  | .dstAtop => ⟨(d.c * s.a + s.c * (1 - d.a)) * m + d.c * keep, s.a * m + d.a * keep⟩
  | .xor => ⟨d.c * (1 - sm.a) + sm.c * (1 - d.a), d.a * (1 - sm.a) + sm.a * (1 - d.a)⟩
  | .plus => ⟨min 1 (d.c + sm.c), min 1 (d.a + sm.a)⟩
  | .minus => ⟨max 0 (d.c - s.c) * m + d.c * keep, union d.a sm.a⟩
  | .modulate => ⟨d.c * s.c * m + d.c * keep, d.a * s.a * m + d.a * keep⟩
  | .multiply => ⟨d.c * sm.c + outside, union d.a sm.a⟩
  | .screen => ⟨d.c + sm.c * (1 - d.c), d.a + sm.a * (1 - d.a)⟩
  | .overlay =>
    ⟨if 2 * d.c < d.a then d.c + sm.c - (d.c * sm.a + sm.c * d.a - 2 * sm.c * d.c)
     else d.c + sm.c + (d.c * sm.a + sm.c * d.a - 2 * sm.c * d.c) - sm.a * d.a, union d.a sm.a⟩
  | .darken => ⟨min (sm.c * d.a) (d.c * sm.a) + outside, union d.a sm.a⟩
  | .lighten => ⟨max (sm.c * d.a) (d.c * sm.a) + outside, union d.a sm.a⟩
  | .colorDodge => ⟨min (d.c * sm.a * sm.a / max (sm.a - sm.c) ε) (d.a * sm.a) + outside, union d.a sm.a⟩
  | .colorBurn =>
    ⟨sm.a * d.a - min (sm.a * d.a) ((d.a - d.c) * sm.a * sm.a / max sm.c ε) + outside, union d.a sm.a⟩
  | .linearBurn => ⟨max 0 (min 1 (d.c + s.c - s.a * d.a)) * m + d.c * keep, union d.a sm.a⟩
  | .linearLight =>
    ⟨min (max (d.c * sm.a + 2 * sm.c * d.a - sm.a * d.a) 0) (sm.a * d.a) + outside, union d.a sm.a⟩
  | .pinLight =>
    ⟨(if 2 * sm.c ≤ sm.a then min (d.c * sm.a) (2 * sm.c * d.a)
      else max (d.c * sm.a) (2 * sm.c * d.a - sm.a * d.a)) + outside, union d.a sm.a⟩
  | .hardLight =>
    ⟨(if 2 * sm.c ≤ sm.a then 2 * sm.c * d.c
      else sm.a * d.a - 2 * (d.a - d.c) * (sm.a - sm.c)) + outside, union d.a sm.a⟩
  | .softLight =>
    ⟨d.c + sm.c * (1 - d.a) + (2 * sm.c - sm.a) * d.a *
      (if 2 * sm.c - sm.a ≤ 0 then (d.c / d.a) * (1 - d.c / d.a)
       else if 4 * (d.c / d.a) ≤ 1 then
         4 * (d.c / d.a) * (4 * (d.c / d.a) * (d.c / d.a) + d.c / d.a - 4 * (d.c / d.a) + 1) - d.c / d.a
       else Real.sqrt (d.c / d.a) - d.c / d.a), union d.a sm.a⟩
  | .difference => ⟨d.c + sm.c - 2 * min (sm.c * d.a) (d.c * sm.a), union d.a sm.a⟩
  | .exclusion => ⟨d.c + sm.c * (d.a - 2 * d.c), union d.a sm.a⟩
  -- Internal operator: the inverse of alpha.
  | .alphaInv => ⟨d.c, (1 - d.a) * m + d.a * keep⟩

/-- Memory of one pixel: a 32-bit pixel (its top byte `x` and one color channel `c`) or an 8-bit one. -/
inductive Mem where
  | p32 (x c : ℝ)
  | p8 (a : ℝ)

/-- What a pixel of the given format means. Only formats of the same size can be read: an alpha-only pixel acts as
white, the top byte of `xrgb32` has no meaning. -/
def read : Fmt → Mem → Option Px
  | .prgb32, .p32 x c => some ⟨c, x⟩
  | .frgb32, .p32 x c => some ⟨c, x⟩
  | .zero32, .p32 x c => some ⟨c, x⟩
  | .xrgb32, .p32 _ c => some ⟨c, 1⟩
  | .a8, .p8 a => some ⟨a, a⟩
  | _, _ => none

/-- What memory of a format contains: premultiplied pixels, pixels with any top byte, opaque pixels, zeros, alphas. -/
def Valid : Fmt → Mem → Prop
  | .prgb32, .p32 x c => 0 ≤ c ∧ c ≤ x ∧ x ≤ 1
  | .xrgb32, .p32 _ c => 0 ≤ c ∧ c ≤ 1
  | .frgb32, .p32 x c => x = 1 ∧ 0 ≤ c ∧ c ≤ 1
  | .zero32, .p32 x c => x = 0 ∧ c = 0
  | .a8, .p8 a => 0 ≤ a ∧ a ≤ 1
  | _, _ => False

/-- Formats an image that is being rendered to can have. -/
def IsDst (d : Fmt) : Prop := d = .prgb32 ∨ d = .xrgb32 ∨ d = .a8

/-- Stores a pixel to memory of the given size. -/
def store : Mem → Px → Mem
  | .p32 _ _, p => .p32 p.a p.c
  | .p8 _, p => .p8 p.a

/-- Source pixel used instead of the given one. -/
def solidPx : SolidId → Option Px
  | .none => none
  | .transparent => some ⟨0, 0⟩
  | .opaqueBlack => some ⟨0, 1⟩
  | .opaqueWhite => some ⟨1, 1⟩
  | .alwaysNop => some ⟨0, 0⟩

/-- Composes one pixel of destination format `d` and source format `s`: the memory of the destination afterwards. -/
noncomputable def compose (ε : ℝ) (op : Op) (d s : Fmt) (dst src : Mem) (m : ℝ) : Option Mem := do
  let dp ← read d dst
  let sp ← read s src
  some (store dst (blend ε op sp dp m))

/-- Composes one pixel as a simplification record says. -/
noncomputable def composeInfo (ε : ℝ) (i : Info) (dst src : Mem) (m : ℝ) : Option Mem :=
  if i.solid = .alwaysNop then some dst
  else do
    let dp ← read i.dst dst
    let sp ← match solidPx i.solid with
      | some p => some p
      | none => read i.src src
    some (store dst (blend ε i.op sp dp m))

/-- Two memories of a destination of format `d` show the same pixel: the top byte of `xrgb32` is not visible. -/
def SamePixel (d : Fmt) (x y : Mem) : Prop := ∃ p, read d x = some p ∧ read d y = some p

end Blend2D.CompOp
