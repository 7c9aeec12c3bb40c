import Verif.SaveRestore.Model

/-!
# What the user sees of a rendering context, and sequences of calls
-/

namespace Blend2D.SaveRestore

open Blend2D.Matrix (Mat Box)

/-- A style as the user sees it: a colour, or a gradient or pattern with its content and its transformation. -/
inductive StyleView
  | solid (value : Nat)
  | object (content : Nat) (adjusted : Mat ℚ)
  | stale
deriving DecidableEq

/-- A style slot: the pointer to a gradient or pattern is only meaningful while the context says that it is one. -/
def styleView (c : Ctx) (b : Bool) : StyleView :=
  match c.core.style.get b with
  | .solid v => .solid v
  | .object fd a => if c.core.flags (14 + b.toNat) then .object (c.obj fd) a else .stale

/-- Everything rendering and the getters depend on, except the clip box in pixels and fixed point (see `PixelClip`). -/
structure Visible where
  hints : Hints
  compOp : Nat
  fillRule : Nat
  styleType : Two Nat
  fillStyle : StyleView
  strokeStyle : StyleView
  clipMode : Nat
  flags : Flags
  types : Types
  globalAlphaI : Int
  styleAlphaI : Two Int
  globalAlpha : ℚ
  styleAlpha : Two ℚ
  translationI : Int × Int
  approx : Approx
  tolFixed : ℚ
  user : Mat ℚ
  metaT : Mat ℚ
  finalT : Mat ℚ
  metaFixed : Mat ℚ
  finalFixed : Mat ℚ
  clip : Box ℚ

/-- What the user sees, without stroke options. -/
def visible (c : Ctx) : Visible where
  hints := c.core.hints
  compOp := c.core.compOp
  fillRule := c.core.fillRule
  styleType := c.core.styleType
  fillStyle := styleView c false
  strokeStyle := styleView c true
  clipMode := c.core.clipMode
  flags := c.core.flags
  types := c.core.types
  globalAlphaI := c.core.globalAlphaI
  styleAlphaI := c.core.styleAlphaI
  globalAlpha := c.core.globalAlpha
  styleAlpha := c.core.styleAlpha
  translationI := c.core.translationI
  approx := c.core.approx
  tolFixed := c.core.tolFixed
  user := c.core.user
  metaT := c.core.metaT
  finalT := c.core.finalT
  metaFixed := c.core.metaFixed
  finalFixed := c.core.finalFixed
  clip := c.core.clipD

/-- The clip boxes used by the rasterizer are those computed from the clip box given by the user. -/
def PixelClip (k : Core) : Prop := k.clipI = boxToI k.clipD ∧ k.clipFixed = boxFixed k.clipD

/-- Calls that are covered.  Each condition excludes calls for which the code does not keep its promise, shown by a
counterexample in `Props`: a style slot other than fill and stroke; `swap_styles` when the stroke style was not changed
since `save` and only one of the two styles is a gradient or pattern; with `ws`, `set_stroke_cap`, `set_stroke_caps`
and `set_stroke_join` when no other stroke option was changed since `save`.  `setObject` gets a pointer from an
allocator, thus one not in use; cookies are counted by a 64-bit number that must not wrap. -/
def Legal (ws : Bool) (c : Ctx) : Op → Prop
  | .disableStyle slot => slot < 2
  | .setSolid slot ty _ => slot < 2 ∧ ty < 3
  | .setObject _ _ _ _ _ _ (some fd) => c.rc fd = 0
  | .swapStyles _ => c.core.flags 23 = true → c.core.flags 15 = c.core.flags 14
  | .stroke (.cap _ _) => ws = true → c.core.flags 25 = false
  | .stroke (.caps _) => ws = true → c.core.flags 25 = false
  | .stroke (.join _) => ws = true → c.core.flags 25 = false
  | .save true _ => c.idCounter + 1 < idMax
  | _ => True

/-- `Run e ws d c c'`: a sequence of calls leads from `c` to `c'`, never with less than `d` saved states. -/
inductive Run (e : Env) (ws : Bool) (d : Nat) (c : Ctx) : Ctx → Prop
  | refl : d ≤ c.core.saved.length → Run e ws d c c
  | step {c1 c2 : Ctx} {op : Op} {r : Res} : Run e ws d c c1 → Legal ws c1 op → step e c1 op = some (c2, r) →
      d ≤ c2.core.saved.length → Run e ws d c c2

/-- States a context can get into. -/
def Reach (e : Env) (ws : Bool) (c : Ctx) : Prop := Run e ws 0 (init e) c

/-- The cookie `save` returns. -/
def cookieOf (e : Env) (c : Ctx) : Nat × Nat := (e.origin, c.idCounter)

end Blend2D.SaveRestore
