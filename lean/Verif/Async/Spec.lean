import Verif.Async.Model
import Verif.Draw.Band

/-!
# What a batch must look like

A command paints every pixel of the image with the mask of the coverage of its shape at that pixel (as in C50); the
commands of a batch are painted one after the other.
-/
namespace Blend2D.Async.Spec
open Draw Draw.Spec Raster

variable {P : Type}

/-- Scanline `y` after one command. -/
def paintRow (c : Cmd P) (y : Nat) (row : List P) : List P :=
  row.mapIdx fun x d => (c.comp y).masked x d (maskOf c.rule (shape c.edges y x) c.alpha)

/-- The image after a list of commands. -/
def paint (cmds : List (Cmd P)) (img : List (List P)) : List (List P) :=
  img.mapIdx fun y row => cmds.foldl (fun row c => paintRow c y row) row

/-- What the edge builder guarantees of the edges of a shape: they go down, lie in the image and not above `y0`, are in the order
of the bands they start in, and close (`winding`). -/
structure Edges (E : Env) (y0 : Nat) (es : List Vec) : Prop where
  down : ∀ v ∈ es, Down v.pts
  some : ∀ v ∈ es, v.pts ≠ []
  box : ∀ v ∈ es, ∀ p ∈ v.pts, 0 ≤ p.x ∧ p.x ≤ 256 * E.w ∧ (y0 : Int) ≤ p.y ∧ p.y ≤ 256 * E.h
  sorted : es.Pairwise fun v w => firstY v / (256 * E.bh) ≤ firstY w / (256 * E.bh)
  closed : ∀ y, winding es y = 0

/-- The requirements of C50 on a command: a rule, an alpha and a source that exist, and a coverage that fits the cells. -/
structure CmdOk (E : Env) (c : Cmd P) : Prop where
  edges : Edges E c.y0 c.edges
  inside : c.y0 < 256 * E.h
  good : ∀ y, Fill.Good (c.comp y)
  rule : c.rule = BitVec.allOnes 32 ∨ c.rule = 0x1FF#32
  alpha : c.alpha ≤ 255
  range : ∀ y x : Nat, -(2 ^ 31) ≤ 0x20000 + shape c.edges y x ∧ 0x20000 + shape c.edges y x < 2 ^ 31

end Blend2D.Async.Spec
