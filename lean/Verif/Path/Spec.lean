import Verif.Path.Info
/-!
# What the functions of `BLPath` should do

A path is a list of commands with their vertices; the functions are described by what they do to that list.
-/
namespace Blend2D.Path.Spec
open Blend2D.Path

/-- The commands and vertices a caller can read: `size()`, `command_data()`, `vertex_data()`. -/
def content (s : St) (i : Nat) : Option (List Item) := do
  let (x, _) ← look s i
  itemsIn x

/-- A range `[start, end)` or everything. -/
abbrev Range := Option (Nat × Nat)

/-- Is `k` in the range? -/
def inRange : Range → Nat → Bool
  | none, _ => true
  | some (a, b), k => decide (a ≤ k) && decide (k < b)

/-- The items in a range. -/
def slice : Range → List Item → List Item
  | none, xs => xs
  | some (a, b), xs => (xs.take b).drop a

/-- The items that are not in a range. -/
def without : Range → List Item → List Item
  | none, _ => []
  | some (a, b), xs => if a < b then xs.take a ++ xs.drop b else xs

/-- All vertices mapped. -/
def mapVtx (f : Pt → Pt) (xs : List Item) : List Item := xs.map (fun t => ⟨t.cmd, f t.vtx⟩)

/-- The vertices in a range mapped. -/
def mapIn (r : Range) (f : Pt → Pt) (xs : List Item) : List Item :=
  xs.mapIdx (fun k t => if inRange r k then ⟨t.cmd, f t.vtx⟩ else t)

/-- The control point of a smooth curve: the last control point mirrored at the last vertex, if the last curve was of the
same kind; otherwise the last vertex. -/
def smoothCtrl (cmd : Nat) (xs : List Item) : Option Pt :=
  match xs.reverse with
  | [] => none
  | l :: t =>
    if l.cmd = cClose ∨ l.cmd = cWeight ∨ l.cmd > cWeight then none
    else match t with
      | [] => some l.vtx
      | c :: _ => if c.cmd = cmd then some ⟨F.add l.vtx.x (F.sub l.vtx.x c.vtx.x), F.add l.vtx.y (F.sub l.vtx.y c.vtx.y)⟩ else some l.vtx

/-- What a geometry looks like. -/
def outline (kappa : Rat) (cw : Bool) : Geo → List Item
  | .polyline ps => polyItems (if cw then ps else ps.reverse)
  | .polygon [] => []
  | .polygon ps => polyItems (if cw then ps else ps.reverse) ++ [⟨cClose, nanPt⟩]
  | .boxes bs => ((if cw then bs else bs.reverse).filter boxValid).flatMap (fun b => boxItems b.1 b.2.1 b.2.2.1 b.2.2.2 cw)
  | g => (g.items kappa cw).getD []

/-- Commands that make sense: a figure starts with MOVE, every curve is complete and starts at a vertex; after CLOSE a new
figure starts.  `b`: there is a vertex the next command can start at. -/
inductive Valid : Bool → List Nat → Prop
  | nil (b : Bool) : Valid b []
  | move (b : Bool) (cs : List Nat) : Valid true cs → Valid b (0 :: cs)
  | line (cs : List Nat) : Valid true cs → Valid true (1 :: cs)
  | quad (c : Nat) (cs : List Nat) : Valid true cs → Valid true (2 :: c :: cs)
  | conic (c d : Nat) (cs : List Nat) : Valid true cs → Valid true (3 :: c :: d :: cs)
  | cubic (c d : Nat) (cs : List Nat) : Valid true cs → Valid true (4 :: c :: d :: cs)
  | close (b : Bool) (cs : List Nat) : Valid false cs → Valid b (5 :: cs)

/-- The functions that change a path. -/
inductive Call where
  | simple (c : Simple)
  | smoothQuadTo (p2 : Pt)
  | smoothCubicTo (p2 p3 : Pt)
  | setVertexAt (index : Nat) (cmd : Option Nat) (p : Pt)
  | addPath (other : Nat) (range : Range) (f : Pt → Pt)
  | transform (range : Range) (f : Pt → Pt)
  | removeRange (range : Range)
  | clear
  | reset
  | reserve (n : Nat)
  | shrink
  | assignDeep (other : Nat)
  | geometry (g : Geo) (cw : Bool) (f : Option (Pt → Pt))
  /-- `modify_op`, and all items written by the caller. -/
  | modify (assign grow : Bool) (xs : List Item)

open Classical in
/-- What the call should return and what the path should be afterwards; `get` are the paths before. -/
noncomputable def apply (kappa : Rat) (get : Nat → Option (List Item)) (xs : List Item) : Call → Result × List Item
  | .simple (.moveTo p) => (.success, xs ++ [⟨cMove, p⟩])
  | .simple (.lineTo p) => (.success, xs ++ [⟨cOn, p⟩])
  | .simple (.polyTo ps) => (.success, xs ++ ps.map (fun p => ⟨cOn, p⟩))
  | .simple (.quadTo p1 p2) => (.success, xs ++ [⟨cQuad, p1⟩, ⟨cOn, p2⟩])
  | .simple (.conicTo p1 p2 w) => (.success, xs ++ [⟨cConic, p1⟩, ⟨cWeight, ⟨w, none⟩⟩, ⟨cOn, p2⟩])
  | .simple (.cubicTo p1 p2 p3) => (.success, xs ++ [⟨cCubic, p1⟩, ⟨cCubic, p2⟩, ⟨cOn, p3⟩])
  | .simple .close => (.success, xs ++ [⟨cClose, ⟨none, none⟩⟩])
  | .simple (.box x0 y0 x1 y1 cw) =>
    (.success, xs ++ [⟨cMove, ⟨x0, y0⟩⟩, ⟨cOn, if cw then ⟨x1, y0⟩ else ⟨x0, y1⟩⟩, ⟨cOn, ⟨x1, y1⟩⟩,
      ⟨cOn, if cw then ⟨x0, y1⟩ else ⟨x1, y0⟩⟩, ⟨cClose, ⟨none, none⟩⟩])
  | .simple (.rect x y w h cw) =>
    (.success, xs ++ [⟨cMove, ⟨x, y⟩⟩, ⟨cOn, if cw then ⟨F.add w x, y⟩ else ⟨x, F.add h y⟩⟩, ⟨cOn, ⟨F.add w x, F.add h y⟩⟩,
      ⟨cOn, if cw then ⟨x, F.add h y⟩ else ⟨F.add w x, y⟩⟩, ⟨cClose, ⟨none, none⟩⟩])
  | .smoothQuadTo p2 =>
    match smoothCtrl cQuad xs with
    | none => (.noMatchingVertex, xs)
    | some p => (.success, xs ++ [⟨cQuad, p⟩, ⟨cOn, p2⟩])
  | .smoothCubicTo p2 p3 =>
    match smoothCtrl cCubic xs with
    | none => (.noMatchingVertex, xs)
    | some p => (.success, xs ++ [⟨cCubic, p⟩, ⟨cCubic, p2⟩, ⟨cOn, p3⟩])
  | .setVertexAt k cmd p =>
    match xs[k]? with
    | none => (.invalidValue, xs)
    | some t => (.success, xs.set k ⟨(cmd.getD t.cmd) % 256, p⟩)
  | .addPath j range f => (.success, xs ++ mapVtx f (slice range ((get j).getD [])))
  | .transform range f => (.success, mapIn range f xs)
  | .removeRange range => (.success, without range xs)
  | .clear => (.success, [])
  | .reset => (.success, [])
  | .reserve _ => (.success, xs)
  | .shrink => (if Valid false (xs.map (·.cmd)) then .success else .invalidGeometry, xs)
  | .assignDeep j => (.success, (get j).getD [])
  | .geometry g cw f => (.success, xs ++ (match f with | none => outline kappa cw g | some f => mapVtx f (outline kappa cw g)))
  | .modify assign _ ys => (.success, (if assign then [] else xs) ++ ys)

/-- What a path consists of: points at which figures start, and segments with the vertex they start at. -/
inductive Seg where
  | move (p : Pt)
  | line (a b : Pt)
  | quad (a c b : Pt)
  | conic (a c w b : Pt)
  | cubic (a c d b : Pt)

/-- The segments; `cur` is the current vertex, if there is one. -/
def segs : (cur : Option Pt) → List Item → List Seg
  | _, [] => []
  | cur, i :: t =>
    if i.cmd = cMove then .move i.vtx :: segs (some i.vtx) t
    else if i.cmd = cClose then segs none t
    else match cur with
      | none => []
      | some a =>
        if i.cmd = cOn then .line a i.vtx :: segs (some i.vtx) t
        else match t with
          | [] => []
          | e :: t =>
            if i.cmd = cQuad then .quad a i.vtx e.vtx :: segs (some e.vtx) t
            else match t with
              | [] => []
              | f :: t =>
                if i.cmd = cConic then .conic a i.vtx e.vtx f.vtx :: segs (some f.vtx) t
                else if i.cmd = cCubic then .cubic a i.vtx e.vtx f.vtx :: segs (some f.vtx) t
                else []

/-- The vertex a segment ends at. -/
def Seg.stop : Seg → Pt
  | .move p => p
  | .line _ b => b
  | .quad _ _ b => b
  | .conic _ _ _ b => b
  | .cubic _ _ _ b => b

/-- Bezier curves of the first, second and third degree. -/
def bez1 (a b t : Rat) : Rat := (1 - t) * a + t * b
@[inherit_doc bez1] def bez2 (a c b t : Rat) : Rat := (1 - t) ^ 2 * a + 2 * t * (1 - t) * c + t ^ 2 * b
@[inherit_doc bez1] def bez3 (a c d b t : Rat) : Rat := (1 - t) ^ 3 * a + 3 * t * (1 - t) ^ 2 * c + 3 * t ^ 2 * (1 - t) * d + t ^ 3 * b

/-- The segment goes through the point `(x, y)`.  Not for conics. -/
def Seg.Through (x y : Rat) : Seg → Prop
  | .move p => p = ⟨some x, some y⟩
  | .line ⟨some ax, some ay⟩ ⟨some bx, some by'⟩ => ∃ t, 0 ≤ t ∧ t ≤ 1 ∧ x = bez1 ax bx t ∧ y = bez1 ay by' t
  | .quad ⟨some ax, some ay⟩ ⟨some cx, some cy⟩ ⟨some bx, some by'⟩ =>
    ∃ t, 0 ≤ t ∧ t ≤ 1 ∧ x = bez2 ax cx bx t ∧ y = bez2 ay cy by' t
  | .cubic ⟨some ax, some ay⟩ ⟨some cx, some cy⟩ ⟨some dx, some dy⟩ ⟨some bx, some by'⟩ =>
    ∃ t, 0 ≤ t ∧ t ≤ 1 ∧ x = bez3 ax cx dx bx t ∧ y = bez3 ay cy dy by' t
  | _ => False

/-- Moves, lines and quadratic curves. -/
def Seg.Basic : Seg → Prop
  | .conic .. => False
  | .cubic .. => False
  | _ => True

/-- Not a NaN. -/
def Fin (p : Pt) : Prop := ∃ x y, p = ⟨some x, some y⟩

/-- No vertex is a NaN. -/
def Seg.Finite : Seg → Prop
  | .move p => Fin p
  | .line a b => Fin a ∧ Fin b
  | .quad a c b => Fin a ∧ Fin c ∧ Fin b
  | .conic a c w b => Fin a ∧ Fin c ∧ Fin w ∧ Fin b
  | .cubic a c d b => Fin a ∧ Fin c ∧ Fin d ∧ Fin b

/-- A point `(x, y)` is in the box. -/
def Box.Has (b : Box) (x y : Rat) : Prop := b.x0 ≤ x ∧ x ≤ b.x1 ∧ b.y0 ≤ y ∧ y ≤ b.y1

/-- The smallest box with all points of `P`. -/
structure IsBounds (b : Box) (P : Rat → Rat → Prop) : Prop where
  has : ∀ x y, P x y → Box.Has b x y
  left : ∃ y, P b.x0 y
  right : ∃ y, P b.x1 y
  top : ∃ x, P x b.y0
  bottom : ∃ x, P x b.y1

/-- A figure starts at `k`: at the begin of the path, at each MOVE, and after each CLOSE. -/
def Starts (cs : List Nat) (k : Nat) : Prop := k = 0 ∨ cs[k]? = some cMove ∨ cs[k - 1]? = some cClose

/-- `[a, b)` is the figure of the command number `k`. -/
structure IsFigure (cs : List Nat) (k a b : Nat) : Prop where
  inside : a ≤ k ∧ k < b ∧ b ≤ cs.length
  starts : Starts cs a
  ends : b = cs.length ∨ Starts cs b
  one : ∀ m, a < m → m < b → ¬ Starts cs m

/-! ## Programs -/

/-- What a program does with its paths. -/
inductive Act where
  | call (i : Nat) (c : Call)
  /-- `assign`, a weak copy. -/
  | copy (i j : Nat)
  /-- `assign` of a path that is moved. -/
  | move (i j : Nat)
  /-- `get_info_flags`, `get_control_box` or `get_bounding_box`. -/
  | info (i : Nat)

/-- The path number `i`. -/
def get (L : List (List Item)) (i : Nat) : List Item := (L[i]?).getD []

/-- The paths after an action that did not run out of memory. -/
noncomputable def after (kappa : Rat) (L : List (List Item)) : Act → List (List Item)
  | .call i c => L.set i (apply kappa (fun j => L[j]?) (get L i) c).2
  | .copy i j => L.set i (get L j)
  | .move i j => (L.set j []).set i (get L j)
  | .info _ => L

/-- What an action should return. -/
noncomputable def answer (kappa : Rat) (L : List (List Item)) : Act → Option Result
  | .call i c => some (apply kappa (fun j => L[j]?) (get L i) c).1
  | .copy _ _ => some .success
  | .move _ _ => some .success
  | .info _ => none

/-- Paths are used that exist. -/
def Act.Pre (L : List (List Item)) : Act → Prop
  | .call i (.addPath j _ _) => i < L.length ∧ j < L.length
  | .call i (.assignDeep j) => i < L.length ∧ j < L.length
  | .call i _ => i < L.length
  | .copy i j => i < L.length ∧ j < L.length
  | .move i j => i < L.length ∧ j < L.length
  | .info i => i < L.length

/-- How many items an action could need room for. -/
def demand (L : List (List Item)) : Act → Nat
  | .call i c => (get L i).length + match c with
    | .simple (.polyTo ps) => ps.length
    | .addPath j _ _ => (get L j).length
    | .assignDeep j => (get L j).length
    | .reserve n => n
    | .geometry (.polyline ps) _ _ => ps.length
    | .geometry (.polygon ps) _ _ => ps.length + 1
    | .geometry (.boxes bs) _ _ => 5 * bs.length
    | .modify _ _ ys => ys.length
    | _ => 18
  | _ => 0

end Blend2D.Path.Spec
