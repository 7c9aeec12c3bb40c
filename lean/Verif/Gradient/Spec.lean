import Verif.Gradient.Model
/-!
# What a gradient is, independently of how it is stored

`apply` says what a call should do to the gradient it is made on, following the documentation in `gradient.h:635-697`.
`effect` says what the code does; it differs from `apply` only where the code is wrong, see `Right`.
-/
namespace Blend2D.Gradient.Spec
open Blend2D.Arr (Result)

/-- The value of a gradient. -/
structure G where
  fields : Fields
  stops : List Stop
  values : List Rat
  transform : Mat

/-- A default constructed gradient. -/
def G.default : G := ⟨⟨0, 0, .identity⟩, [], List.replicate 6 0, Matrix.identity⟩

/-- Offsets are within `[0, 1]`, they do not descend, and no three stops have the same offset. -/
structure Valid (l : List Stop) : Prop where
  range : ∀ s ∈ l, 0 ≤ s.offset ∧ s.offset ≤ one
  sorted : l.Pairwise (fun a b => a.offset ≤ b.offset)
  two : ∀ x : Int, l.countP (fun s => s.offset = x) ≤ 2

/-- A call on one gradient.  The `rgba32` variants convert the color and call the `rgba64` one. -/
inductive Call where
  | reset
  | create (type extend : Nat) (values : List Rat) (m : Mat) (rs : List Raw)
  | shrink
  | reserve (n : Nat)
  | setType (type : Nat)
  | setExtend (extend : Nat)
  | setValues (index : Nat) (vs : List Rat)
  | resetStops
  | assignStops (rs : List Raw)
  | addStop (offset : F) (rgba : Nat)
  | removeStop (index : Nat)
  | removeByOffset (offset : F) (all : Bool)
  | removeByIndex (a b : Nat)
  | removeByOffsets (lo hi : F)
  | replaceStop (index : Nat) (offset : F) (rgba : Nat)
  | resetTransform
  | applyTransform (g : Mat → Mat)

/-- A call: on gradient `i`, or an assignment of gradient `j` to it. -/
inductive Op where
  | on (i : Nat) (c : Call)
  | assignWeak (i j : Nat)
  | assignMove (i j : Nat)

/-- `true` for the numbers within `[0, 1]`. -/
def inUnit : F → Bool
  | some x => 0 ≤ x ∧ x ≤ one
  | none => false

/-- Of several stops in a row that have one offset only the first and the last one are kept. -/
def thin : List Stop → List Stop
  | [] => []
  | [a] => [a]
  | [a, b] => [a, b]
  | a :: b :: c :: t =>
    if a.offset = b.offset ∧ b.offset = c.offset then thin (a :: c :: t) else a :: thin (b :: c :: t)
termination_by l => l.length

/-- The stops sorted by offset; those with the same offset keep their order. -/
def sort (l : List Stop) : List Stop := l.mergeSort (fun a b => a.offset ≤ b.offset)

/-- What assigning a list of stops should make of it. -/
def normalize (l : List Stop) : List Stop := thin (sort l)

/-- Adding a stop: after all stops whose offset is not greater; it takes the place of the second stop at its offset. -/
def add (l : List Stop) (s : Stop) : List Stop :=
  let before := l.takeWhile (fun t => t.offset ≤ s.offset)
  let after := l.dropWhile (fun t => t.offset ≤ s.offset)
  if l.countP (fun t => t.offset = s.offset) ≥ 2 then before.dropLast ++ s :: after else before ++ s :: after

/-- Is the offset within the interval?  A NaN as the lower bound is no bound. -/
def within (lo hi : F) (x : Int) : Bool := !(F.lt (some x) lo) && F.le (some x) hi

/-- The result of a call, and the gradient after it, provided that there is enough memory. -/
def apply (g : G) : Call → Result × G
  | .reset => (.success, .default)
  | .create type extend values m rs =>
    if type > 2 ∨ extend > 2 ∨ ¬ (rs.all (fun r => inUnit r.offset)) then (.invalidValue, g)
    else (.success, ⟨⟨type, extend, Matrix.getType m⟩, normalize (rs.map Raw.num), initValues values (valueCount type), m⟩)
  | .shrink => (.success, g)
  | .reserve _ => (.success, g)
  | .setType type => if type > 2 then (.invalidValue, g) else (.success, { g with fields := { g.fields with type := type } })
  | .setExtend e => if e > 2 then (.invalidValue, g) else (.success, { g with fields := { g.fields with extend := e } })
  | .setValues k vs =>
    if k > 5 ∨ vs.length > 6 - k then (.invalidValue, g) else (.success, { g with values := overwrite g.values k vs })
  | .resetStops => (.success, { g with stops := [] })
  | .assignStops rs =>
    if ¬ (rs.all (fun r => inUnit r.offset)) then (.invalidValue, g) else (.success, { g with stops := normalize (rs.map Raw.num) })
  | .addStop x rgba => if inUnit x then (.success, { g with stops := add g.stops ⟨x.getD 0, rgba⟩ }) else (.invalidValue, g)
  | .removeStop k => if k > g.stops.length then (.invalidValue, g) else (.success, { g with stops := g.stops.eraseIdx k })
  | .removeByOffset x all =>
    if inUnit x then
      (.success, { g with stops := if all then g.stops.filter (fun s => s.offset ≠ x.getD 0) else g.stops.eraseP (fun s => s.offset = x.getD 0) })
    else (.invalidValue, g)
  | .removeByIndex a b =>
    if a > g.stops.length ∨ b < a then (.invalidValue, g) else (.success, { g with stops := g.stops.take a ++ g.stops.drop b })
  | .removeByOffsets lo hi =>
    if F.lt hi lo then (.invalidValue, g) else (.success, { g with stops := g.stops.filter (fun s => !within lo hi s.offset) })
  | .replaceStop k x rgba =>
    match g.stops[k]? with
    | none => (.invalidValue, g)
    | some t =>
      if inUnit x then
        (.success, { g with stops := if t.offset = x.getD 0 then g.stops.set k ⟨t.offset, rgba⟩ else add (g.stops.eraseIdx k) ⟨x.getD 0, rgba⟩ })
      else (.invalidValue, g)
  | .resetTransform => (.success, { g with transform := Matrix.identity, fields := { g.fields with ttype := .identity } })
  | .applyTransform f => (.success, { g with transform := f g.transform, fields := { g.fields with ttype := Matrix.getType (f g.transform) } })

/-- Values that the type of the gradient does not have. -/
def trim (g : G) : List Rat := initValues g.values (valueCount g.fields.type)

/-- What the code makes of a list of stops: when it has to sort it loses the last one. -/
def assigned (rs : List Raw) : List Stop :=
  if analyze rs = .conforming then rs.map Raw.num else thin ((sort (rs.map Raw.num)).dropLast)

/-- What the code does; `own` says that the impl is not shared. -/
def effect (own : Bool) (g : G) (c : Call) : Result × G :=
  let kept (l : List Stop) : List Stop := if own ∨ l.length = g.stops.length then l else []
  let vals : List Rat := if own then g.values else trim g
  match c with
  | .create type extend values m rs =>
    if type > 2 ∨ extend > 2 ∨ ¬ (rs.all (fun r => inUnit r.offset)) then (.invalidValue, g)
    else (.success, ⟨⟨type, extend, Matrix.getType m⟩, assigned rs, initValues values (valueCount type), m⟩)
  | .setValues k vs =>
    if k > 5 ∨ vs.length > 6 - k then (.invalidValue, g)
    else if vs = [] then (.success, g)
    else (.success, { g with values := overwrite vals k vs })
  | .assignStops rs =>
    if ¬ (rs.all (fun r => inUnit r.offset)) then (.invalidValue, g) else (.success, { g with stops := assigned rs })
  | .addStop x rgba =>
    if inUnit x then
      (.success, { g with
        stops := add g.stops ⟨x.getD 0, rgba⟩
        values := if g.stops.countP (fun t => t.offset = x.getD 0) ≥ 2 then vals else g.values })
    else (.invalidValue, g)
  | .removeStop k => if k > g.stops.length then (.invalidValue, g) else (.success, { g with stops := kept (g.stops.eraseIdx k) })
  | .removeByOffset x all =>
    if inUnit x then
      (.success, { g with stops := kept (if all then g.stops.filter (fun s => s.offset ≠ x.getD 0) else g.stops.eraseP (fun s => s.offset = x.getD 0)) })
    else (.invalidValue, g)
  | .removeByIndex a b =>
    if a > g.stops.length ∨ b < a then (.invalidValue, g) else (.success, { g with stops := kept (g.stops.take a ++ g.stops.drop b) })
  | .removeByOffsets lo hi =>
    if F.lt hi lo then (.invalidValue, g) else (.success, { g with stops := kept (g.stops.filter (fun s => !within lo hi s.offset)) })
  | .replaceStop k x rgba =>
    match g.stops[k]? with
    | none => (.invalidValue, g)
    | some t =>
      if inUnit x then
        (.success, { g with
          stops := if t.offset = x.getD 0 then g.stops.set k ⟨t.offset, rgba⟩ else add (g.stops.eraseIdx k) ⟨x.getD 0, rgba⟩
          values := vals })
      else (.invalidValue, { g with stops := g.stops.eraseIdx k, values := vals })
  | .resetTransform =>
    if g.fields.ttype = .identity then (.success, g)
    else (.success, { g with transform := Matrix.identity, values := vals, fields := { g.fields with ttype := .identity } })
  | .applyTransform f =>
    (.success, { g with transform := f g.transform, values := vals, fields := { g.fields with ttype := Matrix.getType (f g.transform) } })
  | c => apply g c

/-- The arguments a caller may pass: arrays that fit in memory, enough values, 64-bit numbers. -/
def Pre (g : G) : Call → Prop
  | .create type _ values _ rs => valueCount type ≤ values.length ∧ rs.length < 2 ^ 58
  | .assignStops rs => rs.length < 2 ^ 58
  | .reserve n => n < 2 ^ 60 - 9
  | .removeStop k => k < 2 ^ 64
  | .addStop _ _ => g.stops.length < 2 ^ 58
  | _ => True

/-- `reserve` on a shared gradient is memory safe only if it asks for enough room (or for two stops). -/
def Safe (own : Bool) (g : G) : Call → Prop
  | .reserve n => own = true ∨ g.stops.length ≤ max n 2
  | _ => True

/-- The gradients a program has. -/
def get (L : List G) (i : Nat) : G := (L[i]?).getD .default

end Blend2D.Gradient.Spec
