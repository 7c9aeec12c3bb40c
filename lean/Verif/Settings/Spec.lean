import Verif.Settings.Model
import Verif.FontTag.Spec
/-!
# What font settings are, independently of how they are stored

Settings are a map from tags to values.  Variables are a list of maps; `apply` says what every call does to them.
-/
namespace Blend2D.Settings.Spec

/-- Settings: every tag has a value or none. -/
abbrev Map (V : Type) := UInt32 → Option V

variable {V : Type}

/-- Settings without a value. -/
def nothing : Map V := fun _ => none

/-- Giving a tag a value, or taking it away. -/
def put (m : Map V) (tag : UInt32) (v : Option V) : Map V := fun t => if t = tag then v else m t

/-- `l` lists the tags that have a value, with their values, in strictly increasing order. -/
def Lists (l : List (UInt32 × V)) (m : Map V) : Prop :=
  l.Pairwise (fun a b => a.1 < b.1) ∧ ∀ t v, m t = some v ↔ (t, v) ∈ l

/-- A call of the API.  `i` is the object the function is called on. -/
inductive Op (V : Type) where
  | reset (i : Nat)
  | clear (i : Nat)
  | shrink (i : Nat)
  | assignWeak (i j : Nat)
  | assignMove (i j : Nat)
  | set (i : Nat) (tag : UInt32) (v : V)
  | remove (i : Nat) (tag : UInt32)

/-- The object a call is made on. -/
def Op.target : Op V → Nat
  | .reset i | .clear i | .shrink i | .assignWeak i _ | .assignMove i _ | .set i _ _ | .remove i _ => i

/-- The settings of variable `i`. -/
def get (L : List (Map V)) (i : Nat) : Map V := (L[i]?).getD nothing

/-- All settings after a successful call. -/
def apply (L : List (Map V)) : Op V → List (Map V)
  | .reset i | .clear i => L.set i nothing
  | .shrink _ => L
  | .assignWeak i j => L.set i (get L j)
  | .assignMove i j => (L.set j nothing).set i (get L j)
  | .set i tag v => L.set i (put (get L i) tag (some v))
  | .remove i tag => L.set i (put (get L i) tag none)

/-- What the caller guarantees: the objects exist. -/
def Pre (L : List (Map V)) (op : Op V) : Prop :=
  op.target < L.length ∧
  match op with
  | .assignWeak _ j | .assignMove _ j => j < L.length
  | _ => True

/-- Calls that report an invalid argument: the value is out of range, or the tag is not made of printable characters. -/
def Invalid (large : V → Bool) : Op V → Prop
  | .set _ tag v => large v = true ∨ ¬ FontTag.Spec.Printable tag
  | _ => False

end Blend2D.Settings.Spec
