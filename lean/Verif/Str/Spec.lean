import Verif.Str.Model
/-!
# What a string is, independently of how it is stored

Variables are a list of byte lists.  `apply` says what every call does to them.
-/
namespace Blend2D.Str.Spec
open Blend2D.Arr (Src ModifyOp)

/-- A call of the API.  `i` is the string the function is called on. -/
inductive Op where
  | reset (i : Nat)
  /-- destroying the string and constructing a new one from characters -/
  | create (i : Nat) (str : List UInt8)
  | clear (i : Nat)
  | shrink (i : Nat)
  | reserve (i n : Nat)
  /-- `make_mutable()`, then a store through the returned pointer -/
  | write (i idx : Nat) (x : UInt8)
  | resize (i n : Nat) (fill : UInt8)
  /-- `modify_op()`, then stores to all the characters it returned -/
  | modify (i : Nat) (op : ModifyOp) (xs : List UInt8)
  /-- `insert_op()`, then stores to all the characters it returned -/
  | insertOp (i idx : Nat) (xs : List UInt8)
  | assignWeak (i j : Nat)
  | assignMove (i j : Nat)
  | assignDeep (i j : Nat)
  | assignData (i : Nat) (src : Src UInt8)
  | applyChar (i : Nat) (op : ModifyOp) (c : UInt8) (n : Nat)
  | applyData (i : Nat) (op : ModifyOp) (src : Src UInt8)
  | applyString (i : Nat) (op : ModifyOp) (j : Nat)
  | applyFormat (i : Nat) (op : ModifyOp) (out : Option (List UInt8))
  | insertChar (i idx : Nat) (c : UInt8) (n : Nat)
  | insertData (i idx : Nat) (src : Src UInt8)
  | insertString (i idx j : Nat)
  | removeIndex (i idx : Nat)
  | removeRange (i a b : Nat)

/-- The string a call is made on. -/
def Op.target : Op → Nat
  | .reset i | .create i _ | .clear i | .shrink i | .reserve i _ | .write i _ _ | .resize i _ _ | .modify i _ _
  | .insertOp i _ _ | .assignWeak i _ | .assignMove i _ | .assignDeep i _ | .assignData i _ | .applyChar i _ _ _
  | .applyData i _ _ | .applyString i _ _ | .applyFormat i _ _ | .insertChar i _ _ _ | .insertData i _ _
  | .insertString i _ _ | .removeIndex i _ | .removeRange i _ _ => i

/-- The string a call is also allowed to change (the source of a move). -/
def Op.other : Op → Option Nat
  | .assignMove _ j => some j
  | _ => none

/-- The characters an argument stands for. -/
def chars (l : List UInt8) : Src UInt8 → List UInt8
  | .ext x _ => x
  | .own off n => (l.drop off).take n

/-- The content of string `i`. -/
def get (L : List (List UInt8)) (i : Nat) : List UInt8 := (L[i]?).getD []

/-- Assigning or appending. -/
def put (op : ModifyOp) (l xs : List UInt8) : List UInt8 := if op.assign then xs else l ++ xs

/-- Inserting. -/
def ins (l : List UInt8) (idx : Nat) (xs : List UInt8) : List UInt8 := l.take idx ++ xs ++ l.drop idx

/-- The content of the string after a successful call. -/
def result (L : List (List UInt8)) (op : Op) : List UInt8 :=
  let l := get L op.target
  match op with
  | .reset _ | .clear _ => []
  | .create _ s => s
  | .shrink _ | .reserve _ _ => l
  | .write _ idx x => l.set idx x
  | .resize _ n fill => l.take n ++ List.replicate (n - l.length) fill
  | .modify _ op xs => put op l xs
  | .insertOp _ idx xs => ins l idx xs
  | .assignWeak _ j | .assignMove _ j | .assignDeep _ j => get L j
  | .assignData _ s => chars l s
  | .applyChar _ op c n => put op l (List.replicate n c)
  | .applyData _ op s => put op l (chars l s)
  | .applyString _ op j => put op l (get L j)
  | .applyFormat _ op out => put op l (out.getD [])
  | .insertChar _ idx c n => ins l idx (List.replicate n c)
  | .insertData _ idx s => ins l idx (chars l s)
  | .insertString _ idx j => ins l idx (get L j)
  | .removeIndex _ idx => l.eraseIdx idx
  | .removeRange _ a b => l.take (min a (min b l.length)) ++ l.drop (min b l.length)

/-- All strings after a successful call. -/
def apply (L : List (List UInt8)) (op : Op) : List (List UInt8) :=
  match op with
  | .assignMove i j => (L.set j []).set i (get L j)
  | _ => L.set op.target (result L op)

/-- All strings after a call that failed: nothing changed, but a constructor that fails leaves an empty string. -/
def failed (L : List (List UInt8)) (op : Op) : List (List UInt8) :=
  match op with
  | .create i _ => L.set i []
  | _ => L

/-- A part of the string's own content lies inside of it. -/
def SrcOk (l : List UInt8) : Src UInt8 → Prop
  | .ext _ _ => True
  | .own off n => off + n ≤ l.length

/-- What the caller guarantees: the strings exist, indexes are in range where the documentation says so, characters
passed by pointer exist, nothing that exists is larger than half of the address space. -/
def Pre (L : List (List UInt8)) (op : Op) : Prop :=
  let l := get L op.target
  op.target < L.length ∧
  match op with
  | .create _ s => s.length < 2 ^ 63
  | .write _ idx _ => idx < l.length
  | .insertOp _ idx _ | .insertChar _ idx _ _ => idx ≤ l.length
  | .assignData _ s | .applyData _ _ s => SrcOk l s
  | .insertData _ idx s => idx ≤ l.length ∧ SrcOk l s
  | .removeIndex _ idx => idx < 2 ^ 64
  | .assignWeak _ j | .assignMove _ j | .assignDeep _ j | .applyString _ _ j => j < L.length
  | .insertString _ idx j => idx ≤ l.length ∧ j < L.length
  | _ => True

/-- Calls that report an invalid argument. -/
def Invalid : Op → Prop
  | .applyFormat _ _ none => True
  | _ => False

/-- The number of characters a call has to find room for. -/
def need (L : List (List UInt8)) (op : Op) : Nat :=
  let l := get L op.target
  match op with
  | .reserve _ n => max n l.length
  | .create _ s => s.length
  | .resize _ n _ => n
  | .modify _ op xs => (if op.assign then 0 else l.length) + xs.length
  | .applyChar _ op _ n => (if op.assign then 0 else l.length) + n
  | .applyData _ op s => (if op.assign then 0 else l.length) + s.len
  | .assignData _ s => s.len
  | .assignDeep _ j => (get L j).length
  | .applyString _ op j => (if op.assign then 0 else l.length) + (get L j).length
  | .applyFormat _ op out => (if op.assign then 0 else l.length) + (out.getD []).length
  | .insertOp _ _ xs => l.length + xs.length
  | .insertChar _ _ _ n => l.length + n
  | .insertData _ _ s => l.length + s.len
  | .insertString _ _ j => l.length + (get L j).length
  | _ => l.length

end Blend2D.Str.Spec
