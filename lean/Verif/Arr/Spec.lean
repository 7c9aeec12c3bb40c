import Verif.Arr.Model
/-!
# What an array of items is, independently of how it is stored

Variables are a list of lists.  `apply` says what every call does to them.
-/
namespace Blend2D.Arr.Spec
open Blend2D.Arr

variable {α : Type}

/-- A call of the API.  `i` is the array the function is called on. -/
inductive Op (α : Type) where
  | reset (i : Nat)
  | clear (i : Nat)
  | shrink (i : Nat)
  | reserve (i n : Nat)
  /-- `make_mutable()`, then a store through the returned pointer -/
  | write (i idx : Nat) (x : α)
  /-- `resize(n)` / `resize(n, fill)` -/
  | resize (i n : Nat) (fill : Option α)
  /-- `modify_op()`, then stores to all the items it returned -/
  | modify (i : Nat) (op : ModifyOp) (xs : List α)
  | append (i : Nat) (x : α)
  | appendData (i : Nat) (src : Src α)
  /-- `insert(idx, x)`: `insert_op()`, then a store to the item -/
  | insert (i idx : Nat) (x : α)
  | insertData (i idx : Nat) (src : Src α)
  | replace (i idx : Nat) (x : α)
  | replaceData (i a b : Nat) (src : Src α) (gap : Nat)
  | removeIndex (i idx : Nat)
  | removeRange (i a b : Nat)
  | assignWeak (i j : Nat)
  | assignMove (i j : Nat)
  | assignDeep (i j : Nat)
  | assignData (i : Nat) (src : Src α)
  | assignExternal (i : Nat) (buffer : List α) (size : Nat) (writable : Bool)

/-- The array a call is made on. -/
def Op.target : Op α → Nat
  | .reset i | .clear i | .shrink i | .reserve i _ | .write i _ _ | .resize i _ _ | .modify i _ _ | .append i _
  | .appendData i _ | .insert i _ _ | .insertData i _ _ | .replace i _ _ | .replaceData i _ _ _ _ | .removeIndex i _
  | .removeRange i _ _ | .assignWeak i _ | .assignMove i _ | .assignDeep i _ | .assignData i _ | .assignExternal i _ _ _ => i

/-- The array a call is also allowed to change (the source of a move). -/
def Op.other : Op α → Option Nat
  | .assignMove _ j => some j
  | _ => none

/-- The items a source stands for. -/
def items (l : List α) : Src α → List α
  | .ext x _ => x
  | .own off n => (l.drop off).take n

/-- The content of array `i`. -/
def get (L : List (List α)) (i : Nat) : List α := (L[i]?).getD []

/-- The content of the array after a successful call. -/
def result (zero : α) (L : List (List α)) (op : Op α) : List α :=
  let l := get L op.target
  match op with
  | .reset _ | .clear _ => []
  | .shrink _ | .reserve _ _ => l
  | .write _ idx x | .replace _ idx x => l.set idx x
  | .resize _ n fill => l.take n ++ List.replicate (n - l.length) (fill.getD zero)
  | .modify _ op xs => if op.assign then xs else l ++ xs
  | .append _ x => l ++ [x]
  | .appendData _ s => l ++ items l s
  | .insert _ idx x => l.take idx ++ x :: l.drop idx
  | .insertData _ idx s => l.take idx ++ items l s ++ l.drop idx
  | .replaceData _ a b s _ => l.take (min a (min b l.length)) ++ items l s ++ l.drop (min b l.length)
  | .removeIndex _ idx => l.eraseIdx idx
  | .removeRange _ a b => l.take (min a (min b l.length)) ++ l.drop (min b l.length)
  | .assignWeak _ j | .assignMove _ j | .assignDeep _ j => get L j
  | .assignData _ s => items l s
  | .assignExternal _ buf size _ => buf.take size

/-- All arrays after a successful call. -/
def apply (zero : α) (L : List (List α)) (op : Op α) : List (List α) :=
  match op with
  | .assignMove i j => (L.set j []).set i (get L j)
  | _ => L.set op.target (result zero L op)

/-- A part of the array's own content lies inside of it. -/
def SrcOk (l : List α) : Src α → Prop
  | .ext _ _ => True
  | .own off n => off + n ≤ l.length

/-- What the caller guarantees: the arrays exist, indexes are in range where the documentation says so, items passed by
pointer exist, nothing is larger than half of the address space. -/
def Pre (itemSize : Nat) (L : List (List α)) (op : Op α) : Prop :=
  let l := get L op.target
  op.target < L.length ∧
  match op with
  | .write _ idx _ => idx < l.length
  | .resize _ n _ => n * itemSize ≤ 2 ^ 63
  | .modify _ op xs => (if op.assign then xs.length else l.length + xs.length) * itemSize ≤ 2 ^ 63
  | .appendData _ s | .assignData _ s => SrcOk l s
  | .insert _ idx _ => idx ≤ l.length
  | .insertData _ idx s => idx ≤ l.length ∧ SrcOk l s
  | .replaceData _ _ _ s _ => SrcOk l s ∧ (l.length + s.len) * itemSize ≤ 2 ^ 63
  | .removeIndex _ idx => idx < 2 ^ 64
  | .assignWeak _ j | .assignMove _ j | .assignDeep _ j => j < L.length
  | .assignExternal _ buf _ _ => buf.length * itemSize ≤ 2 ^ 63
  | _ => True

/-- The calls for which the code is right: `assign_data` and `assign_deep` must not make the array longer, and
`replace_data` must keep its length and must not overlap, or replace nothing. -/
def Right (L : List (List α)) (op : Op α) : Prop :=
  let l := get L op.target
  match op with
  | .assignData _ s => s.len ≤ l.length
  | .assignDeep _ j => (get L j).length ≤ l.length
  | .replaceData _ a b s _ =>
    let e := min b l.length
    let st := min a e
    st = e ∨ (s.len = e - st ∧ match s with | .ext _ _ => True | .own off n => off + n ≤ st ∨ e ≤ off)
  | _ => True

/-- Calls that report an invalid argument. -/
def Invalid (L : List (List α)) (op : Op α) : Prop :=
  let l := get L op.target
  match op with
  | .replace _ idx _ => l.length ≤ idx
  | .assignExternal _ buf size _ => buf.length = 0 ∨ buf.length < size
  | _ => False

/-- The largest number of items a call has to find room for. -/
def need (L : List (List α)) (op : Op α) : Nat :=
  let l := get L op.target
  match op with
  | .reserve _ n => max n l.length
  | .resize _ n _ => n
  | .modify _ op xs => if op.assign then xs.length else l.length + xs.length
  | .append _ _ | .insert _ _ _ => l.length + 1
  | .appendData _ s | .insertData _ _ s | .replaceData _ _ _ s _ => l.length + s.len
  | _ => l.length

end Blend2D.Arr.Spec
