import Verif.Arr.Spec
/-! # Programs that use arrays -/
namespace Blend2D.Arr
open Cow Spec

variable {α : Type}

/-- A call, with its client's part (stores through the pointers that were returned). -/
def step (c : Cfg α) (ok : Bool) (w : Wld α) : Op α → Option (Result × Wld α)
  | .reset i => reset c w i
  | .clear i => clear c w i
  | .shrink i => shrink c ok w i
  | .reserve i n => reserve c ok w i n
  | .write i idx x => do
    let (r, w) ← makeMutable c ok w i
    if r = .success then
      let w ← fillAt w i idx [some x]
      return (r, w)
    else return (r, w)
  | .resize i n f => resize c ok w i n f
  | .modify i op xs => do
    let (r, start, w) ← modifyOp c ok w i op xs.length
    if r = .success then
      let w ← fillAt w i start (xs.map some)
      return (r, w)
    else return (r, w)
  | .append i x => appendItem c ok w i x
  | .appendData i s => appendData c ok w i s
  | .insert i idx x => do
    let (r, w) ← insertOp c ok w i idx 1
    if r = .success then
      let w ← fillAt w i idx [some x]
      return (r, w)
    else return (r, w)
  | .insertData i idx s => insertData c ok w i idx s
  | .replace i idx x => replaceItem c ok w i idx x
  | .replaceData i a b s gap => replaceData c ok w i a b s gap
  | .removeIndex i idx => removeIndex c ok w i idx
  | .removeRange i a b => removeRange c ok w i a b
  | .assignWeak i j => (w.assignWeak i j).map (fun w => (.success, w))
  | .assignMove i j => (w.assignMove i j (c.static 0)).map (fun w => (.success, w))
  | .assignDeep i j => assignDeep c ok w i j
  | .assignData i s => assignData c ok w i s
  | .assignExternal i buf size wr => assignExternal c ok w i (buf.map some) size wr

/-- `n` default constructed arrays (`bl_array_init`, `array.cpp:402-413`). -/
def initial (c : Cfg α) (n : Nat) : Wld α := ⟨List.replicate n (.sso (c.static 0)), []⟩

/-- What a program reads from array `i`: `size()` items from `data()`. -/
def content (w : Wld α) (i : Nat) : Option (List α) := do
  let v ← w.vars[i]?
  let u ← unpack w v
  let xs ← rd u.cells 0 u.size
  xs.mapM id

/-- The states a program can reach, with what its arrays should contain.  Each call may or may not get memory. -/
inductive Reach (c : Cfg α) : Wld α → List (List α) → Prop where
  | init (n : Nat) : Reach c (initial c n) (List.replicate n [])
  | call {w : Wld α} {L : List (List α)} (op : Op α) (ok : Bool) (r : Result) (w' : Wld α) : Reach c w L →
      Pre c.itemSize L op → Right L op → step c ok w op = some (r, w') →
      Reach c w' (if r = .success then apply c.zero L op else L)

end Blend2D.Arr
