import Verif.Str.Spec
/-! # Programs that use strings -/
namespace Blend2D.Str
open Cow Spec
open Blend2D.Arr (Result Src ModifyOp implMaxSize)

/-- A call, with its client's part (stores through the pointers that were returned).  The C functions are cited at the
definitions; `assign_data`, `apply_op_data` and `insert_data` (`string.cpp:588-596, 612-620, 729-737`) only forward. -/
def step (ok : Bool) (w : Wld) : Op → Option (Result × Wld)
  | .reset i => reset w i
  | .create i s => create ok w i s
  | .clear i => clear w i
  | .shrink i => shrink ok w i
  | .reserve i n => reserve ok w i n
  | .write i idx x => do
    let (r, w) ← makeMutable ok w i
    if r = .success then
      let w ← fillAt w i idx [x]
      return (r, w)
    else return (r, w)
  | .resize i n f => resize ok w i n f
  | .modify i op xs => do
    let (r, start, w) ← modifyOp ok w i op xs.length
    if r = .success then
      let w ← fillAt w i start xs
      return (r, w)
    else return (r, w)
  | .insertOp i idx xs => do
    let (r, w) ← insertOp ok w i idx xs.length
    if r = .success then
      let w ← fillAt w i idx xs
      return (r, w)
    else return (r, w)
  | .assignWeak i j => (w.assignWeak i j).map (fun w => (.success, w))
  | .assignMove i j => (w.assignMove i j (initSso 0)).map (fun w => (.success, w))
  | .assignDeep i j => assignDeep ok w i j
  | .assignData i s => modifyAndCopy ok w i { assign := true, grow := false } s
  | .applyChar i op c n => applyChar ok w i op c n
  | .applyData i op s => modifyAndCopy ok w i op s
  | .applyString i op j => applyString ok w i op j
  | .applyFormat i op out => applyFormat ok w i op out
  | .insertChar i idx c n => insertChar ok w i idx c n
  | .insertData i idx s => insertAndCopy ok w i idx s
  | .insertString i idx j => insertString ok w i idx j
  | .removeIndex i idx => removeIndex ok w i idx
  | .removeRange i a b => removeRange ok w i a b

/-- `n` default constructed strings (`bl_string_init`, `string.cpp:236-241`). -/
def initial (n : Nat) : Wld := ⟨List.replicate n (.sso (initSso 0)), []⟩

/-- String `i` is not shared and has room for `n` characters (`capacity() >= n`). -/
def Room (w : Wld) (i n : Nat) : Prop :=
  ∃ v u, w.vars[i]? = some v ∧ unpack w v = some u ∧ w.isMutable v = some true ∧ n ≤ u.cap

/-- Where assigning or appending `n` characters puts the end of the string. -/
def sizeAfter (L : List (List UInt8)) (i : Nat) (op : ModifyOp) (n : Nat) : Nat :=
  (if op.assign then 0 else (get L i).length) + n

/-- The calls that are right.  Those that are not break strings: see the counterexamples in `Props.lean`. -/
def Right (ok : Bool) (w : Wld) (L : List (List UInt8)) : Op → Prop
  | .reserve _ n => n < 2 ^ 64 - 17
  | .assignDeep i j => 14 < (get L j).length ∨ Room w i (get L j).length
  | .assignData i s => 14 < s.len ∨ Room w i s.len
  | .applyData i op s => op.grow = true ∨ 14 < sizeAfter L i op s.len ∨ Room w i (sizeAfter L i op s.len)
  | .applyString i op j => op.grow = true ∨ 14 < sizeAfter L i op (get L j).length ∨ Room w i (sizeAfter L i op (get L j).length)
  | .applyFormat i op (some o) =>
    (op.grow = true ∨ 14 < sizeAfter L i op o.length ∨ Room w i (sizeAfter L i op o.length)) ∧
    (Room w i (sizeAfter L i op 64) → Room w i (sizeAfter L i op o.length) ∨
      (ok = true ∧ 2 * (18 + sizeAfter L i op o.length) ≤ implMaxSize))
  | _ => True

/-- The states a program can reach, with what its strings should contain.  Each call may or may not get memory.  A
constructor that fails leaves an empty string. -/
inductive Reach : Wld → List (List UInt8) → Prop where
  | init (n : Nat) : Reach (initial n) (List.replicate n [])
  | call {w : Wld} {L : List (List UInt8)} (op : Op) (ok : Bool) (r : Result) (w' : Wld) : Reach w L →
      Pre L op → Right ok w L op → step ok w op = some (r, w') →
      Reach w' (if r = .success then apply L op else failed L op)

end Blend2D.Str
