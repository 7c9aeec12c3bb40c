import Verif.BitArr.Spec
import Verif.BitArr.Combine
/-! # Programs that use bit arrays -/
namespace Blend2D.BitArr
open Cow Spec
open Blend2D.Arr (Result)

/-- A call, with its client's part.  The C functions are cited at the definitions; `assign_weak` and `assign_move` are
`bitarray.cpp:290-309`. -/
def step (ok : Bool) (w : Wld) : Op → Option (Result × Wld)
  | .reset i => reset w i
  | .clear i => clear w i
  | .shrink i => shrink ok w i
  | .reserve i n => reserve ok w i n
  | .resize i n => resize ok w i n
  | .assignWeak i j => (w.assignWeak i j).map (fun w => (.success, w))
  | .assignMove i j => (w.assignMove i j (initSso 0)).map (fun w => (.success, w))
  | .assignWords i ws => assignWords ok w i ws
  | .setBit i k => setBit ok w i k
  | .clearBit i k => clearBit ok w i k
  | .replaceBit i k x => replaceBit ok w i k x
  | .fillRange i a b => fillRange ok w i a b
  | .clearRange i a b => clearRange ok w i a b
  | .combine i c k ws => combineAt ok w i c k ws
  | .appendBit i x => appendBit ok w i x
  | .appendWords i ws => appendWords ok w i ws
  | .replaceOp i n ws => do
    let (r, w) ← replaceOp ok w i n
    if r = .success then
      let w ← onWords w i (fun _ old => some (ws ++ old.drop ws.length))
      return (r, w)
    else return (r, w)

/-- `n` default constructed bit arrays (`bl_bit_array_init`, `bitarray.cpp:243-246`). -/
def initial (n : Nat) : Wld := ⟨List.replicate n (.sso (initSso 0)), []⟩

/-- Bit array `i` is not shared. -/
def Own (w : Wld) (i : Nat) : Prop := ∃ v, w.vars[i]? = some v ∧ w.isMutable v = some true

/-- It is stored in place. -/
def InPlace (w : Wld) (i : Nat) : Prop := ∃ s, w.vars[i]? = some (.sso s)

/-- It is not shared and has room for `n` bits (`capacity() >= n`). -/
def Room (w : Wld) (i n : Nat) : Prop :=
  ∃ v d, w.vars[i]? = some v ∧ unpack w v = some d ∧ w.isMutable v = some true ∧ n ≤ d.cap

/-- The calls that are right.  Those that are not lose, invent or destroy bits: see the counterexamples in
`Props.lean`. -/
def Right (w : Wld) (L : List (List Bool)) : Op → Prop
  | .reserve i n => Own w i ∨ wordCount (get L i).length ≤ wordCount n
  | .resize i n => wordCount n ≤ wordCount (get L i).length ∨ n ≤ 96 ∨ Room w i n
  | .assignWords i ws => ws = [] ∨ ws.length ≤ 3 ∧ (InPlace w i ∨ ¬ Own w i)
  | .setBit i _ | .clearBit i _ | .replaceBit i _ _ | .fillRange i _ _ | .clearRange i _ _ => Own w i
  | .combine i _ k ws => Own w i ∧ ((get L i).length ≤ k ∨ CombineOk (get L i).length k ws)
  | .appendBit i _ => (get L i).length + 1 < 2 ^ 32 ∨ InPlace w i
  | .appendWords i ws => ((get L i).length + ws.length * 32 < 2 ^ 32 ∨ InPlace w i) ∧
      (ws = [] ∨ CombineOk ((get L i).length + ws.length * 32) (get L i).length ws)
  | _ => True

/-- The states a program can reach, with what its bit arrays should contain.  Each call may or may not get memory. -/
inductive Reach : Wld → List (List Bool) → Prop where
  | init (n : Nat) : Reach (initial n) (List.replicate n [])
  | call {w : Wld} {L : List (List Bool)} (op : Op) (ok : Bool) (r : Result) (w' : Wld) : Reach w L →
      Pre L op → Right w L op → step ok w op = some (r, w') → Reach w' (if r = .success then apply L op else L)

end Blend2D.BitArr
