import Verif.BitArr.Model
/-!
# What a bit array is, independently of how it is stored

Variables are a list of bit lists.  `apply` says what every call does to them.
-/
namespace Blend2D.BitArr.Spec

/-- The bits of words, the most significant one first. -/
def bits (ws : List W) : List Bool := ws.flatMap (fun x => (List.range 32).map (fun j => x.getMsbD j))

/-- A call of the API.  `i` is the bit array the function is called on.  `fill_words`, `clear_words` and
`replace_words` are `combine` with `or`, `andNot` and `assign`. -/
inductive Op where
  | reset (i : Nat)
  | clear (i : Nat)
  | shrink (i : Nat)
  | reserve (i n : Nat)
  | resize (i n : Nat)
  | assignWeak (i j : Nat)
  | assignMove (i j : Nat)
  | assignWords (i : Nat) (ws : List W)
  | setBit (i k : Nat)
  | clearBit (i k : Nat)
  | replaceBit (i k : Nat) (x : Bool)
  | fillRange (i a b : Nat)
  | clearRange (i a b : Nat)
  | combine (i : Nat) (c : Comb) (k : Nat) (ws : List W)
  | appendBit (i : Nat) (x : Bool)
  | appendWords (i : Nat) (ws : List W)
  /-- `replace_op(n)`, then stores to all the words it returned -/
  | replaceOp (i n : Nat) (ws : List W)

/-- The bit array a call is made on. -/
def Op.target : Op → Nat
  | .reset i | .clear i | .shrink i | .reserve i _ | .resize i _ | .assignWeak i _ | .assignMove i _ | .assignWords i _
  | .setBit i _ | .clearBit i _ | .replaceBit i _ _ | .fillRange i _ _ | .clearRange i _ _ | .combine i _ _ _
  | .appendBit i _ | .appendWords i _ | .replaceOp i _ _ => i

/-- The bit array a call is also allowed to change (the source of a move). -/
def Op.other : Op → Option Nat
  | .assignMove _ j => some j
  | _ => none

/-- The content of bit array `i`. -/
def get (L : List (List Bool)) (i : Nat) : List Bool := (L[i]?).getD []

/-- Giving the bits from `a` to `b` a value. -/
def setRange (l : List Bool) (a b : Nat) (x : Bool) : List Bool := l.mapIdx (fun k y => if a ≤ k ∧ k < b then x else y)

/-- Combining a bit with a given one: set it if that is set, clear it if that is set, replace it. -/
def combineBit : Comb → Bool → Bool → Bool
  | .or, x, y => x || y
  | .andNot, x, y => x && !y
  | .assign, _, y => y

/-- Combining the bits from `k` on with given ones, as far as there are both. -/
def combineBits (c : Comb) (l : List Bool) (k : Nat) (ys : List Bool) : List Bool :=
  l.mapIdx (fun p x => if k ≤ p ∧ p - k < ys.length then combineBit c x ((ys[p - k]?).getD false) else x)

/-- The content of the bit array after a successful call. -/
def result (L : List (List Bool)) (op : Op) : List Bool :=
  let l := get L op.target
  match op with
  | .reset _ | .clear _ => []
  | .shrink _ | .reserve _ _ => l
  | .resize _ n => l.take n ++ List.replicate (n - l.length) false
  | .assignWeak _ j | .assignMove _ j => get L j
  | .assignWords _ ws => bits ws
  | .setBit _ k => l.set k true
  | .clearBit _ k => l.set k false
  | .replaceBit _ k x => l.set k x
  | .fillRange _ a b => setRange l a b true
  | .clearRange _ a b => setRange l a b false
  | .combine _ c k ws => combineBits c l k (bits ws)
  | .appendBit _ x => l ++ [x]
  | .appendWords _ ws => l ++ bits ws
  | .replaceOp _ n ws => (bits ws).take n

/-- All bit arrays after a successful call. -/
def apply (L : List (List Bool)) (op : Op) : List (List Bool) :=
  match op with
  | .assignMove i j => (L.set j []).set i (get L j)
  | _ => L.set op.target (result L op)

/-- What the caller guarantees: the bit arrays exist, sizes and indexes are 32-bit numbers, and who stores to the words
returned by `replace_op` stores to all of them, and zeros to the unused bits of the last one. -/
def Pre (L : List (List Bool)) (op : Op) : Prop :=
  op.target < L.length ∧
  match op with
  | .reserve _ n | .resize _ n => n < 2 ^ 32
  | .assignWeak _ j | .assignMove _ j => j < L.length
  | .assignWords _ ws | .combine _ _ _ ws | .appendWords _ ws => ws.length < 2 ^ 32
  | .replaceOp _ n ws => n < 2 ^ 32 ∧ ws.length = (n + 31) / 32 ∧ ∀ k, n ≤ k → (bits ws)[k]? ≠ some true
  | _ => True

/-- Calls that report an invalid argument. -/
def Invalid (L : List (List Bool)) : Op → Prop
  | .setBit i k | .clearBit i k | .replaceBit i k _ | .combine i _ k _ => (get L i).length ≤ k
  | .fillRange i a b | .clearRange i a b => b ≤ a ∨ (get L i).length ≤ a
  | _ => False

/-- The number of bits after an append. -/
def need (L : List (List Bool)) (op : Op) : Nat :=
  match op with
  | .appendBit i _ => (get L i).length + 1
  | .appendWords i ws => (get L i).length + 32 * ws.length
  | _ => 0

end Blend2D.BitArr.Spec
