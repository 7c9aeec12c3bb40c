/-!
# Intrusive double linked list (`support/arenalist_p.h`)

Nodes are natural numbers (their addresses), links are optional nodes.  Direction `false` is
`_list_nodes[0]` / `_nodes[0]` (prev / first), `true` is `_list_nodes[1]` / `_nodes[1]`
(next / last).  `none` as the result of an operation is a violated assertion.
-/

namespace Blend2D.List2

/-- The links of all nodes (`ArenaListNode::_list_nodes`, `arenalist_p.h:24-30`) and the ends of
one list (`ArenaList::_nodes`, `arenalist_p.h:53`). -/
structure St where
  links : Nat → Bool → Option Nat
  nodes : Bool → Option Nat

/-- `node->_list_nodes[dir] = v`. -/
def St.setLink (s : St) (n : Nat) (dir : Bool) (v : Option Nat) : St :=
  { s with links := fun m d => if m = n ∧ d = dir then v else s.links m d }

/-- `_nodes[dir] = v`. -/
def St.setNode (s : St) (dir : Bool) (v : Option Nat) : St :=
  { s with nodes := fun d => if d = dir then v else s.nodes d }

/-- `ArenaList()`, `arenalist_p.h:58-59`, before any node exists. -/
def St.empty : St := { links := fun _ _ => none, nodes := fun _ => none }

/-- `ArenaListNode()`, `arenalist_p.h:34-35`. -/
def construct (s : St) (n : Nat) : St := (s.setLink n false none).setLink n true none

/-- `reset()`, `arenalist_p.h:75-78`. -/
def reset (s : St) : St := (s.setNode false none).setNode true none

/-- `reset(node)`, `arenalist_p.h:80-85`. -/
def resetTo (s : St) (n : Nat) : St :=
  (((s.setLink n false none).setLink n true none).setNode false (some n)).setNode true (some n)

/-- `_add_node`, `arenalist_p.h:93-102`. -/
def addNode (s : St) (n : Nat) (dir : Bool) : St :=
  let prev := s.nodes dir
  let s := s.setLink n (!dir) prev
  let s := s.setNode dir (some n)
  match prev with
  | some p => s.setLink p dir (some n)
  | none => s.setNode (!dir) (some n)

/-- `_insert_node`, `arenalist_p.h:105-119`. -/
def insertNode (s : St) (ref n : Nat) (dir : Bool) : St :=
  let next := s.links ref dir
  let s := s.setLink ref dir (some n)
  let s := match next with
    | some m => s.setLink m (!dir) (some n)
    | none => s.setNode dir (some n)
  let s := s.setLink n (!dir) (some ref)
  s.setLink n dir next

/-- `unlink`, `arenalist_p.h:127-138`. -/
def unlink (s : St) (n : Nat) : St :=
  let prev := s.links n false
  let next := s.links n true
  let s := match prev with
    | some p => s.setLink p true next
    | none => s.setNode false next
  let s := match next with
    | some m => s.setLink m false prev
    | none => s.setNode true prev
  (s.setLink n false none).setLink n true none

/-- `pop_first` (`dir = false`), `arenalist_p.h:140-156`, and `pop` (`dir = true`),
`arenalist_p.h:158-174`: the same code with the directions exchanged. -/
def popEnd (s : St) (dir : Bool) : Option (St × Nat) :=
  match s.nodes dir with
  | none => none
  | some n =>
    let next := s.links n (!dir)
    let s := s.setNode dir next
    match next with
    | some m => some ((s.setLink m dir none).setLink n (!dir) none, n)
    | none => some (s.setNode (!dir) none, n)

/-- Iteration: start with an end of the list and follow `next()` (`dir = true`) or `prev()`
until a null pointer is found (`zeroallocator.cpp:271-282`); at most `fuel` nodes. -/
def walk (s : St) (dir : Bool) : Nat → Option Nat → List Nat
  | 0, _ => []
  | _, none => []
  | fuel + 1, some n => n :: walk s dir fuel (s.links n dir)

/-- Operations of the list. -/
inductive Op
  | construct (n : Nat)
  | reset
  | resetTo (n : Nat)
  | append (n : Nat)
  | prepend (n : Nat)
  | insertAfter (ref n : Nat)
  | insertBefore (ref n : Nat)
  | unlink (n : Nat)
  | popFirst
  | pop

/-- Executes an operation: the state and the node it returns
(`append` etc. are `arenalist_p.h:121-125`). -/
def step (s : St) : Op → Option (St × Option Nat)
  | .construct n => some (construct s n, none)
  | .reset => some (reset s, none)
  | .resetTo n => some (resetTo s n, none)
  | .append n => some (addNode s n true, none)
  | .prepend n => some (addNode s n false, none)
  | .insertAfter ref n => some (insertNode s ref n true, none)
  | .insertBefore ref n => some (insertNode s ref n false, none)
  | .unlink n => some (unlink s n, some n)
  | .popFirst => (popEnd s false).map fun (s, n) => (s, some n)
  | .pop => (popEnd s true).map fun (s, n) => (s, some n)

end Blend2D.List2
