import Verif.ArenaTree.Model
import Mathlib.Data.Nat.Log

/-!
# What the arena tree is: an ordered set, balanced
-/

namespace Blend2D.ArenaTree

/-- The keys of a tree from left to right. -/
def inorder : Tree → List Nat
  | .nil => []
  | .node l _ k r => inorder l ++ k :: inorder r

/-- The keys increase from left to right: a search tree without repeated keys. -/
def Sorted (t : Tree) : Prop := (inorder t).Pairwise (· < ·)

/-- No red node has a red child. -/
def NoRedRed : Tree → Prop
  | .nil => True
  | .node l c _ r => (c = true → l.isRed = false ∧ r.isRed = false) ∧ NoRedRed l ∧ NoRedRed r

/-- Every path from the root to a null link meets `n` black nodes. -/
def BlackHeight : Tree → Nat → Prop
  | .nil, n => n = 0
  | .node l c _ r, n =>
    if c then BlackHeight l n ∧ BlackHeight r n else ∃ m, n = m + 1 ∧ BlackHeight l m ∧ BlackHeight r m

/-- A red-black tree with a black root. -/
def RedBlack (t : Tree) : Prop := t.isRed = false ∧ NoRedRed t ∧ ∃ n, BlackHeight t n

/-- The number of nodes on the longest path. -/
def height : Tree → Nat
  | .nil => 0
  | .node l _ _ r => max (height l) (height r) + 1

/-- Operations of a user.  Keys are positive, a node is inserted only when it is not in the tree, and removed only when it
is. -/
inductive Op where
  | insert (k : Nat)
  | remove (k : Nat)
deriving DecidableEq, Repr

/-- The set of keys after a history; `none` when the user breaks the rules. -/
def keysAfter : List Op → List Nat → Option (List Nat)
  | [], s => some s
  | .insert k :: os, s => if 0 < k ∧ k ∉ s then keysAfter os (k :: s) else none
  | .remove k :: os, s => if k ∈ s then keysAfter os (s.erase k) else none

/-- The tree after a history. -/
def run : List Op → Tree → Option Tree
  | [], t => some t
  | .insert k :: os, t => (insert t k).bind (run os)
  | .remove k :: os, t => (remove t k).bind (run os)

end Blend2D.ArenaTree
