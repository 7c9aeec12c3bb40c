/-!
# The arena tree (`blend2d/support/arenatree_p.h`)

A red-black tree with top-down insertion and removal.  A node is identified by its key, a positive number: the
comparator of the tree orders nodes, and two different nodes never compare equal (the zero allocator, the user of the
tree, stores blocks by address).  The false root `head` of `insert` and `remove` is the node with key `0`, which has no
left child.

The functions walk down the tree with several pointers.  The model keeps the tree as a focused subtree `q` plus the list
of the nodes above it (innermost first), and keeps the pointer variables `g`, `p`, `t` of the code next to it as keys.
Every access through a pointer variable is checked: when a variable no longer points to the node the code believes it
points to, the model has no result (`none`), as it has none when the code would dereference a null pointer.
-/

namespace Blend2D.ArenaTree

/-- `ArenaTreeNodeBase`: two children and a colour, `arenatree_p.h:25-82`.  The colour is stored in the lowest bit of the
left link there. -/
inductive Tree where
  | nil
  | node (l : Tree) (red : Bool) (k : Nat) (r : Tree)
deriving DecidableEq, Repr

namespace Tree

/-- `_is_valid_red`, `arenatree_p.h:77`. -/
def isRed : Tree → Bool
  | nil => false
  | node _ c _ _ => c

/-- The node a link points to; `none` is the null pointer. -/
def key? : Tree → Option Nat
  | nil => none
  | node _ _ k _ => some k

/-- `_get_child`, `arenatree_p.h:55`; `true` is the right child.  Not defined for the null pointer. -/
def child : Tree → Bool → Option Tree
  | nil, _ => none
  | node l _ _ r, d => some (if d then r else l)

/-- `_set_child`, `arenatree_p.h:59`. -/
def setChild : Tree → Bool → Tree → Option Tree
  | nil, _, _ => none
  | node l c k r, d, t => some (if d then node l c k t else node t c k r)

/-- `_make_red` and `_make_black`, `arenatree_p.h:70-71`. -/
def paint : Tree → Bool → Option Tree
  | nil, _ => none
  | node l _ k r, c => some (node l c k r)

def size : Tree → Nat
  | nil => 0
  | node l _ _ r => size l + size r + 1

end Tree

/-- `_single_rotate`, `arenatree_p.h:332-339`. -/
def singleRotate (root : Tree) (dir : Bool) : Option Tree := do
  let save ← root.child (!dir)
  let inner ← save.child dir
  let root ← root.setChild (!dir) inner
  let root ← root.paint true
  let save ← save.setChild dir root
  save.paint false

/-- `_double_rotate`, `arenatree_p.h:342-345`. -/
def doubleRotate (root : Tree) (dir : Bool) : Option Tree := do
  let sub ← root.child (!dir)
  let sub ← singleRotate sub (!dir)
  let root ← root.setChild (!dir) sub
  singleRotate root dir

/-- A node above the focus: the focus is its child number `dir`, `sib` is the other child. -/
structure Frame where
  dir : Bool
  red : Bool
  k : Nat
  sib : Tree
deriving DecidableEq, Repr

/-- The node of a frame with a given child at the focus. -/
def Frame.fill (f : Frame) (t : Tree) : Tree :=
  if f.dir then .node f.sib f.red f.k t else .node t f.red f.k f.sib

/-- The whole tree seen from the outermost frame. -/
def plug : List Frame → Tree → Tree
  | [], t => t
  | f :: fs, t => plug fs (f.fill t)

/-- Moving the focus to a child; `none` at a null pointer. -/
def down (dir : Bool) : List Frame × Tree → Option (List Frame × Tree)
  | (_, .nil) => none
  | (fs, .node l c k r) =>
    some (⟨dir, c, k, if dir then l else r⟩ :: fs, if dir then r else l)

/-- The local variables of `insert`, `arenatree_p.h:146-156`.  A pointer variable is the key of a node, `none` is null. -/
structure Vars where
  g : Option Nat
  p : Option Nat
  t : Nat
  dir : Bool
  last : Bool
deriving DecidableEq, Repr

/-- The colour of the node the variable `p` points to; `none` if `p` is not the parent of the focus.  The parent of the
root is `head`, but `p` is null there, `arenatree_p.h:149-152`. -/
def redAt (p : Option Nat) (fs : List Frame) : Option Bool :=
  match p, fs with
  | none, [f] => if f.k = 0 then some false else none
  | some x, f :: _ => if f.k = x then some f.red else none
  | _, _ => none

/-- `arenatree_p.h:160-170`: a new node at the bottom, or a colour flip. -/
def insertFlip (k : Nat) (v : Vars) (fs : List Frame) (q : Tree) : Option (Tree × Bool) :=
  match q with
  | .nil =>
    match v.p, fs with
    | some x, f :: _ => if f.k = x ∧ f.dir = v.dir then some (.node .nil true k .nil, true) else none
    | _, _ => none
  | .node l c x r => do
    if l.isRed && r.isRed then
      let l ← l.paint false
      let r ← r.paint false
      some (.node l true x r, x == k)
    else some (.node l c x r, x == k)

/-- `arenatree_p.h:172-174`: the red violation of `q` and `p` is fixed by rotations at `g` below `t`. -/
def insertFix (v : Vars) (fs : List Frame) (q : Tree) : Option (List Frame × Tree) := do
  let pRed ← redAt v.p fs
  if q.isRed && pRed then
    match fs with
    | fp :: fg :: ft :: rest =>
      -- `t` must be the parent of `g`, and `g` the parent of `p`
      if v.g = some fg.k ∧ v.t = ft.k then
        let top := fg.fill (fp.fill q)
        if fp.dir = v.last then
          let top ← singleRotate top (!v.last)
          -- `q` is now the child of the former `p` on the side `last`
          let (fs', q') ← down v.last (ft :: rest, top)
          if q'.key? = q.key? then some (fs', q') else none
        else
          let top ← doubleRotate top (!v.last)
          -- `q` is now the top
          if top.key? = q.key? then some (ft :: rest, top) else none
      else none
    | _ => none
  else some (fs, q)

/-- The loop of `insert`, `arenatree_p.h:159-189`. -/
def insertLoop (k : Nat) : Nat → Vars → List Frame → Tree → Option Tree
  | 0, _, _, _ => none
  | fuel + 1, v, fs, q => do
    let (q, found) ← insertFlip k v fs q
    let (fs, q) ← insertFix v fs q
    if found then some (plug fs q)
    else
      let x ← q.key?
      let dir := decide (x < k)
      let v' : Vars := ⟨v.p, some x, v.g.getD v.t, dir, v.dir⟩
      let (fs, q) ← down dir (fs, q)
      insertLoop k fuel v' fs q

/-- The root below `head`, made black, `arenatree_p.h:191-193` and `298-300`. -/
def rootOf : Tree → Option Tree
  | .node .nil _ 0 .nil => some .nil
  | .node .nil _ 0 r => r.paint false
  | _ => none

/-- `ArenaTree::insert`, `arenatree_p.h:135-194`.  The loop bound is not part of the code; running out of it has no
result. -/
def insert (root : Tree) (k : Nat) : Option Tree :=
  match root with
  | .nil => some (.node .nil false k .nil)
  | .node .. => do
    let t ← insertLoop k (2 * root.size + 2) ⟨none, none, 0, false, false⟩ [⟨true, false, 0, .nil⟩] root
    rootOf t

/-- The local variables of `remove`, `arenatree_p.h:199-208`. -/
structure RVars where
  g : Option Nat
  p : Option Nat
  f : Option Nat
  gf : Option Nat
  dir : Bool
deriving DecidableEq, Repr

/-- `arenatree_p.h:226-261`: a red node is pushed down to `q`.  `last` is the side of `q` below `p`.  Returns the new
value of `p` with the new position. -/
def pushRed (g p : Option Nat) (last dir : Bool) (fs : List Frame) (q : Tree) :
    Option (Option Nat × List Frame × Tree) := do
  let c ← q.child dir
  if q.isRed || c.isRed then some (p, fs, q)
  else
    let o ← q.child (!dir)
    match fs with
    | [] => none
    | fp :: fs' =>
      if p ≠ some fp.k ∨ fp.dir ≠ last then none
      else if o.isRed then
        let top ← singleRotate q dir
        let (fs, q') ← down dir (fs, top)
        if q'.key? = q.key? then some (top.key?, fs, q') else none
      else
        match fp.sib with
        | .nil => some (p, fs, q)
        | .node sl _ sk sr =>
          let s := Tree.node sl true sk sr
          let sOut := if last then sl else sr
          let sIn := if last then sr else sl
          if !sOut.isRed && !sIn.isRed then
            -- colour flip
            let q ← q.paint true
            some (p, { fp with red := false, sib := s } :: fs', q)
          else
            match fs' with
            | [] => none
            | fg :: _ =>
              if g ≠ some fg.k then none
              else
                let top ← (if sIn.isRed then doubleRotate (fp.fill q) last else singleRotate (fp.fill q) last)
                let q0 ← q.paint true
                let top ← top.paint true
                let a ← top.child false
                let b ← top.child true
                let a ← a.paint false
                let b ← b.paint false
                let top ← top.setChild false a
                let top ← top.setChild true b
                -- `q` is two levels below on the side `last`
                let z ← down last (fs', top)
                let (fs, q') ← down last z
                if q'.key? = q.key? then some (p, fs, q0) else none

/-- The loop of `remove`, `arenatree_p.h:211-262`. -/
def removeLoop (k : Nat) : Nat → RVars → List Frame → Tree → Option (RVars × List Frame × Tree)
  | 0, _, _, _ => none
  | fuel + 1, v, fs, q => do
    let c ← q.child v.dir
    match c with
    | .nil => some (v, fs, q)
    | .node _ _ x _ =>
      let last := v.dir
      let g := v.p
      let p := q.key?
      let (fs, q) ← down last (fs, q)
      let dir := decide (x < k)
      let found := x == k
      let f := if found then some x else v.f
      let gf := if found then g else v.gf
      let (p, fs, q) ← pushRed g p last dir fs q
      removeLoop k fuel ⟨g, p, f, gf, dir⟩ fs q

/-- `arenatree_p.h:274-296` below a node `n`: the walk to the node `f`, which is replaced by `q` together with its
children and its colour. -/
def walk (f x : Nat) : Tree → Option Tree
  | .nil => none
  | .node l c n r =>
    if n < f then
      match r with
      | .nil => none
      | .node rl rc rk rr => if rk = f then some (.node l c n (.node rl rc x rr)) else (walk f x r).map (.node l c n ·)
    else
      match l with
      | .nil => none
      | .node ll lc lk lr => if lk = f then some (.node (.node ll lc x lr) c n r) else (walk f x l).map (.node · c n r)

/-- Applies a function to the subtree a pointer points to. -/
def atNode (n : Nat) (fn : Tree → Option Tree) : Tree → Option Tree
  | .nil => none
  | .node l c k r =>
    if k = n then fn (.node l c k r)
    else match atNode n fn l with
      | some l' => some (.node l' c k r)
      | none => (atNode n fn r).map (.node l c k ·)

/-- `ArenaTree::remove`, `arenatree_p.h:198-301`. -/
def remove (root : Tree) (k : Nat) : Option Tree := do
  let (v, fs, q) ← removeLoop k (root.size + 1) ⟨none, none, none, none, true⟩ [] (.node .nil false 0 root)
  let f ← v.f
  let x ← q.key?
  let l ← q.child false
  let r ← q.child true
  let rep := if l = .nil then r else l
  let t ← (match fs with
    | [] => none
    | fp :: _ => if v.p = some fp.k then some (plug fs rep) else none)
  let t ← (if f ≠ x then atNode (v.gf.getD 0) (walk f x) t else some t)
  rootOf t

/-- `ArenaTree::get`, `arenatree_p.h:304-314`. -/
def get : Tree → Nat → Option Nat
  | .nil, _ => none
  | .node l _ x r, k => if x = k then some x else if x < k then get r k else get l k

end Blend2D.ArenaTree
