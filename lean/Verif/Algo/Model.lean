/-! # Searching and sorting (`blend2d/support/algorithm_p.h`)

Pointers into the array are indexes.  `none` means that the code would access an element outside the array, overflow its
work stack, or not terminate within the given number of iterations.
-/
namespace Blend2D.Algo

/-- Main loop of `lower_bound` - algorithm_p.h:22-40.  `b` selects both the new index and the new size. -/
def lowerBoundLoop (data : Array α) (value : β) (pred : α → β → Bool) (index size : Nat) : Option Nat :=
  if size = 0 then some index
  else
    match data[index + size / 2]? with
    | none => none
    | some a =>
      if pred a value then lowerBoundLoop data value pred (index + size / 2 + 1) (size - (size / 2 + 1))
      else lowerBoundLoop data value pred index (size / 2)
termination_by size

/-- `lower_bound` - algorithm_p.h:22-40. -/
def lowerBound (data : Array α) (size : Nat) (value : β) (pred : α → β → Bool) : Option Nat :=
  lowerBoundLoop data value pred 0 size

/-- The halving loop shared by the three binary searches - algorithm_p.h:59-64, 79-84, 99-104.
`keep a value` is `middle[0] <= value` or `middle[0] < value`. -/
def halve (data : Array α) (value : β) (keep : α → β → Bool) (base size : Nat) : Option Nat :=
  if size / 2 = 0 then some base
  else
    match data[base + size / 2]? with
    | none => none
    | some a =>
      halve data value keep (if keep a value then base + size / 2 else base) (size - size / 2)
termination_by size
decreasing_by all_goals omega

/-- `binary_search` - algorithm_p.h:53-70.  The inner `none` is `SIZE_MAX` (not found). -/
def binarySearch (data : Array α) (size : Nat) (value : β) (le eq : α → β → Bool) : Option (Option Nat) :=
  if size = 0 then some none
  else
    match halve data value le 0 size with
    | none => none
    | some base =>
      match data[base]? with
      | none => none
      | some a => some (if eq a value then some base else none)

/-- `binary_search_closest_first` - algorithm_p.h:73-90. -/
def binarySearchClosestFirst (data : Array α) (size : Nat) (value : β) (lt : α → β → Bool) : Option Nat :=
  if size = 0 then some 0
  else
    match halve data value lt 0 size with
    | none => none
    | some base =>
      match data[base]? with
      | none => none
      | some a => some (if lt a value then base + 1 else base)

/-- `binary_search_closest_last` - algorithm_p.h:93-108. -/
def binarySearchClosestLast (data : Array α) (size : Nat) (value : β) (le : α → β → Bool) : Option Nat :=
  if size = 0 then some 0 else halve data value le 0 size

/-- `BLInternal::swap(xs[i], xs[j])`. -/
def sw (xs : Array α) (i j : Nat) : Option (Array α) :=
  if h : i < xs.size ∧ j < xs.size then some (xs.swap i j h.1 h.2) else none

/-- Inner loop of `insertion_sort` - algorithm_p.h:135-136. -/
def insertInner (cmp : α → α → Int) (base : Nat) : Nat → Array α → Option (Array α)
  | 0, xs => some xs
  | pl + 1, xs =>
    if pl + 1 > base then
      match xs[pl]?, xs[pl + 1]? with
      | some a, some b =>
        if cmp a b > 0 then (sw xs pl (pl + 1)).bind (insertInner cmp base pl)
        else some xs
      | _, _ => none
    else some xs

/-- Outer loop of `insertion_sort` - algorithm_p.h:134; `n` iterations starting at `pm`. -/
def insertOuter (cmp : α → α → Int) (base : Nat) : Nat → Nat → Array α → Option (Array α)
  | 0, _, xs => some xs
  | n + 1, pm, xs => (insertInner cmp base pm xs).bind (insertOuter cmp base n (pm + 1))

/-- `insertion_sort` of `xs[base .. base + size)` - algorithm_p.h:132-137. -/
def insertionSort (cmp : α → α → Int) (xs : Array α) (base size : Nat) : Option (Array α) :=
  insertOuter cmp base (size - 1) (base + 1) xs

/-- `while (pi < pj && cmp(*++pi, *base) < 0) continue;` - algorithm_p.h:166. -/
def scanI (cmp : α → α → Int) (xs : Array α) (base pj pi : Nat) : Option Nat :=
  if pi < pj then
    match xs[pi + 1]?, xs[base]? with
    | some a, some p => if cmp a p < 0 then scanI cmp xs base pj (pi + 1) else some (pi + 1)
    | _, _ => none
  else some pi
termination_by pj - pi

/-- `while (pj > base && cmp(*--pj, *base) > 0) continue;` - algorithm_p.h:167. -/
def scanJ (cmp : α → α → Int) (xs : Array α) (base pj : Nat) : Option Nat :=
  if pj > base then
    match xs[pj - 1]?, xs[base]? with
    | some a, some p => if cmp a p > 0 then scanJ cmp xs base (pj - 1) else some (pj - 1)
    | _, _ => none
  else some pj
termination_by pj

/-- Partition loop - algorithm_p.h:165-171.  `fuel` bounds the number of iterations. -/
def partLoop (cmp : α → α → Int) (base : Nat) : Nat → Array α → Nat → Nat → Option (Array α × Nat × Nat)
  | 0, _, _, _ => none
  | fuel + 1, xs, pi, pj => do
    let i ← scanI cmp xs base pj pi
    let j ← scanJ cmp xs base pj
    if i > j then some (xs, i, j)
    else do
      let xs ← sw xs i j
      partLoop cmp base fuel xs i j

/-- `if (cmp(xs[i], xs[j]) > 0) swap(xs[i], xs[j]);` - algorithm_p.h:160-162. -/
def condSwap (cmp : α → α → Int) (xs : Array α) (i j : Nat) : Option (Array α) :=
  match xs[i]?, xs[j]? with
  | some a, some b => if cmp a b > 0 then sw xs i j else some xs
  | _, _ => none

/-- One partition step - algorithm_p.h:155-174: median of three, partition loop, pivot placement.
Returns the array and the final `pi`, `pj`. -/
def partition (cmp : α → α → Int) (xs : Array α) (base end_ : Nat) : Option (Array α × Nat × Nat) := do
  let pi := base + 1
  let pj := end_ - 1
  let xs ← sw xs (base + (end_ - base) / 2) base
  let xs ← condSwap cmp xs pi pj
  let xs ← condSwap cmp xs base pj
  let xs ← condSwap cmp xs pi base
  let (xs, pi, pj) ← partLoop cmp base (end_ - base) xs pi pj
  let xs ← sw xs base pj
  some (xs, pi, pj)

/-- Capacity of the work stack in pointers (`kStackSize`) - algorithm_p.h:145. -/
def kStackSize : Nat := 64 * 2

/-- Ranges larger than this are partitioned (`kISortThreshold`) - algorithm_p.h:146. -/
def kISortThreshold : Nat := 7

/-- Main loop of `QuickSortImpl::sort` - algorithm_p.h:150-203.  The stack is a list of (base, end) pairs, two pointers
each.  `fuel` bounds the number of iterations. -/
def quickLoop (cmp : α → α → Int) : Nat → Array α → Nat → Nat → List (Nat × Nat) → Option (Array α)
  | 0, _, _, _, _ => none
  | fuel + 1, xs, base, end_, stack =>
    if end_ - base > kISortThreshold then do
      let (xs, pi, pj) ← partition cmp xs base end_
      if pj - base > end_ - pi then
        if 2 * (stack.length + 1) ≤ kStackSize then quickLoop cmp fuel xs pi end_ ((base, pj) :: stack) else none
      else
        if 2 * (stack.length + 1) ≤ kStackSize then quickLoop cmp fuel xs base pj ((pi, end_) :: stack) else none
    else do
      let xs ← insertionSort cmp xs base (end_ - base)
      match stack with
      | [] => some xs
      | (b, e) :: stack => quickLoop cmp fuel xs b e stack

/-- `quick_sort` - algorithm_p.h:206-210. -/
def quickSort (cmp : α → α → Int) (xs : Array α) : Option (Array α) :=
  quickLoop cmp (2 * xs.size + 1) xs 0 xs.size []

end Blend2D.Algo
