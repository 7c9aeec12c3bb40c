/-! # What searching and sorting have to deliver -/
namespace Blend2D.Algo.Spec

/-- A comparator describing a total preorder by the sign of its result. -/
structure Comparator (cmp : α → α → Int) : Prop where
  /-- swapping the arguments swaps the sign -/
  flip : ∀ a b, cmp a b > 0 ↔ cmp b a < 0
  /-- `a ≤ b` and `b ≤ c` give `a ≤ c` -/
  trans : ∀ a b c, cmp a b ≤ 0 → cmp b c ≤ 0 → cmp a c ≤ 0

/-- `xs[lo .. hi)` is in order. -/
def SortedOn (cmp : α → α → Int) (xs : Array α) (lo hi : Nat) : Prop :=
  ∀ i j (hj : j < xs.size) (hij : i < j), lo ≤ i → j < hi → cmp xs[i] xs[j] ≤ 0

/-- Every pair of elements is in order. -/
def Sorted (cmp : α → α → Int) (xs : Array α) : Prop :=
  ∀ i j (hj : j < xs.size) (hij : i < j), cmp xs[i] xs[j] ≤ 0

/-- The elements for which `p` holds come first. -/
def Partitioned (xs : Array α) (p : α → Prop) : Prop :=
  ∀ i j (hj : j < xs.size) (hij : i ≤ j), p xs[j] → p xs[i]

end Blend2D.Algo.Spec
