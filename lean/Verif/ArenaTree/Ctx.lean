import Verif.ArenaTree.Spec

/-!
# Trees seen from a focus
-/

namespace Blend2D.ArenaTree

/-- The keys left and right of the focus. -/
def lo : List Frame → List Nat
  | [] => []
  | f :: fs => if f.dir then lo fs ++ inorder f.sib ++ [f.k] else lo fs

def hi : List Frame → List Nat
  | [] => []
  | f :: fs => if f.dir then hi fs else f.k :: inorder f.sib ++ hi fs

theorem inorder_plug : ∀ fs t, inorder (plug fs t) = lo fs ++ inorder t ++ hi fs
  | [], t => by simp [plug, lo, hi]
  | f :: fs, t => by
    rw [plug, inorder_plug fs]
    simp only [lo, hi, Frame.fill]
    cases f.dir <;> simp [inorder]

/-- The outermost frame is the false root, and no other. -/
def HeadLast : List Frame → Prop
  | [] => False
  | [f] => f.k = 0 ∧ f.dir = true ∧ f.sib = .nil
  | f :: fs => f.k ≠ 0 ∧ HeadLast fs

/-- A context which becomes a red-black tree when a tree with black height `n` is put at the focus.  `hr` says that the
tree has a red root. -/
def RBCtx : List Frame → Bool → Nat → Prop
  | [], _, _ => True
  | [_], _, _ => True
  | f :: fs, hr, n =>
    (f.red = true → hr = false ∧ f.sib.isRed = false) ∧ NoRedRed f.sib ∧ BlackHeight f.sib n ∧
      RBCtx fs f.red (if f.red then n else n + 1)

/-- A red-black tree except for the colour of its root. -/
def RB (t : Tree) (n : Nat) : Prop := NoRedRed t ∧ BlackHeight t n

theorem RBCtx.black {fs hr n} (h : RBCtx fs hr n) : RBCtx fs false n := by
  match fs, h with
  | [], _ => trivial
  | [_], _ => trivial
  | f :: g :: fs, h =>
    obtain ⟨h1, h2, h3, h4⟩ := h
    exact ⟨fun e => ⟨rfl, (h1 e).2⟩, h2, h3, h4⟩

theorem headLast_cons {f g fs} : HeadLast (f :: g :: fs) ↔ f.k ≠ 0 ∧ HeadLast (g :: fs) := Iff.rfl

theorem rbctx_cons {f g fs hr n} : RBCtx (f :: g :: fs) hr n ↔
    ((f.red = true → hr = false ∧ f.sib.isRed = false) ∧ NoRedRed f.sib ∧ BlackHeight f.sib n ∧
      RBCtx (g :: fs) f.red (if f.red then n else n + 1)) := Iff.rfl

/-- What becomes of the root when the focus is put back. -/
theorem plug_root : ∀ {fs : List Frame} {t : Tree} {n}, HeadLast fs → RBCtx fs t.isRed n → RB t n →
    ∃ u m c, plug fs t = .node .nil c 0 u ∧ RB u m
  | [], _, _, h, _, _ => h.elim
  | [f], t, n, h, _, hb => by
    obtain ⟨h1, h2, h3⟩ := h
    exact ⟨t, n, f.red, by simp [plug, Frame.fill, h1, h2, h3], hb⟩
  | f :: g :: fs, t, n, h, hc, hb => by
    obtain ⟨h1, h2, h3, h4⟩ := rbctx_cons.1 hc
    rw [plug]
    refine plug_root (n := if f.red then n else n + 1) (headLast_cons.1 h).2 ?_ ?_
    · unfold Frame.fill; cases f.dir <;> simpa [Tree.isRed] using h4
    · unfold Frame.fill RB
      cases hd : f.dir <;> cases hr : f.red <;>
        simp_all [NoRedRed, BlackHeight, RB]

theorem rootOf_ok {u : Tree} {m : Nat} {c : Bool} (h : RB u m) :
    ∃ t, rootOf (.node .nil c 0 u) = some t ∧ inorder t = inorder u ∧ RedBlack t := by
  cases u with
  | nil => exact ⟨.nil, rfl, rfl, rfl, trivial, 0, rfl⟩
  | node l d k r =>
    refine ⟨.node l false k r, rfl, rfl, rfl, ⟨by simp, h.1.2.1, h.1.2.2⟩, ?_⟩
    have hb := h.2
    cases d with
    | true => exact ⟨m + 1, by simpa [BlackHeight] using hb⟩
    | false => exact ⟨m, by simpa [BlackHeight] using hb⟩

/-- The number of black nodes bounds the height and the size. -/
theorem height_le : ∀ (t : Tree) (n : Nat), NoRedRed t → BlackHeight t n →
    height t ≤ 2 * n + (if t.isRed then 1 else 0) ∧ 2 ^ n ≤ t.size + 1
  | .nil, n, _, h => by
    have : n = 0 := h
    subst this; simp [height, Tree.size, Tree.isRed]
  | .node l c k r, n, hr, h => by
    obtain ⟨h1, h2, h3⟩ := hr
    cases c with
    | true =>
      have hb : BlackHeight l n ∧ BlackHeight r n := by simpa [BlackHeight] using h
      obtain ⟨a1, a2⟩ := height_le l n h2 hb.1
      obtain ⟨b1, b2⟩ := height_le r n h3 hb.2
      have := h1 rfl
      simp only [this.1, this.2, Bool.false_eq_true, if_false] at a1 b1
      simp only [height, Tree.size, Tree.isRed, if_true]
      omega
    | false =>
      have hb : ∃ m, n = m + 1 ∧ BlackHeight l m ∧ BlackHeight r m := by simpa [BlackHeight] using h
      obtain ⟨m, rfl, hl, hr⟩ := hb
      obtain ⟨a1, a2⟩ := height_le l m h2 hl
      obtain ⟨b1, b2⟩ := height_le r m h3 hr
      simp only [height, Tree.size, Tree.isRed, Bool.false_eq_true, if_false, Nat.pow_succ]
      have : ∀ b : Bool, (if b then 1 else 0 : Nat) ≤ 1 := by decide
      have := this l.isRed
      have := ‹∀ b : Bool, (if b then 1 else 0 : Nat) ≤ 1› r.isRed
      omega

theorem redBlack_height {t : Tree} (h : RedBlack t) : height t ≤ 2 * Nat.log 2 (t.size + 1) := by
  obtain ⟨h1, h2, n, h3⟩ := h
  obtain ⟨a, b⟩ := height_le t n h2 h3
  have hn : n ≤ Nat.log 2 (t.size + 1) := Nat.le_log_of_pow_le (by omega) b
  simp only [h1, Bool.false_eq_true, if_false] at a
  omega

theorem length_inorder : ∀ t : Tree, (inorder t).length = t.size
  | .nil => rfl
  | .node l _ _ r => by simp [inorder, Tree.size, length_inorder l, length_inorder r]; omega

/-- `get` finds exactly the keys of the tree. -/
theorem get_spec : ∀ (t : Tree) (k : Nat), Sorted t → get t k = if k ∈ inorder t then some k else none
  | .nil, k, _ => by simp [get, inorder]
  | .node l c x r, k, h => by
    unfold Sorted inorder at h
    rw [List.pairwise_append] at h
    obtain ⟨h1, h2, h3⟩ := h
    rw [List.pairwise_cons] at h2
    have hl : ∀ y ∈ inorder l, y < x := fun y hy => h3 y hy x (by simp)
    unfold get
    by_cases e : x = k
    · subst e; simp [inorder]
    · rw [if_neg e]
      by_cases hlt : x < k
      · rw [if_pos hlt, get_spec r k h2.2]
        have : k ∉ inorder l := fun hk => by have := hl k hk; omega
        simp [inorder, this, Ne.symm e]
      · rw [if_neg hlt, get_spec l k h1]
        have : k ∉ inorder r := fun hk => by have := h2.1 k hk; omega
        simp [inorder, this, Ne.symm e]

end Blend2D.ArenaTree
