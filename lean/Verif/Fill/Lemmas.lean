import Verif.Fill.Spec
namespace Blend2D.Fill
open BitOps (Order countZerosFromStart shiftToEnd hasBit bitAt bitAt_word hasBit_xor hasBit_ones hasBit_shiftToEnd
  countZeros_spec zero_of_no_bit hasBit_zero hasBit_ge)
open Spec

variable {P : Type} {o : Order} {A : Args} {C : Comp P}

/-- The first `n` elements are changed by `f`, the others are as they were. -/
def Is {α : Type} (n : Nat) (f : Nat → α → α) (l l' : List α) : Prop :=
  l'.length = l.length ∧ ∀ k, l'[k]? = if k < n then (l[k]?).map (f k) else l[k]?

theorem Is.refl {α : Type} (f : Nat → α → α) (l : List α) : Is 0 f l l := ⟨rfl, fun k => by simp⟩

theorem Is.set {α : Type} {n : Nat} {f : Nat → α → α} {l l' : List α} (h : Is n f l l') (hn : n < l.length) :
    Is (n + 1) f l (l'.set n (f n l[n])) := by
  refine ⟨by rw [List.length_set, h.1], ?_⟩
  intro k
  rw [List.getElem?_set]
  by_cases e : n = k
  · subst e
    rw [if_pos rfl, h.1, if_pos hn, if_pos (Nat.lt_succ_self _), List.getElem?_eq_getElem hn]; rfl
  · rw [if_neg e, h.2 k]
    by_cases h2 : k < n
    · rw [if_pos h2, if_pos (by omega)]
    · rw [if_neg h2, if_neg (by omega)]

/-- Elements that `f` does not change. -/
theorem Is.skip {α : Type} {n m : Nat} {f : Nat → α → α} {l l' : List α} (h : Is n f l l') (hnm : n ≤ m)
    (hf : ∀ k, n ≤ k → k < m → ∀ x, l[k]? = some x → f k x = x) : Is m f l l' := by
  refine ⟨h.1, fun k => ?_⟩
  rw [h.2 k]
  by_cases h1 : k < n
  · rw [if_pos h1, if_pos (by omega)]
  · rw [if_neg h1]
    by_cases h2 : k < m
    · rw [if_pos h2]
      cases hx : l[k]? with
      | none => rfl
      | some x => rw [Option.map_some, hf k (by omega) h2 x hx]
    · rw [if_neg h2]

theorem Is.get {α : Type} {n k : Nat} {f : Nat → α → α} {l l' : List α} (h : Is n f l l') (hk : n ≤ k) (hl : k < l.length) :
    l'[k]? = some l[k] := by
  rw [h.2 k, if_neg (by omega), List.getElem?_eq_getElem hl]

/-- Clearing. -/
def zap {n : Nat} (_ : Nat) (_ : BitVec n) : BitVec n := 0

/-- The coverage before the pixel `n`. -/
def pre (cells : List (BitVec 32)) (n : Nat) : BitVec 32 := 256#32 <<< 9 + sum cells n

theorem pre_succ (cells : List (BitVec 32)) (n : Nat) : pre cells (n + 1) = pre cells n + (cells[n]?).getD 0 := by
  rw [pre, sum, pre, BitVec.add_assoc]

/-- What composition should make of the pixel at `x`. -/
def paint (A : Args) (C : Comp P) (cells : List (BitVec 32)) (x : Nat) (d : P) : P :=
  C.masked x d (calcMask (pre cells (x + 1)) A.rule A.alpha)

/-- The composition operator: mask 0 changes nothing, mask 255 is no mask. -/
structure Good (C : Comp P) : Prop where
  zero : ∀ x d, C.masked x d 0 = d
  full : C.optimize = true → ∀ x d, C.full x d = C.masked x d 255

/-- The row is finished up to the pixel `x` and the cell `c`; the words before `p` are cleared. -/
structure Upto (A : Args) (C : Comp P) (r0 : Row P) (p c x : Nat) (r : Row P) : Prop where
  bits : Is p zap r0.bits r.bits
  cells : Is c zap r0.cells r.cells
  dst : Is x (paint A C r0.cells) r0.dst r.dst
  pos : r.pos = x

theorem pixelMasked_ok {r0 r : Row P} {p c x : Nat} (h : Upto A C r0 p c x r) (hx : x < r0.dst.length) (m : Nat)
    (hm : m = calcMask (pre r0.cells (x + 1)) A.rule A.alpha) :
    ∃ r', pixelMasked C r x m = some r' ∧ Upto A C r0 p c (x + 1) r' := by
  refine ⟨_, by simp only [pixelMasked, h.dst.get (Nat.le_refl _) hx, Option.bind_eq_bind, Option.bind_some]; rfl, ?_⟩
  refine ⟨h.bits, h.cells, ?_, by simp [h.pos]⟩
  have := h.dst.set hx
  rw [paint, ← hm] at this
  simp only [h.pos]
  exact this

theorem pixelOpaque_ok (hC : Good C) (ho : C.optimize = true) {r0 r : Row P} {p c x : Nat} (h : Upto A C r0 p c x r)
    (hx : x < r0.dst.length) (hm : 255 = calcMask (pre r0.cells (x + 1)) A.rule A.alpha) :
    ∃ r', pixelOpaque C r x = some r' ∧ Upto A C r0 p c (x + 1) r' := by
  refine ⟨_, by simp only [pixelOpaque, h.dst.get (Nat.le_refl _) hx, Option.bind_eq_bind, Option.bind_some]; rfl, ?_⟩
  refine ⟨h.bits, h.cells, ?_, by simp [h.pos]⟩
  have := h.dst.set hx
  rw [paint, ← hm, ← hC.full ho] at this
  simp only [h.pos]
  exact this

theorem spanMasked_ok {r0 : Row P} {p c m : Nat} : ∀ (n : Nat) {r : Row P} {x : Nat}, Upto A C r0 p c x r →
    x + n < r0.dst.length → (∀ k, x ≤ k → k ≤ x + n → m = calcMask (pre r0.cells (k + 1)) A.rule A.alpha) →
    ∃ r', spanMasked C m n r x = some r' ∧ Upto A C r0 p c (x + n + 1) r' := by
  intro n
  induction n with
  | zero =>
    intro r x h hx hm
    exact pixelMasked_ok h hx m (hm x (Nat.le_refl _) (by omega))
  | succ n ih =>
    intro r x h hx hm
    obtain ⟨r', e1, h1⟩ := pixelMasked_ok h (by omega) m (hm x (Nat.le_refl _) (by omega))
    obtain ⟨r'', e2, h2⟩ := ih h1 (by omega) (fun k a b => hm k (by omega) (by omega))
    refine ⟨r'', by simp only [spanMasked, e1, Option.bind_eq_bind, Option.bind_some, e2], ?_⟩
    rw [show x + (n + 1) + 1 = x + 1 + n + 1 by omega]; exact h2

theorem spanOpaque_ok (hC : Good C) (ho : C.optimize = true) {r0 : Row P} {p c : Nat} : ∀ (n : Nat) {r : Row P} {x : Nat},
    Upto A C r0 p c x r → x + n < r0.dst.length →
    (∀ k, x ≤ k → k ≤ x + n → 255 = calcMask (pre r0.cells (k + 1)) A.rule A.alpha) →
    ∃ r', spanOpaque C n r x = some r' ∧ Upto A C r0 p c (x + n + 1) r' := by
  intro n
  induction n with
  | zero =>
    intro r x h hx hm
    exact pixelOpaque_ok hC ho h hx (hm x (Nat.le_refl _) (by omega))
  | succ n ih =>
    intro r x h hx hm
    obtain ⟨r', e1, h1⟩ := pixelOpaque_ok hC ho h (by omega) (hm x (Nat.le_refl _) (by omega))
    obtain ⟨r'', e2, h2⟩ := ih h1 (by omega) (fun k a b => hm k (by omega) (by omega))
    refine ⟨r'', by simp only [spanOpaque, e1, Option.bind_eq_bind, Option.bind_some, e2], ?_⟩
    rw [show x + (n + 1) + 1 = x + 1 + n + 1 by omega]; exact h2

theorem span_ok (hC : Good C) {r0 r : Row P} {p c x m w : Nat} (hw : 0 < w) (h : Upto A C r0 p c x r) (hx : x + w ≤ r0.dst.length)
    (hm : ∀ k, x ≤ k → k < x + w → m = calcMask (pre r0.cells (k + 1)) A.rule A.alpha) :
    ∃ r', span C m w r x = some r' ∧ Upto A C r0 p c (x + w) r' := by
  obtain ⟨n, rfl⟩ : ∃ n, w = n + 1 := ⟨w - 1, by omega⟩
  simp only [span]
  by_cases ho : C.optimize = true ∧ m = 255
  · rw [if_pos ho]
    exact spanOpaque_ok hC ho.1 n h (by omega) (fun k a b => by rw [← ho.2]; exact hm k a (by omega))
  · rw [if_neg ho]
    exact spanMasked_ok n h (by omega) (fun k a b => hm k a (by omega))

theorem vloop_ok {r0 : Row P} {p : Nat} : ∀ (i : Nat) {r : Row P} {x : Nat}, Upto A C r0 p x x r →
    x + i < r0.cells.length → x + i ≤ r0.dst.length →
    ∃ r', vloop A C i r x x (pre r0.cells x) =
        some (r', pre r0.cells (x + i + 1), calcMask (pre r0.cells (x + i + 1)) A.rule A.alpha) ∧
      Upto A C r0 p (x + i + 1) (x + i) r' := by
  intro i
  induction i with
  | zero =>
    intro r x h hc hd
    have hp : pre r0.cells x + r0.cells[x] = pre r0.cells (x + 1) := by
      rw [pre_succ, List.getElem?_eq_getElem (show x < r0.cells.length from hc)]; rfl
    refine ⟨_, by simp only [vloop, h.cells.get (Nat.le_refl _) (show x < r0.cells.length from hc), Option.bind_eq_bind, Option.bind_some, hp]; rfl, ?_⟩
    exact ⟨h.bits, h.cells.set (show x < r0.cells.length from hc), h.dst, h.pos⟩
  | succ i ih =>
    intro r x h hc hd
    have hp : pre r0.cells x + r0.cells[x]'(by omega) = pre r0.cells (x + 1) := by
      rw [pre_succ, List.getElem?_eq_getElem (show x < r0.cells.length by omega)]; rfl
    have h1 : Upto A C r0 p (x + 1) x { r with cells := r.cells.set x 0 } :=
      ⟨h.bits, h.cells.set (show x < r0.cells.length by omega), h.dst, h.pos⟩
    obtain ⟨r1, e1, h2⟩ := pixelMasked_ok h1 (by omega) _ rfl
    obtain ⟨r2, e2, h3⟩ := ih h2 (by omega) (by omega)
    refine ⟨r2, ?_, ?_⟩
    · simp only [vloop, h.cells.get (Nat.le_refl _) (show x < r0.cells.length by omega), Option.bind_eq_bind, Option.bind_some, hp, e1, e2]
      rw [show x + 1 + i + 1 = x + (i + 1) + 1 by omega]
    · rw [show x + (i + 1) = x + 1 + i by omega]; exact h3

end Blend2D.Fill
