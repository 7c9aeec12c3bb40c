import Verif.BitArr.Lemmas
import Mathlib.Tactic.ByContra
import Mathlib.Data.Nat.Bitwise
/-! # The queries of bit arrays -/
namespace Blend2D.BitArr
open Cow Spec
open Blend2D.BitOps (bitAt startMask hasBit hasBit_and hasBit_ext hasBit_zero exists_bit)

/-! ### Counting -/

/-- How many of `f a, …, f (a + n - 1)` are true. -/
def cnt (f : Nat → Bool) (a n : Nat) : Nat := (List.range n).countP (fun j => f (a + j))

theorem cnt_zero (f : Nat → Bool) (a : Nat) : cnt f a 0 = 0 := rfl

theorem cnt_add (f : Nat → Bool) (a m n : Nat) : cnt f a (m + n) = cnt f a m + cnt f (a + m) n := by
  unfold cnt
  rw [List.range_add, List.countP_append, List.countP_map]
  congr 1
  apply List.countP_congr
  intro x _
  simp [Nat.add_assoc]

theorem cnt_congr (f g : Nat → Bool) (a b n : Nat) (h : ∀ j, j < n → f (a + j) = g (b + j)) : cnt f a n = cnt g b n := by
  unfold cnt
  apply List.countP_congr
  intro x hx
  rw [h x (List.mem_range.1 hx)]

theorem cnt_false (f : Nat → Bool) (a n : Nat) (h : ∀ j, j < n → f (a + j) = false) : cnt f a n = 0 := by
  unfold cnt
  apply List.countP_eq_zero.2
  intro x hx
  rw [h x (List.mem_range.1 hx)]; simp

theorem count_cnt (l : List Bool) : l.count true = cnt (lb l) 0 l.length := by
  induction l with
  | nil => rfl
  | cons a t ih =>
    rw [List.length_cons, Nat.add_comm t.length 1, cnt_add, List.count_cons, ih]
    have h1 : cnt (lb (a :: t)) 0 1 = if a == true then 1 else 0 := by cases a <;> rfl
    have h2 : cnt (lb (a :: t)) (0 + 1) t.length = cnt (lb t) 0 t.length := by
      apply cnt_congr
      intro j _
      have e : 0 + 1 + j = (0 + j) + 1 := by omega
      rw [e]; rfl
    rw [h1, h2]; omega

theorem count_slice (l : List Bool) (a b : Nat) : ((l.take b).drop a).count true = cnt (lb l) a (min b l.length - a) := by
  rw [count_cnt]
  have hlen : ((l.take b).drop a).length = min b l.length - a := by simp
  rw [hlen]
  apply cnt_congr
  intro j hj
  unfold lb
  rw [List.getElem?_drop, List.getElem?_take, if_pos (by omega)]
  congr 2; omega

theorem popWords_ok (ws : List W) (n k : Nat) (h : k + n ≤ ws.length) : popWords ws k n = some (cnt (bit ws) (32 * k) (32 * n)) := by
  induction n generalizing k with
  | zero => rfl
  | succ n ih =>
    have hx := List.getElem?_eq_getElem (show k < ws.length by omega)
    simp only [popWords, hx, ih (k + 1) (by omega), Option.bind_eq_bind, Option.bind_some]
    have e : 32 * (n + 1) = 32 + 32 * n := by omega
    rw [e, cnt_add]
    show some _ = some _
    congr 2
    unfold popCount cnt
    apply List.countP_congr
    intro j hj
    have := bit_split ws k j (List.mem_range.1 hj) _ hx
    rw [this]

/-- Counting the bits of a word between `a` and `b`. -/
theorem popMask_ok (ws : List W) (k : Nat) (x m : W) (hx : ws[k]? = some x) (a b : Nat) (hab : a ≤ b) (hb : b ≤ 32)
    (hm : ∀ j, j < 32 → hasBit .msb m j = decide (a ≤ j ∧ j < b)) : popCount (x &&& m) = cnt (bit ws) (32 * k + a) (b - a) := by
  have e : popCount (x &&& m) = cnt (fun j => hasBit .msb (x &&& m) j) 0 (a + (b - a) + (32 - b)) := by
    rw [show a + (b - a) + (32 - b) = 32 by omega]
    unfold popCount cnt
    apply List.countP_congr
    intro j _; rw [Nat.zero_add]
  rw [e, cnt_add, cnt_add, cnt_false _ 0 a, cnt_false _ _ (32 - b)]
  · rw [Nat.zero_add, Nat.add_zero]
    apply cnt_congr
    intro j hj
    rw [Nat.zero_add, hasBit_and, hm _ (by omega), Nat.add_assoc, bit_split ws k (a + j) (by omega) _ hx]
    simp; omega
  · intro j hj
    rw [hasBit_and, hm _ (by omega)]
    simp; omega
  · intro j hj
    rw [hasBit_and, hm _ (by omega)]
    simp; omega

section
variable {sso : Bool} {d : Data} {l : List Bool} (h : Ok sso d l)
include h

theorem Ok.words : wordCount l.length ≤ d.words.length := by
  have := h.shape
  cases sso
  · simp only [Bool.false_eq_true, if_false] at this; omega
  · simp only [if_true] at this; unfold wordCount; omega

theorem cardinality_ok : cardinality d = some (l.count true) := by
  unfold cardinality
  rw [h.size]
  by_cases hz : l.length = 0
  · rw [if_pos hz, List.length_eq_zero_iff.1 hz]; rfl
  · rw [if_neg hz, popWords_ok _ _ _ (by have := h.words; omega), count_cnt]
    have e : 32 * wordCount l.length = l.length + (32 * wordCount l.length - l.length) := by unfold wordCount; omega
    rw [e, cnt_add]
    congr 1
    rw [cnt_false _ (32 * 0 + l.length) _ (by intro j _; rw [h.val, lb_ge _ _ (by omega)])]
    exact cnt_congr _ _ _ _ _ (fun j _ => by rw [h.val])

theorem cardinalityIn_ok (a b : Nat) (hok : min b l.length ≤ a ∨ a < 32 ∨ a / 32 ≠ (min b l.length - 1) / 32) :
    cardinalityIn d a b = some (((l.take b).drop a).count true) := by
  unfold cardinalityIn
  rw [h.size, count_slice]
  obtain ⟨s, hs⟩ : ∃ s, s = min b l.length := ⟨_, rfl⟩
  have hw := h.words
  simp only [← hs] at hok ⊢
  by_cases hz : a ≥ s
  · rw [if_pos hz, show s - a = 0 by omega]; rfl
  · rw [if_neg hz]
    have hwl : (s - 1) / 32 < d.words.length := by unfold wordCount at hw; omega
    have hfin : cnt (bit d.words) a (s - a) = cnt (lb l) a (s - a) := cnt_congr _ _ _ _ _ (fun j _ => by rw [h.val])
    by_cases hsame : a / 32 = (s - 1) / 32
    · rw [if_pos hsame]
      have ha : a < 32 := by omega
      obtain ⟨m, m1, m2⟩ := startMaskAt_ok (s - a) a (by omega) (by omega)
      have hx := List.getElem?_eq_getElem (show a / 32 < d.words.length by omega)
      simp only [m1, hx, Option.bind_eq_bind, Option.bind_some]
      have := popMask_ok d.words (a / 32) _ m hx a s (by omega) (by omega) (by
        intro j hj; rw [m2 j hj]; apply decide_eq_decide.2; omega)
      show some _ = _
      rw [this, ← hfin, show 32 * (a / 32) + a = a by omega]
    · rw [if_neg hsame]
      obtain ⟨m, m1, m2⟩ := endMask_ok (32 - a % 32) (by omega) (by omega)
      obtain ⟨m', m1', m2'⟩ := startMask_ok ((s - 1) % 32 + 1) (by omega) (by omega)
      have hx := List.getElem?_eq_getElem (show a / 32 < d.words.length by omega)
      have hy := List.getElem?_eq_getElem hwl
      have hp := popWords_ok d.words ((s - 1) / 32 - a / 32 - 1) (a / 32 + 1) (by omega)
      simp only [m1, m1', hx, hy, hp, Option.bind_eq_bind, Option.bind_some]
      have h1 := popMask_ok d.words (a / 32) _ m hx (a % 32) 32 (by omega) (by omega) (by
        intro j hj; rw [m2 j hj]; apply decide_eq_decide.2; omega)
      have h2 := popMask_ok d.words ((s - 1) / 32) _ m' hy 0 ((s - 1) % 32 + 1) (by omega) (by omega) (by
        intro j hj; rw [m2' j hj]; apply decide_eq_decide.2; omega)
      show some _ = _
      rw [h1, h2, ← hfin]
      have e : s - a = (32 - a % 32) + 32 * ((s - 1) / 32 - a / 32 - 1) + ((s - 1) % 32 + 1 - 0) := by omega
      rw [e, cnt_add, cnt_add]
      have e1 : 32 * (a / 32) + a % 32 = a := by omega
      have e2 : 32 * (a / 32 + 1) = a + (32 - a % 32) := by omega
      have e3 : 32 * ((s - 1) / 32) + 0 = a + (32 - a % 32) + 32 * ((s - 1) / 32 - a / 32 - 1) := by omega
      rw [e1, e2, e3, Nat.add_assoc a]

theorem hasBitAt_ok (k : Nat) : hasBitAt d k = some (lb l k) := by
  unfold hasBitAt
  rw [h.size]
  by_cases hk : k ≥ l.length
  · rw [if_pos hk, lb_ge _ _ hk]
  · rw [if_neg hk]
    have hw := h.words
    rw [(BitOps.C41_single_bit .msb d.words k (by unfold wordCount at hw; omega)).1]
    exact congrArg some (h.val k)

end

/-! ### Searching -/

theorem ne_zero_iff (x : W) : x ≠ 0 ↔ ∃ j, j < 32 ∧ hasBit .msb x j = true := by
  constructor
  · exact fun h => exists_bit .msb h
  · rintro ⟨j, hj, hb⟩ rfl
    rw [hasBit_zero] at hb; simp at hb

theorem anyWord_ok (ws : List W) (n k : Nat) (h : k + n ≤ ws.length) :
    ∃ b, anyWord ws k n = some b ∧ (b = true ↔ ∃ p, 32 * k ≤ p ∧ p < 32 * (k + n) ∧ bit ws p = true) := by
  induction n generalizing k with
  | zero => exact ⟨false, rfl, by simp; intro p _ _; omega⟩
  | succ n ih =>
    have hx := List.getElem?_eq_getElem (show k < ws.length by omega)
    simp only [anyWord, hx, Option.bind_eq_bind, Option.bind_some]
    by_cases hz : ws[k] ≠ 0
    · rw [if_pos hz]
      obtain ⟨j, hj, hb⟩ := (ne_zero_iff _).1 hz
      exact ⟨true, rfl, by simp only [true_iff]; exact ⟨32 * k + j, by omega, by omega, by rw [bit_split ws k j hj _ hx]; exact hb⟩⟩
    · rw [if_neg hz]
      obtain ⟨b, h1, h2⟩ := ih (k + 1) (by omega)
      refine ⟨b, h1, ?_⟩
      rw [h2]
      constructor
      · rintro ⟨p, p1, p2, p3⟩; exact ⟨p, by omega, by omega, p3⟩
      · rintro ⟨p, p1, p2, p3⟩
        refine ⟨p, ?_, by omega, p3⟩
        by_contra hc
        apply hz
        rw [ne_zero_iff]
        refine ⟨p % 32, by omega, ?_⟩
        have hp : p = 32 * k + p % 32 := by omega
        rw [hp, bit_split ws k _ (by omega) _ hx] at p3
        exact p3

/-- Testing the bits of a word between `a` and `b`. -/
theorem testMask_ok (ws : List W) (k : Nat) (x m : W) (hx : ws[k]? = some x) (a b : Nat) (hb : b ≤ 32)
    (hm : ∀ j, j < 32 → hasBit .msb m j = decide (a ≤ j ∧ j < b)) :
    (x &&& m) ≠ 0 ↔ ∃ p, 32 * k + a ≤ p ∧ p < 32 * k + b ∧ bit ws p = true := by
  rw [ne_zero_iff]
  constructor
  · rintro ⟨j, hj, hp⟩
    rw [hasBit_and, hm j hj, Bool.and_eq_true, decide_eq_true_eq] at hp
    exact ⟨32 * k + j, by omega, by omega, by rw [bit_split ws k j hj _ hx]; exact hp.1⟩
  · rintro ⟨p, p1, p2, p3⟩
    refine ⟨p - 32 * k, by omega, ?_⟩
    have hp : p = 32 * k + (p - 32 * k) := by omega
    rw [hp, bit_split ws k _ (by omega) _ hx] at p3
    rw [hasBit_and, p3, hm _ (by omega)]
    simp; omega

/-- `has_bits_in_range` shifts by 32, or reads beyond the words, unless this holds. -/
def RangeOk (n a b : Nat) : Prop := min n b ≤ a ∨ min n b % 32 ≠ 0 ∧ (a < 32 ∨ a / 32 ≠ min n b / 32)

instance (n a b : Nat) : Decidable (RangeOk n a b) := by unfold RangeOk; infer_instance

theorem hasBitsIn_ok {sso : Bool} {d : Data} {l : List Bool} (h : Ok sso d l) (a b : Nat) (hok : RangeOk l.length a b) :
    hasBitsIn d a b = some (decide (∃ k, k < b ∧ a ≤ k ∧ lb l k = true)) := by
  have key : ∀ r : Bool, (r = true ↔ ∃ p, a ≤ p ∧ p < min l.length b ∧ bit d.words p = true) →
      some r = some (decide (∃ k, k < b ∧ a ≤ k ∧ lb l k = true)) := by
    intro r hr
    congr 1
    rw [Bool.eq_iff_iff, hr, decide_eq_true_eq]
    constructor
    · rintro ⟨p, p1, p2, p3⟩; exact ⟨p, by omega, p1, by rw [← h.val]; exact p3⟩
    · rintro ⟨p, p1, p2, p3⟩
      have : p < l.length := by
        by_contra hc
        rw [lb_ge _ _ (by omega)] at p3; simp at p3
      exact ⟨p, p2, by omega, by rw [h.val]; exact p3⟩
  unfold hasBitsIn
  unfold RangeOk at hok
  rw [h.size]
  obtain ⟨s, hs⟩ : ∃ s, s = min l.length b := ⟨_, rfl⟩
  have hw := h.words
  simp only [← hs] at hok key ⊢
  by_cases hz : a ≥ s
  · rw [if_pos hz]
    exact key false (by simp only [Bool.false_eq_true, false_iff]; rintro ⟨p, p1, p2, _⟩; omega)
  · rw [if_neg hz]
    have hwl : s / 32 < d.words.length := by unfold wordCount at hw; omega
    by_cases hsame : a / 32 = s / 32
    · rw [if_pos hsame]
      obtain ⟨m, m1, m2⟩ := startMaskAt_ok (s - a) a (by omega) (by omega)
      have hx := List.getElem?_eq_getElem (show a / 32 < d.words.length by omega)
      simp only [m1, hx, Option.bind_eq_bind, Option.bind_some]
      refine key _ ?_
      rw [bne_iff_ne, testMask_ok d.words (a / 32) _ m hx a s (by omega) (by
        intro j hj; rw [m2 j hj]; apply decide_eq_decide.2; omega)]
      rw [show a / 32 = 0 by omega]; simp
    · rw [if_neg hsame]
      obtain ⟨m, m1, m2⟩ := endMask_ok (32 - a % 32) (by omega) (by omega)
      obtain ⟨m', m1', m2'⟩ := startMask_ok (s % 32) (by omega) (by omega)
      have hx := List.getElem?_eq_getElem (show a / 32 < d.words.length by omega)
      have hy := List.getElem?_eq_getElem hwl
      obtain ⟨b1, a1, a2⟩ := anyWord_ok d.words (s / 32 - (a / 32 + 1)) (a / 32 + 1) (by omega)
      have g1 : ∀ p, 32 * (a / 32) + a % 32 ≤ p → a ≤ p := by intro p; omega
      have g2 : ∀ p, p < 32 * (a / 32) + 32 → p < s := by intro p; omega
      have g3 : ∀ p, 32 * (a / 32 + 1) ≤ p → a ≤ p := by intro p; omega
      have g4 : ∀ p, p < 32 * (a / 32 + 1 + (s / 32 - (a / 32 + 1))) → p < s := by intro p; omega
      have g5 : ∀ p, 32 * (s / 32) + 0 ≤ p → a ≤ p := by intro p; omega
      have g6 : ∀ p, p < 32 * (s / 32) + s % 32 ↔ p < s := by intro p; omega
      have g7 : ∀ p, a ≤ p → ¬ 32 * (s / 32) + 0 ≤ p → (32 * (a / 32) + a % 32 ≤ p ∧ p < 32 * (a / 32) + 32) ∨
        (32 * (a / 32 + 1) ≤ p ∧ p < 32 * (a / 32 + 1 + (s / 32 - (a / 32 + 1)))) := by intro p; omega
      have t1 := testMask_ok d.words (a / 32) _ m hx (a % 32) 32 (by omega) (by
        intro j hj; rw [m2 j hj]; apply decide_eq_decide.2; omega)
      have t2 := testMask_ok d.words (s / 32) _ m' hy 0 (s % 32) (by omega) (by
        intro j hj; rw [m2' j hj]; apply decide_eq_decide.2; omega)
      simp only [m1, m1', hx, hy, a1, Option.bind_eq_bind, Option.bind_some]
      by_cases c1 : (d.words[a / 32] &&& m) ≠ 0
      · rw [if_pos c1]
        obtain ⟨p, p1, p2, p3⟩ := t1.1 c1
        exact key true (by simp only [true_iff]; exact ⟨p, g1 p p1, g2 p p2, p3⟩)
      · rw [if_neg c1]
        by_cases c2 : b1 = true
        · rw [if_pos c2]
          obtain ⟨p, p1, p2, p3⟩ := a2.1 c2
          exact key true (by simp only [true_iff]; exact ⟨p, g3 p p1, g4 p p2, p3⟩)
        · rw [if_neg c2]
          refine key _ ?_
          rw [bne_iff_ne, t2]
          constructor
          · rintro ⟨p, p1, p2, p3⟩; exact ⟨p, g5 p p1, (g6 p).1 p2, p3⟩
          · rintro ⟨p, p1, p2, p3⟩
            refine ⟨p, ?_, (g6 p).2 p2, p3⟩
            by_contra hc
            rcases g7 p p1 hc with ⟨q1, q2⟩ | ⟨q1, q2⟩
            · exact c1 (t1.2 ⟨p, q1, q2, p3⟩)
            · exact c2 (a2.2 ⟨p, q1, q2, p3⟩)

theorem findPair_ok (P : W → W → Bool) (a b : List W) (n k : Nat) (ha : k + n ≤ a.length) (hb : k + n ≤ b.length) :
    (findPair P a b k n = some none ∧ ∀ j x y, k ≤ j → j < k + n → a[j]? = some x → b[j]? = some y → P x y = false) ∨
    (∃ j x y, findPair P a b k n = some (some (x, y)) ∧ k ≤ j ∧ j < k + n ∧ a[j]? = some x ∧ b[j]? = some y ∧ P x y = true ∧
      ∀ q u v, k ≤ q → q < j → a[q]? = some u → b[q]? = some v → P u v = false) := by
  induction n generalizing k with
  | zero => left; exact ⟨rfl, fun j x y h1 h2 => by omega⟩
  | succ n ih =>
    have hx := List.getElem?_eq_getElem (show k < a.length by omega)
    have hy := List.getElem?_eq_getElem (show k < b.length by omega)
    simp only [findPair, hx, hy, Option.bind_eq_bind, Option.bind_some]
    by_cases hp : P a[k] b[k] = true
    · rw [if_pos hp]
      right
      exact ⟨k, _, _, rfl, by omega, by omega, hx, hy, hp, fun q u v h1 h2 => by omega⟩
    · rw [if_neg hp]
      have hk : ∀ j u v, k ≤ j → (k + 1 ≤ j → P u v = false) → a[j]? = some u → b[j]? = some v → P u v = false := by
        intro j u v hj hrec h1 h2
        by_cases e : j = k
        · subst e
          rw [hx] at h1; rw [hy] at h2
          cases h1; cases h2; simpa using hp
        · exact hrec (by omega)
      rcases ih (k + 1) (by omega) (by omega) with ⟨r1, r2⟩ | ⟨j, x, y, r1, r2, r3, r4, r5, r6, r7⟩
      · left
        exact ⟨r1, fun j u v h1 h2 h3 h4 => hk j u v h1 (fun h5 => r2 j u v h5 (by omega) h3 h4) h3 h4⟩
      · right
        exact ⟨j, x, y, r1, by omega, by omega, r4, r5, r6, fun q u v h1 h2 h3 h4 => hk q u v h1 (fun h5 => r7 q u v h5 h2 h3 h4) h3 h4⟩

section
variable {sa sb : Bool} {a b : Data} {x y : List Bool} (ha : Ok sa a x) (hb : Ok sb b y)
include ha hb

theorem pair_words : wordCount (min x.length y.length) ≤ a.words.length ∧ wordCount (min x.length y.length) ≤ b.words.length := by
  have h1 := ha.words
  have h2 := hb.words
  unfold wordCount at *
  omega

theorem subsumes_ok : subsumes a b = some (decide (∀ k, k < y.length → lb y k = true → lb x k = true)) := by
  have hp := pair_words ha hb
  simp only [subsumes, ha.size, hb.size, Option.bind_eq_bind]
  obtain ⟨n, hn⟩ : ∃ n, n = wordCount (min x.length y.length) := ⟨_, rfl⟩
  rw [← hn] at hp ⊢
  rcases findPair_ok (fun x y => (x &&& y) != y) a.words b.words n 0 (by omega) (by omega) with ⟨r1, r2⟩ | ⟨j, u, v, r1, r2, r3, r4, r5, r6, r7⟩
  · rw [r1]
    have hw := hb.words
    obtain ⟨c, c1, c2⟩ := anyWord_ok b.words (wordCount y.length - n) n (by unfold wordCount at *; omega)
    simp only [Option.bind_some, c1]
    show some (!c) = _
    congr 1
    rw [Bool.eq_iff_iff, decide_eq_true_eq, Bool.not_eq_true', ← Bool.not_eq_true, c2]
    constructor
    · intro hno k hk hyk
      by_cases hkn : k < 32 * n
      · have hx := List.getElem?_eq_getElem (show k / 32 < a.words.length by omega)
        have hy := List.getElem?_eq_getElem (show k / 32 < b.words.length by omega)
        have hq := r2 (k / 32) _ _ (by omega) (by omega) hx hy
        have hq' : a.words[k / 32] &&& b.words[k / 32] = b.words[k / 32] := by simpa using hq
        have e := congrArg (fun z => hasBit .msb z (k % 32)) hq'
        simp only [hasBit_and] at e
        have hk' : k = 32 * (k / 32) + k % 32 := by omega
        rw [← hb.val, hk', bit_split _ _ _ (by omega) _ hy] at hyk
        rw [← ha.val, hk', bit_split _ _ _ (by omega) _ hx]
        rw [hyk] at e
        simpa using e
      · exfalso
        exact hno ⟨k, by omega, by unfold wordCount at *; omega, by rw [hb.val]; exact hyk⟩
    · rintro hall ⟨p, p1, p2, p3⟩
      rw [hb.val] at p3
      have hpy : p < y.length := by
        by_contra hc
        rw [lb_ge _ _ (by omega)] at p3; simp at p3
      have := hall p hpy p3
      have hpx : p < x.length := by
        by_contra hc
        rw [lb_ge _ _ (by omega)] at this; simp at this
      unfold wordCount at hn; omega
  · rw [r1]
    simp only [Option.bind_some]
    show some false = _
    congr 1
    symm
    rw [decide_eq_false_iff_not]
    intro hall
    have hne : u &&& v ≠ v := by simpa using r6
    apply hne
    apply hasBit_ext .msb
    intro i hi
    rw [hasBit_and]
    by_cases hv : hasBit .msb v i = true
    · have h1 : lb y (32 * j + i) = true := by rw [← hb.val, bit_split _ _ _ hi _ r5]; exact hv
      have h2 : 32 * j + i < y.length := by
        by_contra hc
        rw [lb_ge _ _ (by omega)] at h1; simp at h1
      have h3 := hall _ h2 h1
      rw [← ha.val, bit_split _ _ _ hi _ r4] at h3
      simp [h3]
    · have : hasBit .msb v i = false := by simpa using hv
      simp [this]

theorem intersects_ok : intersects a b = some (decide (∃ k, k < x.length ∧ lb x k = true ∧ lb y k = true)) := by
  have hp := pair_words ha hb
  simp only [intersects, ha.size, hb.size, Option.bind_eq_bind]
  obtain ⟨n, hn⟩ : ∃ n, n = wordCount (min x.length y.length) := ⟨_, rfl⟩
  rw [← hn] at hp ⊢
  rcases findPair_ok (fun x y => (x &&& y) != 0) a.words b.words n 0 (by omega) (by omega) with ⟨r1, r2⟩ | ⟨j, u, v, r1, r2, r3, r4, r5, r6, r7⟩
  · rw [r1]
    show some false = _
    congr 1
    symm
    rw [decide_eq_false_iff_not]
    rintro ⟨k, k1, k2, k3⟩
    have k4 : k < y.length := by
      by_contra hc
      rw [lb_ge _ _ (by omega)] at k3; simp at k3
    have hxl : k / 32 < a.words.length := by unfold wordCount at hn; omega
    have hyl : k / 32 < b.words.length := by unfold wordCount at hn; omega
    have hx := List.getElem?_eq_getElem hxl
    have hy := List.getElem?_eq_getElem hyl
    have hq := r2 (k / 32) _ _ (by omega) (by unfold wordCount at hn; omega) hx hy
    have hk' : k = 32 * (k / 32) + k % 32 := by omega
    rw [← hb.val, hk', bit_split _ _ _ (by omega) _ hy] at k3
    rw [← ha.val, hk', bit_split _ _ _ (by omega) _ hx] at k2
    have : a.words[k / 32] &&& b.words[k / 32] ≠ 0 := (ne_zero_iff _).2 ⟨k % 32, by omega, by rw [hasBit_and, k2, k3]; rfl⟩
    exact absurd (by simpa using hq) this
  · rw [r1]
    show some true = _
    congr 1
    symm
    rw [decide_eq_true_eq]
    have hne : u &&& v ≠ 0 := by simpa using r6
    obtain ⟨i, hi, hbit⟩ := (ne_zero_iff _).1 hne
    rw [hasBit_and, Bool.and_eq_true] at hbit
    have h1 : lb x (32 * j + i) = true := by rw [← ha.val, bit_split _ _ _ hi _ r4]; exact hbit.1
    refine ⟨32 * j + i, ?_, h1, by rw [← hb.val, bit_split _ _ _ hi _ r5]; exact hbit.2⟩
    by_contra hc
    rw [lb_ge _ _ (by omega)] at h1; simp at h1

/-- Two words of the arrays are equal exactly if the bits are. -/
theorem words_eq (j : Nat) (u v : W) (h1 : a.words[j]? = some u) (h2 : b.words[j]? = some v) :
    u = v ↔ ∀ k, 32 * j ≤ k → k < 32 * j + 32 → lb x k = lb y k := by
  constructor
  · rintro rfl k k1 k2
    have hk : k = 32 * j + (k - 32 * j) := by omega
    rw [← ha.val, ← hb.val, hk, bit_split _ _ _ (by omega) _ h1, bit_split _ _ _ (by omega) _ h2]
  · intro hall
    apply hasBit_ext .msb
    intro i hi
    have := hall (32 * j + i) (by omega) (by omega)
    rwa [← ha.val, ← hb.val, bit_split _ _ _ hi _ h1, bit_split _ _ _ hi _ h2] at this

theorem equals_ok : equals a b = some (decide (x = y)) := by
  have hp := pair_words ha hb
  unfold equals
  rw [ha.size, hb.size]
  by_cases hl : x.length ≠ y.length
  · rw [if_pos hl]
    congr 1; symm; rw [decide_eq_false_iff_not]
    exact fun e => hl (by rw [e])
  · rw [if_neg hl]
    have hl' : x.length = y.length := by simpa using hl
    rw [← hl', Nat.min_self] at hp
    simp only [Option.bind_eq_bind]
    rcases findPair_ok (fun x y => x != y) a.words b.words (wordCount x.length) 0 (by omega) (by omega) with ⟨r1, r2⟩ | ⟨j, u, v, r1, r2, r3, r4, r5, r6, r7⟩
    · rw [r1]
      show some true = _
      congr 1; symm; rw [decide_eq_true_eq]
      apply lb_ext hl'
      intro k
      by_cases hk : k < x.length
      · have hx := List.getElem?_eq_getElem (show k / 32 < a.words.length by unfold wordCount at hp; omega)
        have hy := List.getElem?_eq_getElem (show k / 32 < b.words.length by unfold wordCount at hp; omega)
        have hq := r2 (k / 32) _ _ (by omega) (by unfold wordCount; omega) hx hy
        exact (words_eq ha hb _ _ _ hx hy).1 (by simpa using hq) k (by omega) (by omega)
      · rw [lb_ge _ _ (by omega), lb_ge _ _ (by omega)]
    · rw [r1]
      show some false = _
      congr 1; symm; rw [decide_eq_false_iff_not]
      rintro rfl
      have : u = v := (words_eq ha hb _ _ _ r4 r5).2 (fun _ _ _ => rfl)
      simp [this] at r6

end

/-! ### Order -/

/-- `x` is before `y`: at the first difference `x` has a zero, or ends. -/
theorem lt_of (x y : List Bool) (p : Nat) (hp : p < y.length) (hpre : ∀ q, q < p → lb x q = lb y q)
    (h : p < x.length → lb x p = false ∧ lb y p = true) : x < y := by
  induction x generalizing y p with
  | nil =>
    cases y with
    | nil => simp at hp
    | cons b u => simp
  | cons a t ih =>
    cases y with
    | nil => simp at hp
    | cons b u =>
      rw [List.cons_lt_cons_iff]
      cases p with
      | zero =>
        left
        have := h (by simp)
        simp only [lb, List.getElem?_cons_zero, Option.getD_some] at this
        rw [this.1, this.2]; decide
      | succ p =>
        right
        have h0 := hpre 0 (by omega)
        simp only [lb, List.getElem?_cons_zero, Option.getD_some] at h0
        refine ⟨h0, ih u p (by simpa using hp) ?_ ?_⟩
        · intro q hq; exact hpre (q + 1) (by omega)
        · intro hq; exact h (by simpa using hq)

theorem first_of (P : Nat → Prop) [DecidablePred P] (n : Nat) (h : ∃ j, j < n ∧ P j) : ∃ j, j < n ∧ P j ∧ ∀ q, q < j → ¬ P q := by
  induction n with
  | zero => obtain ⟨j, hj, _⟩ := h; omega
  | succ n ih =>
    by_cases hc : ∃ j, j < n ∧ P j
    · obtain ⟨j, h1, h2, h3⟩ := ih hc
      exact ⟨j, by omega, h2, h3⟩
    · obtain ⟨j, hj, hp⟩ := h
      refine ⟨j, hj, hp, fun q hq hpq => hc ⟨q, by omega, hpq⟩⟩

/-- Words are ordered like their bits, the most significant one first. -/
theorem word_lt (u v : W) (h : u < v) : ∃ i, i < 32 ∧ hasBit .msb u i = false ∧ hasBit .msb v i = true ∧
    ∀ q, q < i → hasBit .msb u q = hasBit .msb v q := by
  have hne : ∃ i, i < 32 ∧ hasBit .msb u i ≠ hasBit .msb v i := by
    by_contra hc
    have : u = v := hasBit_ext .msb (fun i hi => by
      by_contra hd
      exact hc ⟨i, hi, hd⟩)
    subst this
    exact absurd h (by rw [BitVec.lt_def]; omega)
  obtain ⟨i, hi, hd, hpre⟩ := first_of (fun i => hasBit .msb u i ≠ hasBit .msb v i) 32 hne
  have hpre' : ∀ q, q < i → hasBit .msb u q = hasBit .msb v q := fun q hq => by
    by_contra hc; exact hpre q hq hc
  by_cases hu : hasBit .msb u i = true
  · exfalso
    have hv : hasBit .msb v i = false := by
      cases hx : hasBit .msb v i
      · rfl
      · rw [hu, hx] at hd; exact absurd rfl hd
    have : v.toNat < u.toNat := by
      apply Nat.lt_of_testBit (31 - i)
      · have : v.getMsbD i = v.getLsbD (31 - i) := by rw [BitVec.getMsbD_eq_getLsbD]; simp [hi]
        rw [hasBit, this] at hv
        exact hv
      · have : u.getMsbD i = u.getLsbD (31 - i) := by rw [BitVec.getMsbD_eq_getLsbD]; simp [hi]
        rw [hasBit, this] at hu
        exact hu
      · intro j hj
        by_cases hj2 : j < 32
        · have h1 := hpre' (31 - j) (by omega)
          have e : 31 - (31 - j) = j := by omega
          simp only [hasBit, BitVec.getMsbD_eq_getLsbD] at h1
          simp only [show 31 - j < 32 by omega, decide_true, Bool.true_and, show 32 - 1 - (31 - j) = j by omega] at h1
          exact h1.symm
        · have hu : u.toNat < 2 ^ j := Nat.lt_of_lt_of_le u.isLt (Nat.pow_le_pow_right (by omega) (by omega))
          have hv : v.toNat < 2 ^ j := Nat.lt_of_lt_of_le v.isLt (Nat.pow_le_pow_right (by omega) (by omega))
          rw [Nat.testBit_lt_two_pow hu, Nat.testBit_lt_two_pow hv]
    rw [BitVec.lt_def] at h
    omega
  · have hu' : hasBit .msb u i = false := by simpa using hu
    refine ⟨i, hi, hu', ?_, hpre'⟩
    cases hx : hasBit .msb v i
    · rw [hu', hx] at hd; exact absurd rfl hd
    · rfl

/-- The sign of a comparison: `x < y` is the lexicographic order of lists, a zero being before a one. -/
def SignOk (c : Int) (x y : List Bool) : Prop := (c < 0 ↔ x < y) ∧ (c = 0 ↔ x = y) ∧ (0 < c ↔ y < x)

theorem bool_lt_irrefl (x : List Bool) : ¬ x < x := by
  induction x with
  | nil => simp
  | cons a t ih => rw [List.cons_lt_cons_iff]; rintro (h | ⟨_, h⟩); cases a <;> simp at h; exact ih h

theorem bool_lt_asymm (x y : List Bool) (h : x < y) : ¬ y < x := by
  induction x generalizing y with
  | nil => simp
  | cons a t ih =>
    cases y with
    | nil => simp at h
    | cons b u =>
      rw [List.cons_lt_cons_iff] at h ⊢
      rintro (h2 | ⟨e, h2⟩) <;> rcases h with h | ⟨e', h⟩
      · revert h h2; clear ih; cases a <;> cases b <;> decide
      · subst e'; cases a <;> simp at h2
      · subst e; cases b <;> simp at h
      · exact ih u h h2

theorem sign_lt (x y : List Bool) (h : x < y) : SignOk (-1) x y :=
  ⟨by simp [h], by simp; rintro rfl; exact bool_lt_irrefl _ h, by simp; exact bool_lt_asymm x y h⟩

theorem sign_gt (x y : List Bool) (h : y < x) : SignOk 1 x y :=
  ⟨by simp; exact bool_lt_asymm y x h, by simp; rintro rfl; exact bool_lt_irrefl _ h, by simp [h]⟩

theorem sign_eq (x : List Bool) : SignOk 0 x x :=
  ⟨by simp, by simp, by simp⟩

/-- The first differing words order the arrays. -/
theorem words_lt {sa sb : Bool} {a b : Data} {x y : List Bool} (ha : Ok sa a x) (hb : Ok sb b y) (j : Nat) (u v : W)
    (h1 : a.words[j]? = some u) (h2 : b.words[j]? = some v) (hlt : u < v) (hpre : ∀ k, k < 32 * j → lb x k = lb y k) : x < y := by
  obtain ⟨i, hi, i1, i2, i3⟩ := word_lt u v hlt
  have hy : lb y (32 * j + i) = true := by rw [← hb.val, bit_split _ _ _ hi _ h2]; exact i2
  refine lt_of x y (32 * j + i) ?_ ?_ ?_
  · by_contra hc
    rw [lb_ge _ _ (by omega)] at hy; simp at hy
  · intro q hq
    by_cases hq2 : q < 32 * j
    · exact hpre q hq2
    · have e : q = 32 * j + (q - 32 * j) := by omega
      rw [← ha.val, ← hb.val, e, bit_split _ _ _ (by omega) _ h1, bit_split _ _ _ (by omega) _ h2]
      exact i3 _ (by omega)
  · intro _
    exact ⟨by rw [← ha.val, bit_split _ _ _ hi _ h1]; exact i1, hy⟩

theorem compare_ok {sa sb : Bool} {a b : Data} {x y : List Bool} (ha : Ok sa a x) (hb : Ok sb b y) :
    ∃ c, compare a b = some c ∧ SignOk c x y := by
  have hp := pair_words ha hb
  simp only [compare, ha.size, hb.size, Option.bind_eq_bind]
  obtain ⟨n, hn⟩ : ∃ n, n = wordCount (min x.length y.length) := ⟨_, rfl⟩
  rw [← hn] at hp ⊢
  have hpre : ∀ j, j ≤ n → (∀ q u v, 0 ≤ q → q < j → a.words[q]? = some u → b.words[q]? = some v → (u != v) = false) →
      ∀ k, k < 32 * j → lb x k = lb y k := by
    intro j hj hall k hk
    have hx := List.getElem?_eq_getElem (show k / 32 < a.words.length by omega)
    have hy := List.getElem?_eq_getElem (show k / 32 < b.words.length by omega)
    have := hall (k / 32) _ _ (by omega) (by omega) hx hy
    exact (words_eq ha hb _ _ _ hx hy).1 (by simpa using this) k (by omega) (by omega)
  rcases findPair_ok (fun x y => x != y) a.words b.words n 0 (by omega) (by omega) with ⟨r1, r2⟩ | ⟨j, u, v, r1, r2, r3, r4, r5, r6, r7⟩
  · rw [r1]
    have heq := hpre n (Nat.le_refl _) (fun q u v h1 h2 => r2 q u v h1 (by omega))
    have hm : min x.length y.length ≤ 32 * n := by unfold wordCount at hn; omega
    simp only [Option.bind_some]
    refine ⟨_, rfl, ?_⟩
    by_cases h1 : x.length < y.length
    · rw [if_pos h1]
      exact sign_lt _ _ (lt_of x y x.length h1 (fun q hq => heq q (by omega)) (by omega))
    · rw [if_neg h1]
      by_cases h2 : x.length > y.length
      · rw [if_pos h2]
        exact sign_gt _ _ (lt_of y x y.length h2 (fun q hq => (heq q (by omega)).symm) (by omega))
      · rw [if_neg h2]
        have : x = y := by
          apply lb_ext (by omega)
          intro k
          by_cases hk : k < x.length
          · exact heq k (by omega)
          · rw [lb_ge _ _ (by omega), lb_ge _ _ (by omega)]
        subst this
        exact sign_eq x
  · rw [r1]
    have heq := hpre j (by omega) r7
    simp only [Option.bind_some]
    refine ⟨_, rfl, ?_⟩
    have hne : u ≠ v := by simpa using r6
    unfold cmpWord
    by_cases hlt : u < v
    · have : ¬ v < u := by rw [BitVec.lt_def] at *; omega
      rw [if_neg this, if_pos hlt]
      exact sign_lt _ _ (words_lt ha hb j u v r4 r5 hlt heq)
    · have : v < u := by
        rw [BitVec.lt_def] at *
        have : u.toNat ≠ v.toNat := fun e => hne (BitVec.eq_of_toNat_eq e)
        omega
      rw [if_pos this, if_neg hlt]
      exact sign_gt _ _ (words_lt hb ha j v u r5 r4 this (fun k hk => (heq k hk).symm))

end Blend2D.BitArr
