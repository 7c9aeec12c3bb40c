import Verif.BitSet.Lemmas

/-!
# The segments made from an in place bit set
-/

namespace Blend2D.BitSet

open Blend2D.BitOps

/-- The bits of a list of segments. -/
def anyBit (segs : List Seg) (i : Nat) : Bool := segs.any fun g => g.bit i

theorem anyBit_nil (i : Nat) : anyBit [] i = false := rfl
theorem anyBit_cons (g : Seg) (l : List Seg) (i : Nat) : anyBit (g :: l) i = (g.bit i || anyBit l i) := rfl
theorem anyBit_append (l r : List Seg) (i : Nat) : anyBit (l ++ r) i = (anyBit l i || anyBit r i) := by
  simp [anyBit]

/-- The numbers from `a` up to `b`. -/
def inRange (a b i : Nat) : Bool := decide (a ≤ i) && decide (i < b)

theorem inRange_iff {a b i : Nat} : inRange a b i = true ↔ a ≤ i ∧ i < b := by simp [inRange]

theorem sub32_of_le {a b : Nat} (h : b ≤ a) (ha : a < 4294967296) : sub32 a b = a - b := by
  unfold sub32; omega

theorem wrap_of_lt {a : Nat} (h : a < 4294967296) : wrap a = a := Nat.mod_eq_of_lt h

theorem denseWithRange_spec {a size : Nat} (h : a % 128 + size ≤ 128) : ∃ d, denseWithRange a size = some (.dense (a / 128 * 4) d) ∧
    d.length = 4 ∧ ∀ i, (Seg.dense (a / 128 * 4) d).bit i = inRange a (a + size) i := by
  obtain ⟨d, e, hl, hb⟩ := (C41_range .msb zeros4 (a % 128) size (by simp only [zeros4, List.length_cons, List.length_nil]; omega)).1
  refine ⟨d, by simp [denseWithRange, e], hl, fun i => ?_⟩
  simp only [Seg.bit, hb, bitAt_zeros4]
  rw [Bool.eq_iff_iff, inRange_iff]
  simp only [Bool.and_eq_true, decide_eq_true_eq]
  have : (if a % 128 ≤ i - a / 128 * 4 * 32 ∧ i - a / 128 * 4 * 32 < a % 128 + size then true else false) = true ↔
    (a % 128 ≤ i - a / 128 * 4 * 32 ∧ i - a / 128 * 4 * 32 < a % 128 + size) := by split <;> simp [*]
  rw [this]
  omega

theorem rangeSeg_spec {s e : Nat} (hs : s % 4 = 0) (he : e % 4 = 0) (h : s + 4 ≤ e) (hb : e ≤ 134217728) :
    SegOK (rangeSeg s e) ∧ (rangeSeg s e).startWord = s ∧ (rangeSeg s e).endWord = e ∧
    ∀ i, (rangeSeg s e).bit i = inRange (s * 32) (e * 32) i := by
  unfold rangeSeg
  rw [sub32_of_le (by omega) (by omega)]
  split
  · refine ⟨⟨hs, by omega, rfl⟩, rfl, by simp only [Seg.endWord]; omega, fun i => ?_⟩
    simp only [Seg.bit, bitAt_ones4]
    rw [Bool.eq_iff_iff, inRange_iff]
    simp only [Bool.and_eq_true, decide_eq_true_eq]
    omega
  · exact ⟨⟨hs, he, by omega, hb⟩, rfl, rfl, fun i => rfl⟩

/-- `init_segments_from_range` writes at most three segments, that lie within the range's segments and hold exactly its bits. -/
structure FromRange (l : List Seg) (a b : Nat) : Prop where
  ok : SegsOK l
  len : l.length ≤ 3
  len3 : l.length = 3 → a % 128 ≠ 0 ∧ b % 128 ≠ 0 ∧ a / 128 + 2 ≤ (b - 1) / 128
  lo : ∀ g ∈ l, a / 128 * 4 ≤ g.startWord
  hi : ∀ g ∈ l, g.endWord ≤ (b - 1) / 128 * 4 + 4
  bits : ∀ i, anyBit l i = inRange a b i

theorem segsFromRange_spec {a b : Nat} (h : a < b) (hb : b < 4294967296) : ∃ l, segsFromRange a b = some l ∧ FromRange l a b := by
  unfold segsFromRange
  rw [sub32_of_le (by omega) hb, sub32_of_le (by omega) hb]
  -- a last part
  have last : ∀ (l : List Seg) (c : Nat), a ≤ c → c < b → c % 128 = 0 → b - c < 128 → l.length ≤ 2 →
      (l.length = 2 → a % 128 ≠ 0 ∧ a / 128 + 2 ≤ c / 128) → SegsOK l →
      (∀ g ∈ l, a / 128 * 4 ≤ g.startWord) → (∀ g ∈ l, g.endWord ≤ c / 32) → (∀ i, anyBit l i = inRange a c i) →
      ∃ g, denseWithRange c (b - c) = some g ∧ FromRange (l ++ [g]) a b := by
    intro l c h1 h2 h3 h4 h5 h5' h6 h7 h8 h9
    obtain ⟨d, e, hl, hbit⟩ := denseWithRange_spec (a := c) (size := b - c) (by omega)
    refine ⟨_, e, SegsOK.append.2 ⟨h6, SegsOK.cons.2 ⟨⟨by omega, by omega, hl⟩, SegsOK.nil, by simp⟩, ?_⟩, by simp; omega, ?_, ?_, ?_, ?_⟩
    · intro g hg g' hg'
      rw [List.mem_singleton] at hg'
      subst hg'
      have := h8 g hg
      simp only [Seg.startWord]
      omega
    · intro hl3
      have := h5' (by simpa using hl3)
      omega
    · intro g hg
      rcases List.mem_append.1 hg with hg | hg
      · exact h7 g hg
      · rw [List.mem_singleton] at hg; subst hg; simp only [Seg.startWord]; omega
    · intro g hg
      rcases List.mem_append.1 hg with hg | hg
      · have := h8 g hg; omega
      · rw [List.mem_singleton] at hg; subst hg; simp only [Seg.endWord]; omega
    · intro i
      rw [anyBit_append, h9, anyBit_cons, hbit, anyBit_nil, Bool.or_false, Bool.eq_iff_iff]
      simp only [Bool.or_eq_true, inRange_iff]
      omega
  -- the part after the first one, which starts at `c`
  have rest : ∀ (l : List Seg) (c : Nat), a ≤ c → c < b → c % 128 = 0 → l.length ≤ 1 →
      (l.length = 1 → a % 128 ≠ 0 ∧ a / 128 + 1 ≤ c / 128) → SegsOK l →
      (∀ g ∈ l, a / 128 * 4 ≤ g.startWord) → (∀ g ∈ l, g.endWord ≤ c / 32) → (∀ i, anyBit l i = inRange a c i) →
      ∃ r, (do
        let (l, remain, startBit) :=
          if b - c ≥ 128 then
            (l ++ [rangeSeg (c / 32) (wrap (c + (b - c) / 128 * 128) / 32)], (b - c) % 128, wrap (c + (b - c) / 128 * 128))
          else (l, b - c, c)
        if remain ≠ 0 then do
          let g ← denseWithRange startBit remain
          some (l ++ [g])
        else some l : Option (List Seg)) = some r ∧ FromRange r a b := by
    intro l c h1 h2 h3 h5 h5' h6 h7 h8 h9
    by_cases hr : b - c ≥ 128
    · rw [if_pos hr, wrap_of_lt (by omega)]
      simp only
      have e1 : (c + (b - c) / 128 * 128) / 32 = c / 32 + (b - c) / 128 * 4 := by omega
      rw [e1]
      obtain ⟨k1, k2, k3, k4⟩ := rangeSeg_spec (s := c / 32) (e := c / 32 + (b - c) / 128 * 4) (by omega) (by omega) (by omega) (by omega)
      generalize hg : rangeSeg (c / 32) (c / 32 + (b - c) / 128 * 4) = g at *
      have hok : SegsOK (l ++ [g]) := SegsOK.append.2 ⟨h6, SegsOK.cons.2 ⟨k1, SegsOK.nil, by simp⟩, by
        intro g1 hg1 g2 hg2
        rw [List.mem_singleton] at hg2
        have := h8 g1 hg1
        subst hg2
        omega⟩
      have hlo : ∀ g' ∈ l ++ [g], a / 128 * 4 ≤ g'.startWord := by
        intro g' hg'
        rcases List.mem_append.1 hg' with hg' | hg'
        · exact h7 g' hg'
        · rw [List.mem_singleton] at hg'; subst hg'; omega
      have hbits : ∀ i, anyBit (l ++ [g]) i = inRange a (c + (b - c) / 128 * 128) i := by
        intro i
        rw [anyBit_append, h9, anyBit_cons, k4, anyBit_nil, Bool.or_false, Bool.eq_iff_iff]
        simp only [Bool.or_eq_true, inRange_iff]
        omega
      have hhi : ∀ g' ∈ l ++ [g], g'.endWord ≤ (c + (b - c) / 128 * 128) / 32 := by
        intro g' hg'
        rcases List.mem_append.1 hg' with hg' | hg'
        · have := h8 g' hg'; omega
        · rw [List.mem_singleton] at hg'; subst hg'; omega
      by_cases hm : (b - c) % 128 = 0
      · rw [if_neg (by simpa using hm)]
        refine ⟨_, rfl, hok, by simp; omega, by simp; omega, hlo, ?_, ?_⟩
        · intro g' hg'
          have := hhi g' hg'
          omega
        · intro i
          rw [hbits, show c + (b - c) / 128 * 128 = b by omega]
      · rw [if_pos hm]
        obtain ⟨g', e, hf⟩ := last (l ++ [g]) (c + (b - c) / 128 * 128) (by omega) (by omega) (by omega) (by omega) (by simp; omega)
          (by intro hl2; have := h5' (by simpa using hl2); omega) hok hlo hhi hbits
        rw [show (b - c) % 128 = b - (c + (b - c) / 128 * 128) by omega, e]
        exact ⟨_, rfl, hf⟩
    · rw [if_neg hr]
      simp only
      rw [if_pos (by omega)]
      obtain ⟨g', e, hf⟩ := last l c h1 h2 h3 (by omega) (by omega) (by omega) h6 h7 h8 h9
      rw [e]
      exact ⟨_, rfl, hf⟩
  by_cases hfirst : a % 128 ≠ 0 ∨ a / 128 = (b - 1) / 128
  · rw [if_pos hfirst]
    obtain ⟨d, e, hl, hbit⟩ := denseWithRange_spec (a := a) (size := min (b - a) (128 - a % 128)) (by omega)
    simp only [e, Option.bind_eq_bind, Option.bind_some]
    have hg : SegOK (.dense (a / 128 * 4) d) := ⟨by omega, by omega, hl⟩
    by_cases hr : b - a - min (b - a) (128 - a % 128) = 0
    · rw [if_pos ⟨by simp, hr⟩]
      refine ⟨_, rfl, SegsOK.cons.2 ⟨hg, SegsOK.nil, by simp⟩, by simp, by simp, ?_, ?_, ?_⟩
      · intro g hg; rw [List.mem_singleton] at hg; subst hg; exact Nat.le_refl _
      · intro g hg; rw [List.mem_singleton] at hg; subst hg; simp only [Seg.endWord]; omega
      · intro i
        rw [anyBit_cons, hbit, anyBit_nil, Bool.or_false, show a + min (b - a) (128 - a % 128) = b by omega]
    · rw [if_neg (by simp [hr])]
      have hc : wrap (a + min (b - a) (128 - a % 128)) = a + (128 - a % 128) := by
        rw [wrap_of_lt (by omega)]; omega
      rw [hc, show b - a - min (b - a) (128 - a % 128) = b - (a + (128 - a % 128)) by omega]
      refine rest [.dense (a / 128 * 4) d] (a + (128 - a % 128)) (by omega) (by omega) (by omega) (by simp) (by intro _; omega)
        (SegsOK.cons.2 ⟨hg, SegsOK.nil, by simp⟩) ?_ ?_ ?_
      · intro g hg; rw [List.mem_singleton] at hg; subst hg; exact Nat.le_refl _
      · intro g hg; rw [List.mem_singleton] at hg; subst hg; simp only [Seg.endWord]; omega
      · intro i
        rw [anyBit_cons, hbit, anyBit_nil, Bool.or_false, show min (b - a) (128 - a % 128) = 128 - a % 128 by omega]
  · rw [if_neg hfirst]
    simp only [Option.bind_eq_bind, Option.bind_some]
    rw [if_neg (by simp)]
    refine rest [] a (by omega) h (by omega) (by simp) (by simp) SegsOK.nil (by simp) (by simp) ?_
    intro i
    rw [anyBit_nil]
    symm
    rw [Bool.eq_false_iff]
    intro hc
    rw [inRange_iff] at hc
    omega

/-- The segments of two in place words. -/
theorem segsFromWords_two (w : Nat) (x y : Word) : segsFromWords w [x, y] =
    (match w % 4 with
      | 0 => [.dense (w / 4 * 4) [x, y, 0, 0]]
      | 1 => [.dense (w / 4 * 4) [0, x, y, 0]]
      | 2 => [.dense (w / 4 * 4) [0, 0, x, y]]
      | _ => [.dense (w / 4 * 4) [0, 0, 0, x], .dense ((w + 1) / 4 * 4) [y, 0, 0, 0]]) := by
  have h4 : w % 4 < 4 := by omega
  rw [segsFromWords]
  simp only [List.length_cons, List.length_nil]
  have e1 : (w + 1) % 4 = if w % 4 = 3 then 0 else w % 4 + 1 := by split <;> omega
  match h : w % 4, h4 with
  | 0, _ => simp [segsFromWords]
  | 1, _ => simp [segsFromWords]
  | 2, _ => simp [segsFromWords]
  | 3, _ => rw [h] at e1; simp [segsFromWords, e1]

theorem segsFromWords_spec {w : Nat} {d : List Word} (hw : w ≤ 134217727) (hl : d.length = 2) :
    SegsOK (segsFromWords w d) ∧ (segsFromWords w d).length ≤ 3 ∧
    ∀ i, anyBit (segsFromWords w d) i = (decide (w * 32 ≤ i) && bitAt .msb d (i - w * 32)) := by
  match d, hl with
  | [x, y], _ =>
    rw [segsFromWords_two]
    have h4 : w % 4 < 4 := by omega
    match h : w % 4, h4 with
    | 0, _ =>
      refine ⟨SegsOK.cons.2 ⟨⟨by omega, by omega, rfl⟩, SegsOK.nil, by simp⟩, by simp, fun i => ?_⟩
      have e : w / 4 * 4 = w := by omega
      simp only [anyBit_cons, anyBit_nil, Seg.bit, bitAt_cons, bitAt_nil, hasBit_zero, e]
      grind
    | 1, _ =>
      refine ⟨SegsOK.cons.2 ⟨⟨by omega, by omega, rfl⟩, SegsOK.nil, by simp⟩, by simp, fun i => ?_⟩
      obtain ⟨k, rfl⟩ : ∃ k, w = k * 4 + 1 := ⟨w / 4, by omega⟩
      have e : (k * 4 + 1) / 4 * 4 = k * 4 := by omega
      simp only [anyBit_cons, anyBit_nil, Seg.bit, bitAt_cons, bitAt_nil, hasBit_zero, e]
      grind
    | 2, _ =>
      refine ⟨SegsOK.cons.2 ⟨⟨by omega, by omega, rfl⟩, SegsOK.nil, by simp⟩, by simp, fun i => ?_⟩
      obtain ⟨k, rfl⟩ : ∃ k, w = k * 4 + 2 := ⟨w / 4, by omega⟩
      have e : (k * 4 + 2) / 4 * 4 = k * 4 := by omega
      simp only [anyBit_cons, anyBit_nil, Seg.bit, bitAt_cons, bitAt_nil, hasBit_zero, e]
      grind
    | 3, _ =>
      obtain ⟨k, rfl⟩ : ∃ k, w = k * 4 + 3 := ⟨w / 4, by omega⟩
      have e : (k * 4 + 3) / 4 * 4 = k * 4 := by omega
      have e' : (k * 4 + 3 + 1) / 4 * 4 = k * 4 + 4 := by omega
      simp only [e, e']
      refine ⟨SegsOK.cons.2 ⟨⟨by omega, by omega, rfl⟩, SegsOK.cons.2 ⟨⟨by omega, by omega, rfl⟩, SegsOK.nil, by simp⟩, ?_⟩, by simp, fun i => ?_⟩
      · intro b hb; rw [List.mem_singleton] at hb; subst hb; simp only [Seg.endWord, Seg.startWord]; omega
      · simp only [anyBit_cons, anyBit_nil, Seg.bit, bitAt_cons, bitAt_nil, hasBit_zero]
        grind

end Blend2D.BitSet
