import Verif.BitSet.AddRange

/-!
# Adding a range to a bit set
-/

namespace Blend2D.BitSet

open Blend2D.BitOps

/-- The calls of `add_range` that do what they should: a set that is stored in two words must have been stored so that a shift by whole words
does not leave the object, and no run of a dynamic set may start behind the first and before the last number that is added. -/
def Addable (s : BS) (a b : Nat) : Prop :=
  match s with
  | .range _ _ => True
  | .dense w d => w ≤ ssoLastWord ∧ (a / 32 < w → (b - 1) / 32 - a / 32 < 2 → w - a / 32 + ssoWordCount d ≤ 2)
  | .dyn segs _ _ => ∀ x y, Seg.range x y ∈ segs → ¬ (a < x * 32 ∧ x * 32 < b)

theorem segsFromWords_norun (w : Nat) (x y : Word) (p q : Nat) : Seg.range p q ∉ segsFromWords w [x, y] := by
  rw [segsFromWords_two]
  split <;> simp

theorem addRange_spec {newCap : Nat → Nat} (hc : ∀ n, n ≤ newCap n) {s : BS} (h : OK s) (mut' : Bool) {a b : Nat} (hab : a < b)
    (hb : b < 4294967296) (hadd : Addable s a b) :
    ∃ s', addRange newCap s mut' a b = some (true, s') ∧ Holds s' (plusR (member s) a b) := by
  have hr := h.rep
  have hlast' : ∀ i, 4294967295 ≤ i → plusR (member s) a b i = false := by
    intro i hi
    rw [plusR, h.last i hi, Bool.or_false, Bool.eq_false_iff, ne_eq, inRange_iff]
    omega
  unfold addRange
  rw [if_neg (by omega), sub32_of_le (show 1 ≤ b by omega) hb]
  cases s with
  | range p q =>
    simp only
    have hq : q ≤ 4294967295 := by rcases hr with ⟨_, _⟩ | ⟨_, _⟩ <;> omega
    by_cases h1 : a ≤ q ∧ b ≥ p
    · rw [if_pos h1]
      refine ⟨_, rfl, holds_range (by omega) (by omega) ?_⟩
      intro i
      rw [plusR, member, Bool.eq_iff_iff, inRange_iff, Bool.or_eq_true, inRange_iff]
      simp only [Bool.and_eq_true, decide_eq_true_eq]
      rcases hr with ⟨_, _⟩ | ⟨_, _⟩ <;> omega
    rw [if_neg h1]
    by_cases h2 : p ≥ q
    · rw [if_pos h2]
      refine ⟨_, rfl, holds_range (by omega) (by omega) ?_⟩
      intro i
      rw [plusR, member, Bool.eq_iff_iff, inRange_iff, Bool.or_eq_true, inRange_iff]
      simp only [Bool.and_eq_true, decide_eq_true_eq]
      omega
    rw [if_neg h2, sub32_of_le (show 1 ≤ q by omega) (by omega)]
    by_cases h5 : sub32 (max ((b - 1) / 32) ((q - 1) / 32)) (min (min (a / 32) (p / 32)) ssoLastWord) < 2
    · rw [if_pos h5]
      rw [sub32_of_le (by omega) (by omega)] at h5
      have hF : min (min (a / 32) (p / 32)) ssoLastWord ≤ 134217726 := by simp only [ssoLastWord]; omega
      have hFa : min (min (a / 32) (p / 32)) ssoLastWord ≤ a / 32 := by omega
      have hFp : min (min (a / 32) (p / 32)) ssoLastWord ≤ p / 32 := by omega
      generalize min (min (a / 32) (p / 32)) ssoLastWord = F at *
      rw [sub32_of_le (show F * 32 ≤ p by omega) (by omega), sub32_of_le (show p ≤ q by omega) (by omega),
        sub32_of_le (show F * 32 ≤ a by omega) (by omega), sub32_of_le (show a ≤ b by omega) (by omega)]
      obtain ⟨d, e, hl, hd⟩ := (C41_range .msb ([0, 0] : List Word) (p - F * 32) (q - p)
        (by simp only [List.length_cons, List.length_nil]; omega)).1
      have hl2 : d.length = 2 := hl
      obtain ⟨d', e', hl', hd'⟩ := (C41_range .msb d (a - F * 32) (b - a) (by rw [hl2]; omega)).1
      rw [e]
      simp only [Option.bind_eq_bind, Option.bind_some, e']
      refine ⟨_, rfl, holds_dense (j := a) (by omega) (hl'.trans hl2) (by rw [plusR, inRange_iff.2 ⟨Nat.le_refl _, hab⟩]; rfl) ?_ hlast'⟩
      intro i
      rw [plusR, member, hd', hd, bitAt_zeros2, Bool.eq_iff_iff, Bool.or_eq_true, inRange_iff]
      simp only [Bool.and_eq_true, decide_eq_true_eq]
      by_cases hi : F * 32 ≤ i
      · by_cases hi1 : a ≤ i ∧ i < b
        · rw [if_pos (by omega)]; simp [hi1, hi]
        · rw [if_neg (by omega)]
          by_cases hi2 : p - F * 32 ≤ i - F * 32 ∧ i - F * 32 < p - F * 32 + (q - p)
          · rw [if_pos hi2]; simp only [hi1, hi, true_and, false_or, true_iff]; omega
          · rw [if_neg hi2]; simp only [hi1, Bool.false_eq_true, and_false, false_or, false_iff]; omega
      · constructor
        · intro h; exact absurd h.1 hi
        · intro h; omega
    · rw [if_neg h5]
      obtain ⟨segs, e, g1, g2, g3⟩ := makeSegs_spec h (by simp) (by simp [empty]; omega)
      rw [e]
      refine addRangeSegs_spec hc h g1 g3 (by simp) hab hb ?_
      intro x y hxy hx
      have hok : x % 4 = 0 ∧ y % 4 = 0 ∧ x + 8 ≤ y ∧ y ≤ 134217728 := g1.each _ hxy
      have hm := anyBit_of_mem hxy (i := x * 32) (by simp only [Seg.bit, Bool.and_eq_true, decide_eq_true_eq]; omega)
      rw [g3, member] at hm
      simp only [Bool.and_eq_true, decide_eq_true_eq] at hm
      omega
  | dense w d =>
    obtain ⟨r1, r2, r3⟩ := hr
    obtain ⟨hadd1, hadd2⟩ := hadd
    have hw6 : w ≤ 134217726 := hadd1
    match d, r2 with
    | [x, y], _ =>
    simp only
    have hbase : ∃ s', addRangeSegs newCap (.dense w [x, y]) false (segsFromWords w [x, y]) 0 a b = some (true, s') ∧
        Holds s' (plusR (member (.dense w [x, y])) a b) := by
      obtain ⟨segs, e, g1, g2, g3⟩ := makeSegs_spec h (by simp) (by simp [empty])
      injection e with e
      rw [e]
      exact addRangeSegs_spec hc h g1 g3 (by simp) hab hb (fun p q hpq => absurd (e ▸ hpq) (segsFromWords_norun w x y p q))
    have hlb : ssoLastBit w = w * 32 + 63 := by
      unfold ssoLastBit wrap sub32
      omega
    have hdyn : ∃ s', (Option.bind (addPart w [x, y] a b) fun tmp => (makeSegs (.dense w [x, y])).bind fun segs => (analyze w tmp).bind fun q =>
          match q with
          | .range p q =>
            if a ≤ q ∧ b ≥ p then some (true, .range (min a p) (max b q))
            else addRangeSegs newCap (.dense w [x, y]) false segs 0 a b
          | _ => addRangeSegs newCap (.dense w [x, y]) false segs 0 a b) = some (true, s') ∧
        Holds s' (plusR (member (.dense w [x, y])) a b) := by
      -- the words with the part of the range that is in them
      have htmp : ∃ x' y', addPart w [x, y] a b = some [x', y'] ∧ ∀ i, bitAt .msb [x', y'] i =
            (bitAt .msb [x, y] i || (decide (i < 64) && inRange a b (i + w * 32))) := by
        have hsplit : ∀ i, (decide (i < 64) && inRange a b (i + w * 32)) = true ↔ i < 64 ∧ a ≤ i + w * 32 ∧ i + w * 32 < b := by
          intro i
          rw [Bool.and_eq_true, inRange_iff, decide_eq_true_eq]
        unfold addPart
        rw [sub32_of_le (show 1 ≤ b by omega) hb]
        simp only
        by_cases hc : max (a / 32) w < min ((b - 1) / 32 + 1) (w + 2)
        · rw [if_pos hc, wrap_of_lt (show w * 32 < 4294967296 by omega), hlb, sub32_of_le (show w * 32 ≤ max (w * 32) a by omega) (by omega),
            sub32_of_le (show max (w * 32) a ≤ min (w * 32 + 63) (b - 1) by omega) (by omega), wrap_of_lt (by omega)]
          obtain ⟨d, e, hl, hd⟩ := (C41_range .msb [x, y] (max (w * 32) a - w * 32) (min (w * 32 + 63) (b - 1) - max (w * 32) a + 1)
            (by simp only [List.length_cons, List.length_nil]; omega)).1
          match d, hl with
          | [x', y'], _ =>
          refine ⟨x', y', e, fun i => ?_⟩
          rw [hd]
          by_cases hi : max (w * 32) a - w * 32 ≤ i ∧ i < max (w * 32) a - w * 32 + (min (w * 32 + 63) (b - 1) - max (w * 32) a + 1)
          · rw [if_pos hi, (hsplit i).2 (by omega), Bool.or_true]
          · have : (decide (i < 64) && inRange a b (i + w * 32)) = false := by
              rw [Bool.eq_false_iff, ne_eq, hsplit]; omega
            rw [if_neg hi, this, Bool.or_false]
        · rw [if_neg hc]
          refine ⟨x, y, rfl, fun i => ?_⟩
          have : (decide (i < 64) && inRange a b (i + w * 32)) = false := by
            rw [Bool.eq_false_iff, ne_eq, hsplit]; omega
          rw [this, Bool.or_false]
      obtain ⟨x', y', e1, e2⟩ := htmp
      rw [e1]
      simp only [Option.bind_some, makeSegs]
      obtain ⟨j, hj⟩ := r3
      have hf : ∀ i, (decide (w * 32 ≤ i) && bitAt .msb [x', y'] (i - w * 32)) =
          (member (.dense w [x, y]) i || (inRange (w * 32) (w * 32 + 64) i && inRange a b i)) := by
        intro i
        rw [e2, member]
        by_cases hi : w * 32 ≤ i
        · have e3 : inRange (w * 32) (w * 32 + 64) i = decide (i - w * 32 < 64) := by
            rw [Bool.eq_iff_iff, inRange_iff, decide_eq_true_eq]; omega
          rw [decide_eq_true hi, Bool.true_and, Bool.true_and, e3, show i - w * 32 + w * 32 = i by omega]
        · have e3 : inRange (w * 32) (w * 32 + 64) i = false := by rw [Bool.eq_false_iff, ne_eq, inRange_iff]; omega
          rw [decide_eq_false hi, e3]; rfl
      obtain ⟨q, eq, hq⟩ := analyze_spec (w := w) (ne_zero_of_bit ⟨j, by rw [e2, hj]; rfl⟩)
        (fun i => member (.dense w [x, y]) i || (inRange (w * 32) (w * 32 + 64) i && inRange a b i)) (fun i => (hf i).symm)
        (fun i hi => by
          have := hlast' i hi
          rw [plusR, Bool.or_eq_false_iff] at this
          rw [this.1, this.2, Bool.and_false]
          rfl)
      rw [eq]
      simp only [Option.bind_some]
      cases q with
      | empty => exact absurd hq (by simp [AnalysisOK])
      | dense p q => exact hbase
      | range p q =>
        obtain ⟨k1, k2, k3, k4, k5⟩ := hq
        have hmem : ∀ i, (member (.dense w [x, y]) i || (inRange (w * 32) (w * 32 + 64) i && inRange a b i)) = inRange p q i := by
          intro i
          rw [Bool.eq_iff_iff, inRange_iff]
          exact ⟨k4 i, fun hi => k5 i hi.1 hi.2⟩
        simp only
        by_cases ht : a ≤ q ∧ b ≥ p
        · rw [if_pos ht]
          have hq2 : q ≤ 4294967295 := by
            have h1 := hmem (q - 1)
            rw [inRange_iff.2 (show p ≤ q - 1 ∧ q - 1 < q by omega), Bool.or_eq_true] at h1
            rcases h1 with h1 | h1
            · have := member_lt h h1; omega
            · rw [Bool.and_eq_true, inRange_iff, inRange_iff] at h1; omega
          refine ⟨_, rfl, holds_range (by omega) (by omega) ?_⟩
          intro i
          have h1 := hmem i
          rw [plusR]
          have h2 : inRange (min a p) (max b q) i = (inRange a b i || inRange p q i) := by
            rw [Bool.eq_iff_iff, inRange_iff, Bool.or_eq_true, inRange_iff, inRange_iff]
            omega
          rw [h2, ← h1]
          cases inRange a b i <;> cases member (.dense w [x, y]) i <;> simp
        · rw [if_neg ht]
          exact hbase
    by_cases h1 : (b - 1) / 32 < w + 2
    · rw [if_pos h1]
      by_cases h2 : a / 32 ≥ w
      · rw [if_pos h2, sub32_of_le (by omega) (by omega), sub32_of_le (by omega) hb]
        obtain ⟨d', e', hl', hd'⟩ := (C41_range .msb [x, y] (a - w * 32) (b - a) (by simp only [List.length_cons, List.length_nil]; omega)).1
        rw [e']
        refine ⟨_, rfl, holds_dense (j := a) r1 hl' (by rw [plusR, inRange_iff.2 ⟨Nat.le_refl _, hab⟩]; rfl) ?_ hlast'⟩
        intro i
        rw [plusR, member, hd']
        by_cases hi : w * 32 ≤ i
        · by_cases hi1 : a ≤ i ∧ i < b
          · rw [if_pos (by omega), decide_eq_true hi, inRange_iff.2 hi1]; rfl
          · have : inRange a b i = false := by rw [Bool.eq_false_iff, ne_eq, inRange_iff]; exact hi1
            rw [if_neg (by omega), this, Bool.false_or]
        · have : inRange a b i = false := by rw [Bool.eq_false_iff, ne_eq, inRange_iff]; omega
          rw [decide_eq_false hi, this]; rfl
      · rw [if_neg h2]
        by_cases h3 : sub32 ((b - 1) / 32) (a / 32) < 2 ∧ (b - 1) / 32 < w + ssoWordCount [x, y]
        · rw [if_pos h3]
          rw [sub32_of_le (by omega) (by omega)] at h3
          have hroom := hadd2 (by omega) h3.1
          rw [if_pos hroom]
          have hone : y = 0 ∧ x ≠ 0 ∧ w = a / 32 + 1 ∧ ssoWordCount [x, y] = 1 := by
            unfold ssoWordCount at hroom ⊢
            simp only at hroom ⊢
            have hnz := ne_zero_of_bit r3
            by_cases hy : y = 0
            · by_cases hx : x = 0
              · simp [hx, hy] at hnz
              · simp only [hy, hx, ne_eq, not_false_eq_true, not_true_eq_false, if_true, if_false] at hroom ⊢
                exact ⟨trivial, trivial, by omega, trivial⟩
            · simp only [hy, ne_eq, not_false_eq_true, if_true] at hroom
              omega
          obtain ⟨rfl, hx, hw1, hcount⟩ := hone
          rw [hcount]
          have hoff : w - a / 32 = 1 := by omega
          rw [hoff]
          simp only [Nat.reduceAdd, List.replicate, List.take_succ_cons, List.take_zero, List.cons_append, List.nil_append,
            Nat.reduceSub]
          rw [sub32_of_le (show a / 32 * 32 ≤ a by omega) (by omega), sub32_of_le (by omega) hb]
          obtain ⟨d', e', hl', hd'⟩ := (C41_range .msb [0, x] (a - a / 32 * 32) (b - a) (by simp only [List.length_cons, List.length_nil]; omega)).1
          rw [e']
          refine ⟨_, rfl, holds_dense (j := a) (by omega) hl' (by rw [plusR, inRange_iff.2 ⟨Nat.le_refl _, hab⟩]; rfl) ?_ hlast'⟩
          intro i
          rw [plusR, member, hd']
          simp only [bitAt_cons, bitAt_nil, hasBit_zero]
          by_cases hi : a / 32 * 32 ≤ i
          · rw [decide_eq_true hi, Bool.true_and]
            by_cases hi2 : a ≤ i ∧ i < b
            · rw [if_pos (by omega), inRange_iff.2 hi2]; rfl
            · have : inRange a b i = false := by rw [Bool.eq_false_iff, ne_eq, inRange_iff]; exact hi2
              rw [if_neg (by omega), this, Bool.false_or]
              by_cases hi1 : i - a / 32 * 32 < 32
              · rw [if_pos hi1, decide_eq_false (show ¬ w * 32 ≤ i by omega), Bool.false_and]
              · rw [if_neg hi1, decide_eq_true (show w * 32 ≤ i by omega), Bool.true_and,
                  show i - a / 32 * 32 - 32 = i - w * 32 by omega]
                split <;> simp
          · have : inRange a b i = false := by rw [Bool.eq_false_iff, ne_eq, inRange_iff]; omega
            rw [decide_eq_false hi, this, decide_eq_false (show ¬ w * 32 ≤ i by omega)]
            rfl
        · rw [if_neg h3]
          exact hdyn
    · rw [if_neg h1]
      exact hdyn
  | dyn segs cap card =>
    obtain ⟨r1, r2, _⟩ := hr
    exact addRangeSegs_spec hc h r1 (fun i => rfl) (fun _ => r2) hab hb hadd

end Blend2D.BitSet
