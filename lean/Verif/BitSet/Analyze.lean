import Verif.BitSet.Make

/-!
# `precise_data_analysis` of in place words
-/

namespace Blend2D.BitSet

open Blend2D.BitOps

/-- First and last bit of a word that is not zero. -/
theorem word_ends {x : Word} (h : x ≠ 0) : countZerosFromStart .msb x + countZerosFromEnd .msb x < 32 ∧
    BitOps.hasBit .msb x (countZerosFromStart .msb x) = true ∧ BitOps.hasBit .msb x (31 - countZerosFromEnd .msb x) = true ∧
    (∀ k, k < countZerosFromStart .msb x → BitOps.hasBit .msb x k = false) ∧
    (∀ k, 31 - countZerosFromEnd .msb x < k → BitOps.hasBit .msb x k = false) := by
  obtain ⟨h1, h2, h3⟩ := countZeros_spec .msb h
  obtain ⟨j, hj, hb⟩ := exists_bit .msb h
  obtain ⟨h4, h5, h6⟩ := zerosFromEnd_spec .msb x 32 (Nat.le_refl _) ⟨j, hj, hb⟩
  have h7 : countZerosFromEnd .msb x = zerosFromEnd .msb x 32 := rfl
  rw [h7]
  refine ⟨?_, h2, by simpa using h5, h3, ?_⟩
  · apply Nat.lt_of_not_le
    intro hc
    have := h3 (32 - 1 - zerosFromEnd .msb x 32) (by omega)
    rw [h5] at this
    cases this
  · intro k hk
    by_cases hk32 : k < 32
    · exact h6 k (by omega) hk32
    · exact hasBit_ge .msb x (by omega)

theorem eq_mask_iff {x m : Word} {lo hi : Nat} (hm : ∀ k, k < 32 → BitOps.hasBit .msb m k = (decide (lo ≤ k) && decide (k < hi)))
    (hx : ∀ k, BitOps.hasBit .msb x k = true → lo ≤ k ∧ k < hi) (hh : hi ≤ 32) :
    x = m ↔ ∀ k, lo ≤ k → k < hi → BitOps.hasBit .msb x k = true := by
  constructor
  · intro h k h1 h2
    rw [h, hm k (by omega), decide_eq_true h1, decide_eq_true h2]
    rfl
  · intro h
    apply hasBit_ext .msb
    intro k hk
    rw [hm k hk]
    by_cases hc : lo ≤ k ∧ k < hi
    · rw [h k hc.1 hc.2, decide_eq_true hc.1, decide_eq_true hc.2]; rfl
    · have : BitOps.hasBit .msb x k = false := by
        rw [Bool.eq_false_iff]; exact fun hb => hc (hx k hb)
      rw [this]
      symm
      rw [Bool.eq_false_iff]
      simpa using hc

/-- What the analysis says about a set of bits. -/
def AnalysisOK (f : Nat → Bool) : Analysis → Prop
  | .empty => False
  | .dense a b => a < b ∧ f a = true ∧ f (b - 1) = true ∧ (∀ i, f i = true → a ≤ i ∧ i < b) ∧ ¬ (∀ i, a ≤ i → i < b → f i = true)
  | .range a b => a < b ∧ f a = true ∧ f (b - 1) = true ∧ (∀ i, f i = true → a ≤ i ∧ i < b) ∧ (∀ i, a ≤ i → i < b → f i = true)

theorem AnalysisOK.of {f : Nat → Bool} {a b : Nat} (c : Prop) [Decidable c] (h1 : a < b) (h2 : f a = true) (h3 : f (b - 1) = true)
    (h4 : ∀ i, f i = true → a ≤ i ∧ i < b) (h5 : c ↔ ∀ i, a ≤ i → i < b → f i = true) :
    AnalysisOK f (if c then .range a b else .dense a b) := by
  split
  · rename_i hc; exact ⟨h1, h2, h3, h4, h5.1 hc⟩
  · rename_i hc; exact ⟨h1, h2, h3, h4, fun h => hc (h5.2 h)⟩

/-- Two words at `w`. -/
theorem analyze_spec {w : Nat} {x y : Word} (hxy : x ≠ 0 ∨ y ≠ 0) (f : Nat → Bool)
    (hf : ∀ i, f i = (decide (w * 32 ≤ i) && bitAt .msb [x, y] (i - w * 32))) (hlast : ∀ i, 4294967295 ≤ i → f i = false) :
    ∃ r, analyze w [x, y] = some r ∧ AnalysisOK f r := by
  have fx : ∀ k, k < 32 → f (w * 32 + k) = BitOps.hasBit .msb x k := by
    intro k hk
    rw [hf, decide_eq_true (by omega), Bool.true_and, Nat.add_sub_cancel_left, bitAt_cons, if_pos hk]
  have fy : ∀ k, k < 32 → f (w * 32 + 32 + k) = BitOps.hasBit .msb y k := by
    intro k hk
    rw [hf, decide_eq_true (by omega), Bool.true_and, show w * 32 + 32 + k - w * 32 = k + 32 by omega, bitAt_cons, if_neg (by omega),
      bitAt_cons, if_pos (by omega), Nat.add_sub_cancel]
  have ff : ∀ i, f i = true → w * 32 ≤ i ∧ i < w * 32 + 64 := by
    intro i hi
    rw [hf, Bool.and_eq_true, decide_eq_true_eq] at hi
    refine ⟨hi.1, Nat.lt_of_not_le fun hc => ?_⟩
    rw [bitAt_len2 rfl (by omega)] at hi
    cases hi.2
  have hlt : ∀ i, f i = true → i < 4294967295 := fun i hi => Nat.lt_of_not_le fun hc => by rw [hlast i hc] at hi; cases hi
  -- one word
  have one : ∀ (z : Word) (q : Nat), z ≠ 0 → (∀ k, k < 32 → f (q + k) = BitOps.hasBit .msb z k) → (∀ i, f i = true → q ≤ i ∧ i < q + 32) →
      ∃ r, (do
        let m ← startMask .msb 32 (32 - (countZerosFromStart .msb z + countZerosFromEnd .msb z))
        let m ← shiftToEnd .msb m (countZerosFromStart .msb z)
        some (if z = m then .range (wrap (q + countZerosFromStart .msb z)) (wrap (q + 32 - countZerosFromEnd .msb z))
          else .dense (wrap (q + countZerosFromStart .msb z)) (wrap (q + 32 - countZerosFromEnd .msb z))) : Option Analysis) = some r ∧
        AnalysisOK f r := by
    intro z q hz hfz hq
    obtain ⟨h1, h2, h3, h4, h5⟩ := word_ends hz
    generalize countZerosFromStart .msb z = a at *
    generalize countZerosFromEnd .msb z = b at *
    obtain ⟨m1, e1, hm1⟩ := hasBit_startMask (N := 32) .msb (c := 32 - (a + b)) (by omega) (by omega)
    obtain ⟨m2, e2, hm2⟩ := hasBit_shiftToEnd (N := 32) .msb m1 (k := a) (by omega)
    rw [e1]
    simp only [Option.bind_eq_bind, Option.bind_some]
    rw [e2]
    simp only [Option.bind_some]
    have hin : ∀ k, BitOps.hasBit .msb z k = true → a ≤ k ∧ k < 32 - b := by
      intro k hk
      constructor
      · exact Nat.le_of_not_lt fun hc => by rw [h4 k hc] at hk; cases hk
      · exact Nat.lt_of_not_le fun hc => by rw [h5 k (by omega)] at hk; cases hk
    have hiff := eq_mask_iff (x := z) (m := m2) (lo := a) (hi := 32 - b) (by
      intro k hk
      rw [hm2 k hk]
      by_cases hak : a ≤ k
      · rw [hm1 _ (by omega), decide_eq_true hak]
        congr 1
        simp only [decide_eq_decide]
        omega
      · rw [decide_eq_false hak]; rfl) hin (by omega)
    have hA : f (q + a) = true := by rw [hfz a (by omega)]; exact h2
    have hB : f (q + 32 - b - 1) = true := by
      rw [show q + 32 - b - 1 = q + (31 - b) by omega, hfz _ (by omega)]; exact h3
    have := hlt _ hA
    have := hlt _ hB
    rw [wrap_of_lt (by omega), wrap_of_lt (by omega)]
    refine ⟨_, rfl, AnalysisOK.of _ (by omega) hA hB ?_ ?_⟩
    · intro i hi
      have h7 := hq i hi
      have h8 := hin (i - q) (by rw [← hfz (i - q) (by omega), show q + (i - q) = i by omega]; exact hi)
      omega
    · rw [hiff]
      constructor
      · intro h i hi1 hi2
        have := h (i - q) (by omega) (by omega)
        rw [← hfz (i - q) (by omega), show q + (i - q) = i by omega] at this
        exact this
      · intro h k hk1 hk2
        rw [← hfz k (by omega)]
        exact h _ (by omega) (by omega)
  by_cases hx : x = 0
  · have hy : y ≠ 0 := by rcases hxy with h | h; exact absurd hx h; exact h
    have := one y (w * 32 + 32) hy fy (by
      intro i hi
      obtain ⟨g1, g2⟩ := ff i hi
      refine ⟨Nat.le_of_not_lt fun hc => ?_, by omega⟩
      rw [show i = w * 32 + (i - w * 32) by omega, fx _ (by omega), hx, hasBit_zero] at hi
      cases hi)
    have hy' : ¬ y = 0#32 := hy
    simpa [analyze, List.findIdx?_cons, hx, hy', Nat.add_mul] using this
  · by_cases hy : y = 0
    · have := one x (w * 32) hx fx (by
        intro i hi
        obtain ⟨g1, g2⟩ := ff i hi
        refine ⟨g1, Nat.lt_of_not_le fun hc => ?_⟩
        rw [show i = w * 32 + 32 + (i - w * 32 - 32) by omega, fy _ (by omega), hy, hasBit_zero] at hi
        cases hi)
      have hx' : ¬ x = 0#32 := hx
      simpa [analyze, List.findIdx?_cons, hx', hy] using this
    · obtain ⟨x1, x2, x3, x4, x5⟩ := word_ends hx
      obtain ⟨y1, y2, y3, y4, y5⟩ := word_ends hy
      obtain ⟨m1, e1, hm1⟩ := hasBit_startMask (N := 32) .lsb (c := 32 - countZerosFromStart .msb x) (by omega) (by omega)
      obtain ⟨m2, e2, hm2⟩ := hasBit_startMask (N := 32) .msb (c := 32 - countZerosFromEnd .msb y) (by omega) (by omega)
      have hm1' : ∀ k, k < 32 → BitOps.hasBit .msb m1 k = (decide (countZerosFromStart .msb x ≤ k) && decide (k < 32)) := by
        intro k hk
        have : BitOps.hasBit .msb m1 k = BitOps.hasBit .lsb m1 (31 - k) := by
          simp [BitOps.hasBit, BitVec.getMsbD, hk]
        rw [this, hm1 _ (by omega), decide_eq_true hk, Bool.and_true, decide_eq_decide]
        omega
      have heval : analyze w [x, y] = some (if x = m1 ∧ y = m2 then
            .range (wrap (w * 32 + countZerosFromStart .msb x)) (wrap (w * 32 + 32 + 32 - countZerosFromEnd .msb y))
          else .dense (wrap (w * 32 + countZerosFromStart .msb x)) (wrap (w * 32 + 32 + 32 - countZerosFromEnd .msb y))) := by
        simp only [analyze, List.findIdx?_cons, List.reverse_cons, List.reverse_nil, List.nil_append, List.cons_append, hx, hy, ne_eq,
          not_false_eq_true, decide_true, if_true, List.length_cons, List.length_nil]
        simp only [Nat.zero_add, Nat.reduceAdd, Nat.reduceSub, Nat.sub_zero, List.getElem?_cons_zero, List.getElem?_cons_succ, Option.bind_eq_bind,
          Option.bind_some, Nat.zero_ne_one, if_false, e1, e2, Nat.add_zero, List.take_succ_cons, List.take_zero, List.drop_succ_cons,
          List.drop_nil, List.all_nil, if_true, Nat.add_mul, Nat.one_mul]
        by_cases hc : x = m1 ∧ y = m2
        · rw [if_pos hc, if_neg (by simpa using hc)]
        · rw [if_neg hc, if_pos (by
            by_cases hxm : x = m1
            · exact .inr fun hym => hc ⟨hxm, hym⟩
            · exact .inl hxm)]
      have hinx : ∀ k, BitOps.hasBit .msb x k = true → countZerosFromStart .msb x ≤ k ∧ k < 32 := by
        intro k hk
        constructor
        · exact Nat.le_of_not_lt fun hc => by rw [x4 k hc] at hk; cases hk
        · exact Nat.lt_of_not_le fun hc => by rw [hasBit_ge .msb x hc] at hk; cases hk
      have hiny : ∀ k, BitOps.hasBit .msb y k = true → 0 ≤ k ∧ k < 32 - countZerosFromEnd .msb y := by
        intro k hk
        exact ⟨Nat.zero_le _, Nat.lt_of_not_le fun hc => by rw [y5 k (by omega)] at hk; cases hk⟩
      have hxi := eq_mask_iff hm1' hinx (Nat.le_refl _)
      have hyi := eq_mask_iff (x := y) (m := m2) (lo := 0) (hi := 32 - countZerosFromEnd .msb y)
        (by intro k hk; rw [hm2 k hk, decide_eq_true (Nat.zero_le _), Bool.true_and]) hiny (by omega)
      rw [heval]
      generalize countZerosFromStart .msb x = a at *
      generalize countZerosFromEnd .msb y = b at *
      have hA : f (w * 32 + a) = true := by rw [fx a (by omega)]; exact x2
      have hB : f (w * 32 + 32 + 32 - b - 1) = true := by
        rw [show w * 32 + 32 + 32 - b - 1 = w * 32 + 32 + (31 - b) by omega, fy _ (by omega)]; exact y3
      have := hlt _ hA
      have := hlt _ hB
      rw [wrap_of_lt (by omega), wrap_of_lt (by omega)]
      refine ⟨_, rfl, AnalysisOK.of _ (by omega) hA hB ?_ ?_⟩
      · intro i hi
        obtain ⟨g1, g2⟩ := ff i hi
        by_cases hc : i < w * 32 + 32
        · have := hinx (i - w * 32) (by rw [← fx _ (by omega), show w * 32 + (i - w * 32) = i by omega]; exact hi)
          omega
        · have := hiny (i - w * 32 - 32) (by rw [← fy _ (by omega), show w * 32 + 32 + (i - w * 32 - 32) = i by omega]; exact hi)
          omega
      · rw [hxi, hyi]
        constructor
        · intro ⟨k1, k2⟩ i hi1 hi2
          by_cases hc : i < w * 32 + 32
          · have := k1 (i - w * 32) (by omega) (by omega)
            rw [← fx _ (by omega), show w * 32 + (i - w * 32) = i by omega] at this
            exact this
          · have := k2 (i - w * 32 - 32) (by omega) (by omega)
            rw [← fy _ (by omega), show w * 32 + 32 + (i - w * 32 - 32) = i by omega] at this
            exact this
        · intro h
          constructor
          · intro k hk1 hk2
            rw [← fx k hk2]
            exact h _ (by omega) (by omega)
          · intro k hk1 hk2
            rw [← fy k (by omega)]
            exact h _ (by omega) (by omega)

end Blend2D.BitSet
