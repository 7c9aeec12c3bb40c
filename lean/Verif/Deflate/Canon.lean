import Verif.Deflate.Sort

/-!
# The canonical code, its intervals, and the codespace
-/

namespace Blend2D.Deflate

open Spec

/-- The weight of a list of symbols. -/
def wsum (R : List (Nat × Nat)) : Nat := (R.map (fun r => wt r.2)).sum

theorem wsum_append (A B : List (Nat × Nat)) : wsum (A ++ B) = wsum A + wsum B := by simp [wsum]

theorem placed_append (A B : List (Nat × Nat)) (P : Nat) : placed P (A ++ B) = placed P A ++ placed (P + wsum A) B := by
  induction A generalizing P with
  | nil => simp [placed, wsum]
  | cons a A ih =>
    obtain ⟨s, l⟩ := a
    simp only [List.cons_append, placed, ih]
    congr 2
    simp only [wsum, List.map_cons, List.sum_cons]
    congr 1
    omega

theorem lay_of_sorted {R : List (Nat × Nat)} {P : Nat} (hs : R.Pairwise (fun a b => a.2 ≤ b.2)) (h15 : ∀ r ∈ R, 1 ≤ r.2 ∧ r.2 ≤ 15)
    (hd : ∀ r ∈ R, wt r.2 ∣ P) (hsum : P + wsum R = 2 ^ 15) : Lay P R := by
  induction R generalizing P with
  | nil => simpa [wsum, Lay] using hsum
  | cons a R ih =>
    obtain ⟨s, l⟩ := a
    rw [List.pairwise_cons] at hs
    obtain ⟨h1, h2⟩ := h15 (s, l) List.mem_cons_self
    have hdl := hd (s, l) List.mem_cons_self
    refine ⟨h1, h2, hdl, hs.1, ih hs.2 (fun r hr => h15 r (List.mem_cons_of_mem _ hr)) ?_ ?_⟩
    · intro r hr
      exact (Nat.dvd_add_right (hd r (List.mem_cons_of_mem _ hr))).2 (wt_dvd (hs.1 r hr))
    · simp only [wsum, List.map_cons, List.sum_cons] at hsum ⊢
      omega

theorem wsum_const (L : List Nat) (l : Nat) : wsum (L.map (fun s => (s, l))) = L.length * wt l := by
  simp only [wsum, List.map_map]
  exact sum_const L _ (wt l) (fun _ _ => rfl)

/-- The part of the order with lengths from 1 to `m`. -/
def canonTo (lens : List Nat) (m : Nat) : List (Nat × Nat) :=
  (List.range' 1 m).flatMap (fun l => (symsOf lens l).map (fun s => (s, l)))

theorem canonTo_succ (lens : List Nat) (m : Nat) :
    canonTo lens (m + 1) = canonTo lens m ++ (symsOf lens (m + 1)).map (fun s => (s, m + 1)) := by
  simp only [canonTo, List.range'_concat, List.flatMap_append, List.flatMap_cons, List.flatMap_nil, List.append_nil, Nat.one_mul]
  rw [Nat.add_comm 1 m]

theorem canonTo_wsum (lens : List Nat) (m : Nat) (hm : m < 15) : wsum (canonTo lens m) = nextCode lens (m + 1) * wt (m + 1) := by
  induction m with
  | zero => simp [canonTo, wsum, nextCode, blCount]
  | succ m ih =>
    rw [canonTo_succ, wsum_append, ih (by omega), wsum_const, symsOf_length,
      show nextCode lens (m + 1 + 1) = 2 * (nextCode lens (m + 1) + blCount lens (m + 1)) from rfl]
    have : wt (m + 1) = 2 * wt (m + 1 + 1) := by rw [wt, wt, ← Nat.pow_succ']; congr 1; omega
    rw [show blCount lens (m + 1) = lens.count (m + 1) by simp [blCount], this, ← Nat.add_mul, Nat.mul_left_comm, Nat.mul_assoc]

theorem mem_canonTo {lens : List Nat} {m : Nat} {r : Nat × Nat} :
    r ∈ canonTo lens m ↔ 1 ≤ r.2 ∧ r.2 ≤ m ∧ r.1 < lens.length ∧ lens.getD r.1 0 = r.2 := by
  obtain ⟨s, l⟩ := r
  simp only [canonTo, List.mem_flatMap, List.mem_range'_1, List.mem_map, symsOf, List.mem_filter, List.mem_range, beq_iff_eq,
    Prod.mk.injEq]
  constructor
  · rintro ⟨k, hk, s', ⟨h1, h2⟩, rfl, rfl⟩
    exact ⟨hk.1, by omega, h1, h2⟩
  · rintro ⟨h1, h2, h3, h4⟩
    exact ⟨l, ⟨h1, by omega⟩, s, ⟨h3, h4⟩, rfl, rfl⟩

theorem canonTo_sorted (lens : List Nat) (m : Nat) : (canonTo lens m).Pairwise (fun a b => a.2 ≤ b.2) := by
  induction m with
  | zero => simp [canonTo]
  | succ m ih =>
    rw [canonTo_succ, List.pairwise_append]
    refine ⟨ih, ?_, ?_⟩
    · rw [List.pairwise_map]
      exact List.pairwise_of_forall (fun _ _ => Nat.le_refl _)
    · intro a ha b hb
      rw [mem_canonTo] at ha
      simp only [List.mem_map] at hb
      obtain ⟨s, _, rfl⟩ := hb
      simp only
      omega

theorem canon_eq (lens : List Nat) : canon lens = canonTo lens 15 := rfl

theorem symsOf_split {lens : List Nat} {s : Nat} (hs : s < lens.length) :
    ∃ B, symsOf lens (lens.getD s 0) = symsOf (lens.take s) (lens.getD s 0) ++ s :: B := by
  generalize hl : lens.getD s 0 = l
  have e : List.range lens.length = List.range s ++ s :: (List.range' (s + 1) (lens.length - s - 1)) := by
    rw [List.range_eq_range', List.range_eq_range', ← List.range'_succ]
    have := List.range'_append (s := 0) (m := s) (n := lens.length - s - 1 + 1) (step := 1)
    rw [show 0 + 1 * s = s by omega] at this
    rw [this]
    congr 1
    omega
  refine ⟨(List.range' (s + 1) (lens.length - s - 1)).filter (fun s => lens.getD s 0 == l), ?_⟩
  unfold symsOf
  rw [e, List.filter_append, List.filter_cons, if_pos (by simpa using hl)]
  congr 1
  rw [show (lens.take s).length = s by simp; omega]
  apply List.filter_congr
  intro t ht
  rw [List.mem_range] at ht
  rw [List.getD_eq_getElem?_getD, List.getD_eq_getElem?_getD, List.getElem?_take_of_lt ht]

/-- A symbol of the canonical code and its place. -/
theorem canon_split {lens : List Nat} {s : Nat} (hs : s < lens.length) (h1 : 1 ≤ lens.getD s 0) (h15 : lens.getD s 0 ≤ 15) :
    ∃ A B, canon lens = A ++ (s, lens.getD s 0) :: B ∧ wsum A = codeOf lens s * wt (lens.getD s 0) := by
  obtain ⟨B, hB⟩ := symsOf_split hs
  unfold codeOf
  generalize lens.getD s 0 = l at *
  have hpre : ∀ m, l ≤ m → ∃ C, canonTo lens m = canonTo lens l ++ C := by
    intro m hm
    induction hm with
    | refl => exact ⟨[], by simp⟩
    | step _ ih => obtain ⟨C, hC⟩ := ih; exact ⟨_, by rw [canonTo_succ, hC, List.append_assoc]⟩
  obtain ⟨C, hC⟩ := hpre 15 h15
  obtain ⟨k, rfl⟩ : ∃ k, l = k + 1 := ⟨l - 1, by omega⟩
  refine ⟨canonTo lens k ++ (symsOf (lens.take s) (k + 1)).map (fun s => (s, k + 1)), B.map (fun s => (s, k + 1)) ++ C, ?_, ?_⟩
  · rw [canon_eq, hC, canonTo_succ, hB]
    simp
  · rw [wsum_append, canonTo_wsum _ _ (by omega), wsum_const, symsOf_length, Nat.add_mul]

/-! The codespace. -/

theorem codespace_eq {lens : List Nat} : ∀ (n m used : Nat), m + n ≤ 15 → used * wt m = wsum (canonTo lens m) →
    codespace (lenCount lens) n (m + 1) used * wt (m + n) = wsum (canonTo lens (m + n))
  | 0, m, used, _, h2 => h2
  | n + 1, m, used, h1, h2 => by
    rw [codespace, show m + (n + 1) = (m + 1) + n by omega]
    apply codespace_eq n (m + 1) _ (by omega)
    rw [canonTo_succ, wsum_append, ← h2, wsum_const, symsOf_length, Nat.add_mul]
    have : wt m = 2 * wt (m + 1) := by rw [wt, wt, ← Nat.pow_succ']; congr 1; omega
    rw [this, Nat.mul_assoc]
    rfl

theorem canonTo_all {lens : List Nat} {m k : Nat} (hm : ∀ l ∈ lens, l ≤ m) (hmk : m ≤ k) : canonTo lens k = canonTo lens m := by
  induction hmk with
  | refl => rfl
  | step h ih =>
    rename_i k
    rw [canonTo_succ, ih]
    have : symsOf lens (k + 1) = [] := by
      rw [← List.length_eq_zero_iff, symsOf_length, List.count_eq_zero]
      intro hc
      have := hm _ hc
      have h : m ≤ k := h
      omega
    rw [this]
    simp

theorem kraft_eq {lens : List Nat} (h15 : ∀ l ∈ lens, l ≤ 15) : wsum (canon lens) = kraft lens := by
  have key : ∀ m, wsum (canonTo lens m) = (lens.map (fun l => if l ≠ 0 ∧ l ≤ m then wt l else 0)).sum := by
    intro m
    induction m with
    | zero =>
      simp only [canonTo, List.range'_zero, List.flatMap_nil]
      have : ∀ L : List Nat, (L.map (fun l => if l ≠ 0 ∧ l ≤ 0 then wt l else 0)).sum = 0 := by
        intro L
        induction L with
        | nil => rfl
        | cons a L ih => simp only [List.map_cons, List.sum_cons, ih]; rw [if_neg (by omega)]
      rw [this]
      rfl
    | succ m ih =>
      rw [canonTo_succ, wsum_append, ih, wsum_const, symsOf_length]
      clear ih h15
      induction lens with
      | nil => simp
      | cons a L ih =>
        simp only [List.map_cons, List.sum_cons, List.count_cons, ← ih, Nat.add_mul]
        by_cases h1 : a = 0
        · subst h1
          have : (0 == m + 1) = false := by simp
          simp [this]
        · by_cases h2 : a ≤ m
          · have : (a == m + 1) = false := by simp; omega
            simp [h1, h2, show a ≤ m + 1 by omega, this]; omega
          · by_cases h3 : a = m + 1
            · subst h3
              simp [show ¬ m + 1 ≤ m by omega]; omega
            · have : (a == m + 1) = false := by simp [h3]
              simp [h2, show ¬ a ≤ m + 1 by omega, this]
  rw [canon_eq, key 15, kraft]
  congr 1
  apply List.map_congr_left
  intro l hl
  have := h15 l hl
  by_cases h : l = 0
  · simp [h]
  · simp [h, this]

theorem lenMask_testBit {lens : List Nat} {l : Nat} (h : l ∈ lens) : (lenMask lens).testBit l = true := by
  have key : ∀ (L : List Nat) (m : Nat), (m.testBit l = true ∨ l ∈ L) → (L.foldl (fun m l => m ||| 2 ^ l) m).testBit l = true := by
    intro L
    induction L with
    | nil => intro m h; simpa using h
    | cons a L ih =>
      intro m h
      apply ih
      rcases h with h | h
      · left; simp [Nat.testBit_or, h]
      · rcases List.mem_cons.1 h with rfl | h
        · left; simp [Nat.testBit_or, Nat.testBit_two_pow_self]
        · exact Or.inr h
  exact key lens 0 (Or.inr h)

theorem usedMaxLen_ge {lens : List Nat} {maxCw : Nat} (h : ∀ l ∈ lens, l ≤ maxCw) : ∀ l ∈ lens, l ≤ usedMaxLen lens maxCw := by
  intro l hl
  have h1 := lenMask_testBit hl
  have h2 : (lenMask lens ||| 1).testBit l = true := by simp [Nat.testBit_or, h1]
  have h3 := Nat.ge_two_pow_of_testBit h2
  have h4 : l ≤ Nat.log2 (lenMask lens ||| 1) := (Nat.le_log2 (by have := Nat.two_pow_pos l; omega)).2 h3
  have := h l hl
  simp only [usedMaxLen, topBit]
  omega

theorem usedMaxLen_pos {lens : List Nat} {maxCw : Nat} (h : 1 ≤ maxCw) : 1 ≤ usedMaxLen lens maxCw := by
  simp only [usedMaxLen]; omega

theorem usedMaxLen_le {lens : List Nat} {maxCw : Nat} : usedMaxLen lens maxCw ≤ maxCw := by
  simp only [usedMaxLen]; omega

/-- The codespace test decides whether a code is complete. -/
theorem codespace_kraft {lens : List Nat} {maxCw : Nat} (h15 : maxCw ≤ 15) (hl : ∀ l ∈ lens, l ≤ maxCw) :
    codespace (lenCount lens) (usedMaxLen lens maxCw) 1 0 * wt (usedMaxLen lens maxCw) = kraft lens := by
  have hm := usedMaxLen_ge hl
  have hle := usedMaxLen_le (lens := lens) (maxCw := maxCw)
  have := codespace_eq (lens := lens) (usedMaxLen lens maxCw) 0 0 (by omega) (by simp [canonTo, wsum])
  rw [Nat.zero_add, Nat.zero_add] at this
  rw [this, ← canonTo_all hm (show usedMaxLen lens maxCw ≤ 15 by omega), ← canon_eq, kraft_eq]
  intro l h
  have := hl l h
  omega

theorem startsWith_iff {N l c : Nat} : StartsWith N l c ↔ N % 2 ^ l = rev l c := by
  constructor
  · intro h
    apply Nat.eq_of_testBit_eq
    intro i
    rw [Nat.testBit_mod_two_pow, rev_testBit]
    by_cases hi : i < l
    · simp [hi, h i hi]
    · simp [hi]
  · intro h i hi
    have := congrArg (fun x => x.testBit i) h
    simp only [Nat.testBit_mod_two_pow, rev_testBit, hi, decide_true, Bool.true_and] at this
    exact this

end Blend2D.Deflate
