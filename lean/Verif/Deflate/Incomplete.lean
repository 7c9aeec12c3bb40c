import Verif.Deflate.Lookup

/-!
# Incomplete and oversubscribed codes
-/

namespace Blend2D.Deflate
open Spec

theorem kraft_filter (lens : List Nat) : kraft lens = ((lens.filter (· ≠ 0)).map (fun l => 2 ^ (15 - l))).sum := by
  induction lens with
  | nil => rfl
  | cons l lens ih =>
    simp only [kraft, List.map_cons, List.sum_cons] at ih ⊢
    rw [ih, List.filter_cons]
    by_cases h : l = 0
    · simp [h]
    · simp [h]

theorem kraft_zero {lens : List Nat} : kraft lens = 0 ↔ Unused lens := by
  induction lens with
  | nil => simp [kraft, Unused]
  | cons l lens ih =>
    simp only [kraft, Unused, List.map_cons, List.sum_cons, List.forall_mem_cons] at ih ⊢
    rw [Nat.add_eq_zero_iff, ih]
    have := Nat.two_pow_pos (15 - l)
    by_cases h : l = 0 <;> simp [h]

theorem single_iff {lens : List Nat} : Single lens ↔ kraft lens = 2 ^ 14 ∧ lens.count 1 = 1 := by
  have hc : lens.count 1 = (lens.filter (· ≠ 0)).count 1 := by
    rw [List.count_filter (by simp)]
  rw [kraft_filter, hc, Single]
  generalize lens.filter (· ≠ 0) = F
  constructor
  · rintro rfl; simp
  · rintro ⟨h1, h2⟩
    have hm : 1 ∈ F := List.count_pos_iff.1 (by omega)
    have hp := List.perm_cons_erase hm
    have hs := (hp.map (fun l => 2 ^ (15 - l))).sum_nat
    rw [h1, List.map_cons, List.sum_cons] at hs
    cases hE : F.erase 1 with
    | nil => rw [hE] at hp; exact List.perm_singleton.1 hp
    | cons a E =>
      rw [hE, List.map_cons, List.sum_cons] at hs
      have := Nat.two_pow_pos (15 - a)
      omega

theorem single_split {lens : List Nat} (h : Single lens) :
    ∃ s, s < lens.length ∧ lens.getD s 0 = 1 ∧ codeOf lens s = 0 ∧ ∀ t, lens.getD t 0 ≠ 0 → t = s := by
  rw [Single, List.filter_eq_cons_iff] at h
  obtain ⟨A, B, rfl, h1, h2, h3⟩ := h
  rw [List.filter_eq_nil_iff] at h3
  have hA : ∀ a ∈ A, a = 0 := fun a ha => by simpa using h1 a ha
  have hB : ∀ a ∈ B, a = 0 := fun a ha => by simpa using h3 a ha
  have hd : (A ++ 1 :: B).getD A.length 0 = 1 := by
    rw [List.getD_eq_getElem?_getD, List.getElem?_append_right (Nat.le_refl _)]; simp
  refine ⟨A.length, by simp, hd, ?_, ?_⟩
  · rw [codeOf, hd]
    simp only [nextCode, blCount, if_pos, List.take_left']
    rw [List.count_eq_zero.2 (fun h => by have := hA 1 h; omega)]
  · intro t ht
    rw [List.getD_eq_getElem?_getD] at ht
    by_contra hne
    apply ht
    rcases Nat.lt_or_gt_of_ne hne with hlt | hlt
    · rw [List.getElem?_append_left hlt, List.getElem?_eq_getElem hlt]
      exact hA _ (List.getElem_mem _)
    · rw [List.getElem?_append_right (by omega), show t - A.length = (t - A.length - 1) + 1 by omega, List.getElem?_cons_succ]
      cases hb : B[t - A.length - 1]? with
      | none => rfl
      | some x => exact hB x (List.mem_of_getElem? hb)

section
variable {cap maxTb maxCw : Nat} {table : Tab} {garbage : Nat → Nat} {lens : List Nat} {results : List Entry} {type : TableType}

/-- The tests of the code and the share that is in use. -/
structure Setup (cap maxTb maxCw : Nat) (lens : List Nat) (results : List Entry) : Prop where
  h288 : lens.length ≤ 288
  hcw : maxCw ≤ 15
  hcw1 : 1 ≤ maxCw
  hlens : ∀ l ∈ lens, l ≤ maxCw
  hres : lens.length ≤ results.length
  hmt : 1 ≤ maxTb
  hcap : 2 ^ tableBitsOf maxTb (usedMaxLen lens maxCw) ≤ cap

theorem Setup.tests (h : Setup cap maxTb maxCw lens results) :
    lens.any (fun x => decide (15 < x)) = false ∧
    (∀ garbage, sortedSyms lens (usedMaxLen lens maxCw) garbage = some ((canon lens).map Prod.fst)) ∧
    (codespace (lenCount lens) (usedMaxLen lens maxCw) 1 0 > 2 ^ usedMaxLen lens maxCw ↔ kraft lens > 2 ^ 15) ∧
    (codespace (lenCount lens) (usedMaxLen lens maxCw) 1 0 < 2 ^ usedMaxLen lens maxCw ↔ kraft lens < 2 ^ 15) ∧
    (codespace (lenCount lens) (usedMaxLen lens maxCw) 1 0 = 0 ↔ Unused lens) ∧
    (codespace (lenCount lens) (usedMaxLen lens maxCw) 1 0 = 2 ^ (usedMaxLen lens maxCw - 1) ↔ kraft lens = 2 ^ 14) := by
  have h15 : ∀ l ∈ lens, l ≤ 15 := fun l hl => Nat.le_trans (h.hlens l hl) h.hcw
  have hks := codespace_kraft h.hcw h.hlens
  have hml := usedMaxLen_le (lens := lens) (maxCw := maxCw)
  have hml1 := usedMaxLen_pos (lens := lens) h.hcw1
  have hcw := h.hcw
  refine ⟨?_, fun g => sortedSyms_eq g h.h288 (usedMaxLen_ge h.hlens) h15, ?_⟩
  · rw [List.any_eq_false]
    intro l hl
    have := h15 l hl
    simp; omega
  · generalize usedMaxLen lens maxCw = M at *
    generalize codespace (lenCount lens) M 1 0 = used at *
    have hw := wt_pos M
    have hp : 2 ^ 15 = 2 ^ M * wt M := pow_split (by omega)
    have hp2 : 2 ^ 14 = 2 ^ (M - 1) * wt M := by
      rw [wt, ← Nat.pow_add]; congr 1; omega
    rw [← kraft_zero, ← hks, hp, hp2]
    refine ⟨?_, ?_, ?_, ?_⟩
    · constructor
      · intro h; exact Nat.mul_lt_mul_of_pos_right h hw
      · intro h; exact Nat.lt_of_mul_lt_mul_right h
    · constructor
      · intro h; exact Nat.mul_lt_mul_of_pos_right h hw
      · intro h; exact Nat.lt_of_mul_lt_mul_right h
    · constructor
      · intro h; simp [h]
      · intro h
        rcases Nat.mul_eq_zero.1 h with h | h <;> omega
    · constructor
      · intro h; rw [h]
      · intro h; exact Nat.eq_of_mul_eq_mul_right hw h

theorem Setup.over (h : Setup cap maxTb maxCw lens results) (hk : 2 ^ 15 < kraft lens) :
    buildDecodeTable cap table garbage lens results maxTb maxCw type = some none := by
  obtain ⟨t1, t2, t3, t4, t5, t6⟩ := h.tests
  simp only [buildDecodeTable, t1, t2, if_pos (t3.2 hk)]
  simp

/-- The table is even. -/
theorem Setup.even (h : Setup cap maxTb maxCw lens results) :
    0 + 2 * (2 ^ tableBitsOf maxTb (usedMaxLen lens maxCw) / 2) ≤ cap ∧
      2 ^ tableBitsOf maxTb (usedMaxLen lens maxCw) = 2 * (2 ^ tableBitsOf maxTb (usedMaxLen lens maxCw) / 2) := by
  have hc := h.hcap
  have : ∃ k, tableBitsOf maxTb (usedMaxLen lens maxCw) = k + 1 := ⟨tableBitsOf maxTb (usedMaxLen lens maxCw) - 1, by
    simp only [tableBitsOf]; omega⟩
  obtain ⟨k, hk⟩ := this
  rw [hk, Nat.pow_succ] at hc ⊢
  omega

theorem Setup.unused (h : Setup cap maxTb maxCw lens results) (hu : Unused lens) :
    (type ≠ .offset → buildDecodeTable cap table garbage lens results maxTb maxCw type = some none) ∧
    (type = .offset → ∃ T, buildDecodeTable cap table garbage lens results maxTb maxCw type =
        some (some (⟨tableBitsOf maxTb (usedMaxLen lens maxCw), usedMaxLen lens maxCw, literalMask lens⟩, T)) ∧
      ∀ i < 2 ^ tableBitsOf maxTb (usedMaxLen lens maxCw), T i = invalidEntry) := by
  obtain ⟨t1, t2, t3, t4, t5, t6⟩ := h.tests
  have hk := kraft_zero.2 hu
  have n3 := mt t3.1 (by omega)
  have n4 := t4.2 (by omega)
  have n5 := t5.2 hu
  constructor
  · intro ht
    simp only [buildDecodeTable, t1, t2, if_neg n3, if_pos n4, if_pos n5, if_pos ht]
    simp
  · intro ht
    obtain ⟨e1, e2⟩ := h.even
    obtain ⟨T, f1, f2, _⟩ := fillPairs_spec (e0 := invalidEntry) (e1 := invalidEntry) _ 0 table e1
    refine ⟨T, ?_, ?_⟩
    · simp only [buildDecodeTable, t1, t2, if_neg n3, if_pos n4, if_pos n5, if_neg (show ¬ type ≠ .offset by simp [ht]), f1]
      simp
    · intro i hi
      obtain ⟨g1, g2⟩ := f2 (i / 2) (by omega)
      rcases Nat.mod_two_eq_zero_or_one i with hp | hp
      · rw [show 0 + 2 * (i / 2) = i by omega] at g1; exact g1
      · rw [show 0 + 2 * (i / 2) + 1 = i by omega] at g2; exact g2

theorem Setup.single (h : Setup cap maxTb maxCw lens results) (hu : Single lens) (ht : type ≠ .precode) :
    ∃ T, buildDecodeTable cap table garbage lens results maxTb maxCw type =
        some (some (⟨tableBitsOf maxTb (usedMaxLen lens maxCw), usedMaxLen lens maxCw, literalMask lens⟩, T)) ∧
      ∀ s e, lens.getD s 0 ≠ 0 → results[s]? = some e → ∀ i < 2 ^ tableBitsOf maxTb (usedMaxLen lens maxCw),
        T i = if i % 2 = 0 then makeTop e 1 else invalidEntry := by
  obtain ⟨t1, t2, t3, t4, t5, t6⟩ := h.tests
  obtain ⟨hk, hcnt⟩ := single_iff.1 hu
  have n3 := mt t3.1 (by omega)
  have n4 := t4.2 (by omega)
  have n5 := mt (fun x => kraft_zero.2 (t5.1 x)) (by omega)
  have n6 := t6.2 hk
  obtain ⟨s, s1, s2, s3, s4⟩ := single_split hu
  have h15 : ∀ l ∈ lens, l ≤ 15 := fun l hl => Nat.le_trans (h.hlens l hl) h.hcw
  obtain ⟨a, R, hS⟩ : ∃ a R, canon lens = a :: R := by
    cases hS : canon lens with
    | nil => have := kraft_eq h15; rw [hS, hk] at this; simp [wsum] at this
    | cons a R => exact ⟨a, R, rfl⟩
  have hm := mem_canonTo.1 (show a ∈ canonTo lens 15 by rw [← canon_eq, hS]; exact List.mem_cons_self)
  have ha : a.1 = s := s4 _ (by omega)
  obtain ⟨e, he⟩ : ∃ e, results[s]? = some e := by
    have := h.hres
    exact ⟨_, List.getElem?_eq_getElem (show s < results.length by omega)⟩
  have hsy : ((canon lens).map Prod.fst)[0]?.bind (results[·]?) = some e := by
    rw [hS]; simp [ha, he]
  obtain ⟨e1, e2⟩ := h.even
  obtain ⟨T, f1, f2, _⟩ := fillPairs_spec (e0 := makeTop e 1) (e1 := invalidEntry) _ 0 table e1
  refine ⟨T, ?_, ?_⟩
  · simp only [buildDecodeTable, t1, t2, if_neg n3, if_pos n4, if_neg n5, if_neg ht, hsy, f1]
    rw [if_neg (show ¬ (codespace (lenCount lens) (usedMaxLen lens maxCw) 1 0 ≠ 2 ^ (usedMaxLen lens maxCw - 1) ∨ lenCount lens 1 ≠ 1) by
      rw [n6, lenCount, hcnt]; simp)]
    simp
  · intro s' e' hs' he' i hi
    rw [s4 s' hs', he] at he'
    obtain rfl := Option.some.inj he'
    obtain ⟨g1, g2⟩ := f2 (i / 2) (by omega)
    rcases Nat.mod_two_eq_zero_or_one i with hp | hp
    · rw [show 0 + 2 * (i / 2) = i by omega] at g1; simp [hp, g1]
    · rw [show 0 + 2 * (i / 2) + 1 = i by omega] at g2; simp [hp, g2]

theorem Setup.reject (h : Setup cap maxTb maxCw lens results) (hk : kraft lens < 2 ^ 15) (hu : ¬ Unused lens)
    (hs : type = .precode ∨ ¬ Single lens) :
    buildDecodeTable cap table garbage lens results maxTb maxCw type = some none := by
  obtain ⟨t1, t2, t3, t4, t5, t6⟩ := h.tests
  have n3 := mt t3.1 (by omega)
  have n4 := t4.2 hk
  have n5 := mt t5.1 hu
  by_cases hp : type = .precode
  · simp only [buildDecodeTable, t1, t2, if_neg n3, if_pos n4, if_neg n5, if_pos hp]
    simp
  · have hs := hs.resolve_left hp
    rw [single_iff] at hs
    have : codespace (lenCount lens) (usedMaxLen lens maxCw) 1 0 ≠ 2 ^ (usedMaxLen lens maxCw - 1) ∨ lenCount lens 1 ≠ 1 := by
      by_contra hc
      apply hs
      constructor
      · exact t6.1 (by by_contra hx; exact hc (Or.inl hx))
      · by_contra hx; exact hc (Or.inr hx)
    simp only [buildDecodeTable, t1, t2, if_neg n3, if_pos n4, if_neg n5, if_neg hp, if_pos this]
    simp
end

end Blend2D.Deflate
