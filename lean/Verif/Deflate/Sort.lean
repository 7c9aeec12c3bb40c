import Verif.Deflate.Build
import Verif.Deflate.CodeSpec
import Mathlib.Data.List.Induction

/-!
# The order of symbols
-/

namespace Blend2D.Deflate

/-- The symbols with codewords of length `l`. -/
def symsOf (lens : List Nat) (l : Nat) : List Nat := (List.range lens.length).filter (fun s => lens.getD s 0 == l)

theorem symsOf_snoc (pre : List Nat) (x l : Nat) :
    symsOf (pre ++ [x]) l = symsOf pre l ++ (if x = l then [pre.length] else []) := by
  unfold symsOf
  rw [List.length_append, List.length_singleton, List.range_succ, List.filter_append]
  congr 1
  · apply List.filter_congr
    intro s hs
    rw [List.mem_range] at hs
    rw [List.getD_eq_getElem?_getD, List.getD_eq_getElem?_getD, List.getElem?_append_left hs]
  · by_cases h : x = l <;> simp [h]

theorem symsOf_length (lens : List Nat) (l : Nat) : (symsOf lens l).length = lens.count l := by
  induction lens using List.reverseRecOn with
  | nil => rfl
  | append_singleton pre x ih =>
    rw [symsOf_snoc, List.length_append, ih, List.count_append]
    by_cases h : x = l <;> simp [h]

theorem offsetOf_mono (cnt : Nat → Nat) {a b : Nat} (h : a ≤ b) : offsetOf cnt a ≤ offsetOf cnt b := by
  induction h with
  | refl => exact Nat.le_refl _
  | step _ ih => simp only [offsetOf]; omega

theorem offsetOf_countP (lens : List Nat) (m : Nat) : offsetOf (lenCount lens) m = lens.countP (fun l => decide (l < m)) := by
  induction m with
  | zero => simp [offsetOf]
  | succ m ih =>
    simp only [offsetOf, ih, lenCount]
    clear ih
    induction lens with
    | nil => rfl
    | cons a lens ih =>
      simp only [List.countP_cons, List.count_cons] at ih ⊢
      rw [← ih]
      by_cases h1 : a < m
      · simp [h1, show a < m + 1 by omega, show a ≠ m by omega]; omega
      · by_cases h2 : a = m
        · simp [h2]; omega
        · simp [h1, h2, show ¬ a < m + 1 by omega]

theorem offset_disjoint (cnt : Nat → Nat) {l l' j j' : Nat} (h : l ≠ l') (h1 : j < cnt l) (h2 : j' < cnt l') :
    offsetOf cnt l + j ≠ offsetOf cnt l' + j' := by
  rcases Nat.lt_or_gt_of_ne h with h | h
  · have := offsetOf_mono cnt (show l + 1 ≤ l' by omega)
    simp only [offsetOf] at this
    omega
  · have := offsetOf_mono cnt (show l' + 1 ≤ l by omega)
    simp only [offsetOf] at this
    omega

/-- The sorting loop puts the symbols of each length in order in the place of that length. -/
theorem sortLoop_spec {lens : List Nat} {maxLen : Nat} (h288 : lens.length ≤ 288) (hmax : ∀ l ∈ lens, l ≤ maxLen) :
    ∀ (post pre : List Nat) (off data : Nat → Nat), lens = pre ++ post →
    (∀ l, off l = offsetOf (lenCount lens) l + pre.count l) →
    (∀ l j, j < pre.count l → some (data (offsetOf (lenCount lens) l + j)) = (symsOf pre l)[j]?) →
    ∃ off' data', sortLoop 288 maxLen post pre.length off data = some (off', data') ∧
      (∀ l, off' l = offsetOf (lenCount lens) l + lens.count l) ∧
      (∀ l j, j < lens.count l → some (data' (offsetOf (lenCount lens) l + j)) = (symsOf lens l)[j]?)
  | [], pre, off, data, he, h1, h2 => by
    have : lens = pre := by simpa using he
    subst this
    exact ⟨off, data, rfl, h1, h2⟩
  | x :: post, pre, off, data, he, h1, h2 => by
    have hx : x ∈ lens := by rw [he]; simp
    have hcnt : pre.count x < lens.count x := by rw [he]; simp
    have hlt : off x < 288 := by
      have : offsetOf (lenCount lens) (x + 1) ≤ lens.length := by rw [offsetOf_countP]; exact List.countP_le_length
      simp only [offsetOf, lenCount] at this
      have := h1 x
      omega
    simp only [sortLoop, if_pos (show x ≤ maxLen ∧ off x < 288 from ⟨hmax x hx, hlt⟩)]
    have := sortLoop_spec h288 hmax post (pre ++ [x]) (Function.update off x (off x + 1)) (Function.update data (off x) pre.length)
      (by rw [he]; simp)
      (by
        intro l
        by_cases hl : l = x
        · subst hl; rw [Function.update_self, h1]; simp; omega
        · rw [Function.update_of_ne hl, h1]; simp [Ne.symm hl])
      (by
        intro l j hj
        rw [symsOf_snoc]
        by_cases hl : l = x
        · subst hl
          rw [if_pos rfl]
          have hj' : j < pre.count l + 1 := by simpa [List.count_append] using hj
          by_cases hjl : j = pre.count l
          · rw [hjl, ← h1, Function.update_self, ← symsOf_length, List.getElem?_append_right (Nat.le_refl _)]
            simp
          · rw [Function.update_of_ne (by rw [h1]; omega), h2 l j (by omega),
              List.getElem?_append_left (by rw [symsOf_length]; omega)]
        · have hxl : ¬ x = l := fun h => hl h.symm
          rw [if_neg hxl, List.append_nil]
          have hj' : j < pre.count l := by simpa [List.count_append, List.count_singleton, hxl] using hj
          rw [Function.update_of_ne, h2 l j hj']
          rw [h1]
          apply offset_disjoint _ hl _ hcnt
          have : pre.count l ≤ lens.count l := by rw [he, List.count_append]; omega
          simp only [lenCount]
          omega)
    simpa using this

/-- The symbols with codewords and their lengths, in order. -/
def canon (lens : List Nat) : List (Nat × Nat) := (List.range' 1 15).flatMap (fun l => (symsOf lens l).map (fun s => (s, l)))

theorem range_data {lens : List Nat} {data : Nat → Nat}
    (h : ∀ l j, j < lens.count l → some (data (offsetOf (lenCount lens) l + j)) = (symsOf lens l)[j]?) (m : Nat) :
    (List.range (offsetOf (lenCount lens) (m + 1) - offsetOf (lenCount lens) 1)).map (fun i => data (offsetOf (lenCount lens) 1 + i)) =
      (List.range' 1 m).flatMap (symsOf lens) := by
  induction m with
  | zero => simp
  | succ m ih =>
    have hm := offsetOf_mono (lenCount lens) (show 1 ≤ m + 1 by omega)
    have e : offsetOf (lenCount lens) (m + 1 + 1) - offsetOf (lenCount lens) 1 =
        (offsetOf (lenCount lens) (m + 1) - offsetOf (lenCount lens) 1) + lens.count (m + 1) := by
      show offsetOf (lenCount lens) (m + 1) + lenCount lens (m + 1) - _ = _
      simp only [lenCount] at *
      omega
    rw [e, List.range_add, List.map_append, ih, List.range'_concat, List.flatMap_append]
    congr 1
    simp only [List.map_map, List.flatMap_cons, List.flatMap_nil, List.append_nil, Nat.one_mul]
    rw [Nat.add_comm 1 m]
    apply List.ext_getElem?
    intro j
    rw [List.getElem?_map]
    by_cases hj : j < lens.count (m + 1)
    · rw [List.getElem?_range hj, ← h _ _ hj]
      simp only [Option.map_some, Function.comp]
      congr 2
      omega
    · rw [List.getElem?_eq_none (by simpa using hj), List.getElem?_eq_none (by rw [symsOf_length]; omega)]
      rfl

theorem sortedSyms_eq {lens : List Nat} {maxLen : Nat} (garbage : Nat → Nat) (h288 : lens.length ≤ 288)
    (hmax : ∀ l ∈ lens, l ≤ maxLen) (h15 : ∀ l ∈ lens, l ≤ 15) :
    sortedSyms lens maxLen garbage = some ((canon lens).map Prod.fst) := by
  obtain ⟨off, data, h1, h2, h3⟩ := sortLoop_spec h288 hmax lens [] (offsetOf (lenCount lens)) garbage rfl (by simp) (by simp)
  simp only [List.length_nil] at h1
  simp only [sortedSyms, h1]
  congr 1
  have e0 : off 0 = offsetOf (lenCount lens) 1 := by rw [h2]; rfl
  have e1 : lens.length = offsetOf (lenCount lens) (15 + 1) := by
    rw [offsetOf_countP]
    symm
    rw [List.countP_eq_length]
    intro l hl
    have := h15 l hl
    simp; omega
  rw [e0, e1, range_data h3 15, canon, List.map_flatMap]
  congr 1
  funext l
  simp [Function.comp_def]

end Blend2D.Deflate
