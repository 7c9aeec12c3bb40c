import Verif.BitSet.Spec
import Verif.Algo.Search

namespace Blend2D.BitSet

open Blend2D.BitOps

/-! ## Lists of words -/

theorem bitAt_nil (i : Nat) : bitAt .msb ([] : List Word) i = false := by simp [bitAt]

theorem bitAt_cons (x : Word) (xs : List Word) (i : Nat) :
    bitAt .msb (x :: xs) i = if i < 32 then BitOps.hasBit .msb x i else bitAt .msb xs (i - 32) := by
  unfold bitAt
  by_cases h : i < 32
  · rw [if_pos h, Nat.div_eq_of_lt h, Nat.mod_eq_of_lt h]
    rfl
  · rw [if_neg h]
    have h1 : i / 32 = (i - 32) / 32 + 1 := by omega
    have h2 : i % 32 = (i - 32) % 32 := by omega
    rw [h1, h2]
    rfl

theorem bitAt_zeros4 (i : Nat) : bitAt .msb zeros4 i = false := by
  simp only [zeros4, bitAt_cons, bitAt_nil, hasBit_zero]
  simp

theorem bitAt_zeros2 (i : Nat) : bitAt .msb ([0, 0] : List Word) i = false := by
  simp only [bitAt_cons, bitAt_nil, hasBit_zero]
  simp

theorem bitAt_ones4 (i : Nat) : bitAt .msb ones4 i = decide (i < 128) := by
  simp only [ones4, List.replicate, bitAt_cons, bitAt_nil]
  by_cases h1 : i < 32
  · simp only [if_pos h1, hasBit_ones .msb h1]; simp; omega
  · rw [if_neg h1]
    by_cases h2 : i - 32 < 32
    · simp only [if_pos h2, hasBit_ones .msb h2]; simp; omega
    · rw [if_neg h2]
      by_cases h3 : i - 32 - 32 < 32
      · simp only [if_pos h3, hasBit_ones .msb h3]; simp; omega
      · rw [if_neg h3]
        by_cases h4 : i - 32 - 32 - 32 < 32
        · simp only [if_pos h4, hasBit_ones .msb h4]; simp; omega
        · rw [if_neg h4]; simp; omega

/-- The bits of four words end at 128. -/
theorem bitAt_len4 {d : List Word} (h : d.length = 4) {i : Nat} (hi : 128 ≤ i) : bitAt .msb d i = false :=
  bitAt_ge .msb d (by omega) (by rw [h]; omega)

theorem bitAt_len2 {d : List Word} (h : d.length = 2) {i : Nat} (hi : 64 ≤ i) : bitAt .msb d i = false :=
  bitAt_ge .msb d (by omega) (by rw [h]; omega)

/-! ## Segments -/

theorem Seg.bit_iff {g : Seg} (hg : SegOK g) {i : Nat} (h : g.bit i = true) : g.startWord ≤ i / 32 ∧ i / 32 < g.endWord := by
  cases g with
  | dense s d =>
    obtain ⟨_, _, hl⟩ := hg
    simp only [Seg.bit, Bool.and_eq_true, decide_eq_true_eq] at h
    have : ¬ 128 ≤ i - s * 32 := fun hc => by rw [bitAt_len4 hl hc] at h; simp at h
    simp only [Seg.startWord, Seg.endWord]
    omega
  | range s e =>
    simp only [Seg.bit, Bool.and_eq_true, decide_eq_true_eq] at h
    simp only [Seg.startWord, Seg.endWord]
    omega

theorem SegOK.start_lt {g : Seg} (hg : SegOK g) : g.startWord + 4 ≤ g.endWord ∧ g.endWord ≤ 134217732 ∧ g.startWord % 4 = 0 ∧
    g.endWord % 4 = 0 := by
  cases g <;> simp only [SegOK, Seg.startWord, Seg.endWord] at * <;> omega

theorem segHasWord_iff {g : Seg} (hg : SegOK g) {w : Nat} (hw : w < 134217728) :
    segHasWord g w = true ↔ g.startWord ≤ w ∧ w < g.endWord := by
  have := hg.start_lt
  unfold segHasWord rangeHas
  rw [decide_eq_true_iff]
  unfold sub32
  omega

theorem rangeHas_iff {a b i : Nat} (hab : a ≤ b) (hb : b < 4294967296) (hi : i < 4294967296) :
    rangeHas a b i = (decide (a ≤ i) && decide (i < b)) := by
  rw [Bool.eq_iff_iff]
  unfold rangeHas
  rw [decide_eq_true_iff, Bool.and_eq_true, decide_eq_true_iff, decide_eq_true_iff]
  unfold sub32
  omega

/-- A bit of a segment that has its word. -/
theorem Seg.bit_dense {s : Nat} {d : List Word} (hg : SegOK (.dense s d)) {i : Nat} (hw : s ≤ i / 32 ∧ i / 32 < s + 4) :
    (Seg.dense s d).bit i = bitAt .msb d (i % 128) := by
  obtain ⟨h1, _, _⟩ := hg
  have : i - s * 32 = i % 128 := by omega
  simp only [Seg.bit, this]
  rw [decide_eq_true (by omega), Bool.true_and]

theorem SegsOK.append {l r : List Seg} : SegsOK (l ++ r) ↔
    SegsOK l ∧ SegsOK r ∧ ∀ a ∈ l, ∀ b ∈ r, a.endWord ≤ b.startWord := by
  constructor
  · intro h
    obtain ⟨h1, h2, h3⟩ := List.pairwise_append.1 h.sorted
    exact ⟨⟨fun g hg => h.each g (by simp [hg]), h1⟩, ⟨fun g hg => h.each g (by simp [hg]), h2⟩, h3⟩
  · intro ⟨h1, h2, h3⟩
    refine ⟨fun g hg => ?_, List.pairwise_append.2 ⟨h1.sorted, h2.sorted, h3⟩⟩
    rcases List.mem_append.1 hg with hg | hg
    · exact h1.each g hg
    · exact h2.each g hg

theorem SegsOK.cons {g : Seg} {r : List Seg} : SegsOK (g :: r) ↔ SegOK g ∧ SegsOK r ∧ ∀ b ∈ r, g.endWord ≤ b.startWord := by
  constructor
  · intro h
    obtain ⟨h1, h2⟩ := List.pairwise_cons.1 h.sorted
    exact ⟨h.each g (by simp), ⟨fun b hb => h.each b (by simp [hb]), h2⟩, h1⟩
  · intro ⟨h1, h2, h3⟩
    refine ⟨fun b hb => ?_, List.pairwise_cons.2 ⟨h3, h2.sorted⟩⟩
    rcases List.mem_cons.1 hb with rfl | hb
    · exact h1
    · exact h2.each b hb

theorem SegsOK.nil : SegsOK [] := ⟨by simp, by simp⟩

/-- What a search for a word returns: all segments before `k` end before the word or at it, all from `k` on end behind it. -/
structure Found (segs : List Seg) (w k : Nat) : Prop where
  le : k ≤ segs.length
  before : ∀ g ∈ segs.take k, g.endWord ≤ w
  after : ∀ g ∈ segs.drop k, w < g.endWord

theorem lowerBound_spec {segs : List Seg} (h : SegsOK segs) (w : Nat) : ∃ k, lowerBound segs w = some k ∧ Found segs w k := by
  have hp : Algo.Spec.Partitioned segs.toArray (fun g => decide (g.endWord ≤ w) = true) := by
    intro i j hj hij hpj
    simp only [List.size_toArray] at hj
    simp only [List.getElem_toArray, decide_eq_true_eq] at *
    by_cases he : i = j
    · subst he; exact hpj
    · have h1 := List.pairwise_iff_getElem.1 h.sorted i j (by omega) hj (by omega)
      have h2 := (h.each segs[j] (List.getElem_mem hj)).start_lt
      omega
  obtain ⟨k, e, h1, h2, h3⟩ := Algo.C14_lower_bound segs.toArray w (fun (g : Seg) w => decide (g.endWord ≤ w)) hp
  simp only [List.size_toArray, List.getElem_toArray, decide_eq_true_eq, decide_eq_false_iff_not] at h1 h2 h3
  refine ⟨k, e, h1, ?_, ?_⟩
  · intro g hg
    obtain ⟨i, hi, rfl⟩ := List.mem_iff_getElem.1 hg
    rw [List.length_take] at hi
    rw [List.getElem_take]
    exact h2 i (by omega) (by omega)
  · intro g hg
    obtain ⟨i, hi, rfl⟩ := List.mem_iff_getElem.1 hg
    rw [List.length_drop] at hi
    rw [List.getElem_drop]
    have := h3 (k + i) (by omega) (by omega)
    omega

theorem findSeg_spec {segs : List Seg} (h : SegsOK segs) (w : Nat) : ∃ k, findSeg segs w = some k ∧ Found segs w k := by
  unfold findSeg
  cases hl : segs.getLast? with
  | none => exact lowerBound_spec h w
  | some g =>
    simp only
    split
    · rename_i hs
      obtain ⟨l, rfl⟩ := List.getLast?_eq_some_iff.1 hl
      obtain ⟨_, _, h3⟩ := SegsOK.append.1 h
      have hb : ∀ a ∈ l, a.endWord ≤ w := fun a ha => Nat.le_trans (h3 a ha g (by simp)) hs
      by_cases he : g.endWord > w
      · refine ⟨_, rfl, by simp, ?_, ?_⟩
        · rw [if_pos he]; simpa using hb
        · rw [if_pos he]; simpa using he
      · refine ⟨_, rfl, by simp, ?_, ?_⟩
        · rw [if_neg he]
          intro a ha
          simp only [List.length_append, List.length_cons, List.length_nil, Nat.sub_zero] at ha
          rw [List.take_of_length_le (by simp)] at ha
          rcases List.mem_append.1 ha with ha | ha
          · exact hb a ha
          · simp only [List.mem_singleton] at ha; subst ha; omega
        · rw [if_neg he]; simp
    · exact lowerBound_spec h w

/-- The set splits at the found segment: either no segment has the word, or the found one does. -/
theorem Found.split {segs : List Seg} (h : SegsOK segs) {w k : Nat} (f : Found segs w k) :
    (k = segs.length ∧ ∀ g ∈ segs, g.endWord ≤ w) ∨
    ∃ l g r, segs = l ++ g :: r ∧ l.length = k ∧ segs[k]? = some g ∧ (∀ a ∈ l, a.endWord ≤ w) ∧ w < g.endWord ∧
      (∀ b ∈ r, w < b.startWord) ∧ (∀ a ∈ l, a.endWord ≤ g.startWord) ∧ (∀ b ∈ r, g.endWord ≤ b.startWord) ∧
      SegOK g ∧ SegsOK l ∧ SegsOK r := by
  obtain ⟨hle, hb, ha⟩ := f
  by_cases hk : k = segs.length
  · exact .inl ⟨hk, by simpa [hk] using hb⟩
  · right
    have hlt : k < segs.length := by omega
    have hd : segs.drop k = segs[k] :: segs.drop (k + 1) := List.drop_eq_getElem_cons hlt
    have hs : segs = segs.take k ++ segs[k] :: segs.drop (k + 1) := by rw [← hd, List.take_append_drop]
    have hok := h
    rw [hs] at hok
    obtain ⟨h1, h2, h3⟩ := SegsOK.append.1 hok
    obtain ⟨h4, h5, h6⟩ := SegsOK.cons.1 h2
    have hg : w < segs[k].endWord := ha _ (hd ▸ List.mem_cons_self)
    exact ⟨_, _, _, hs, by rw [List.length_take]; omega, List.getElem?_eq_getElem hlt, hb, hg, fun b hbm => Nat.lt_of_lt_of_le hg (h6 b hbm),
      fun a ham => h3 a ham _ List.mem_cons_self, h6, h4, h1, h5⟩

theorem any_false {l : List Seg} (h : SegsOK l) {i : Nat} (hl : ∀ g ∈ l, g.endWord ≤ i / 32 ∨ i / 32 < g.startWord) :
    (l.any fun g => g.bit i) = false := by
  rw [List.any_eq_false]
  intro g hg hb
  have := Seg.bit_iff (h.each g hg) hb
  have := hl g hg
  omega

/-! ## `has_bit` -/

theorem member_lt {s : BS} (h : OK s) {i : Nat} (hm : member s i = true) : i < 4294967295 := by
  apply Nat.lt_of_not_le
  intro hc
  rw [h.last i hc] at hm
  cases hm

theorem hasBit_spec {s : BS} (h : OK s) {i : Nat} (hi : i < 4294967296) : hasBit s i = some (member s i) := by
  have hr := h.rep
  cases s with
  | range a b =>
    simp only at hr
    simp only [hasBit, member]
    rw [rangeHas_iff (by omega) (by omega) hi]
  | dense w d =>
    obtain ⟨h1, h2, _⟩ := hr
    simp only [hasBit, member]
    have hs : sub32 (i / 32) w = if w ≤ i / 32 then i / 32 - w else i / 32 + 4294967296 - w := by
      unfold sub32
      split <;> omega
    by_cases hw : w ≤ i / 32
    · rw [hs, if_pos hw]
      by_cases h3 : i / 32 - w < 2
      · rw [if_pos h3, List.getElem?_eq_getElem (by omega), decide_eq_true (by omega), Bool.true_and]
        have e1 : (i - w * 32) / 32 = i / 32 - w := by omega
        have e2 : (i - w * 32) % 32 = i % 32 := by omega
        simp only [bitAt, e1, e2, List.getElem?_eq_getElem (show i / 32 - w < d.length by omega)]
      · rw [if_neg h3, bitAt_len2 h2 (by omega), Bool.and_false]
    · rw [hs, if_neg hw, if_neg (by omega), decide_eq_false (by omega), Bool.false_and]
  | dyn segs cap card =>
    obtain ⟨h1, _⟩ := hr
    obtain ⟨k, ek, f⟩ := lowerBound_spec h1 (i / 32)
    simp only [hasBit, member, ek, Option.bind_eq_bind, Option.bind_some]
    rcases f.split h1 with ⟨rfl, hb⟩ | ⟨l, g, r, rfl, hl, hk, hb, hg, ha, _, _, ok, okl, okr⟩
    · rw [if_pos (Nat.le_refl _), any_false h1 (fun g hg => .inl (hb g hg))]
    · rw [if_neg (by simp; omega), hk]
      simp only [List.any_append, List.any_cons]
      rw [any_false okl (fun a ham => .inl (hb a ham)), any_false okr (fun b hbm => .inr (ha b hbm)), Bool.false_or, Bool.or_false]
      have hw := segHasWord_iff ok (w := i / 32) (by omega)
      cases hs : segHasWord g (i / 32) with
      | false =>
        simp only [Bool.not_false, if_true]
        congr 1
        symm
        rw [Bool.eq_false_iff]
        intro hc
        have := hw.2 (Seg.bit_iff ok hc)
        rw [hs] at this
        cases this
      | true =>
        have hw := hw.1 hs
        simp only [Bool.not_true]
        cases g with
        | range a b =>
          simp only [Seg.startWord, Seg.endWord] at hw
          simp only [Seg.bit]
          rw [decide_eq_true (by omega), decide_eq_true (by omega)]
          rfl
        | dense a d =>
          rw [Seg.bit_dense ok hw]
          obtain ⟨_, _, hd⟩ := ok
          exact (C41_single_bit .msb d (i % 128) (by rw [hd]; omega)).1

end Blend2D.BitSet
