import Verif.FontTag.Model
import Verif.FontTag.Spec
import Mathlib.Tactic.NormNum
/-! # Looking a tag up -/
namespace Blend2D.FontTag
open Spec

theorem hash_lt (x : UInt32) {shift n : Nat} (hs : shift ≤ 32) (h : 2 ^ 32 / 2 ^ shift = n) : x.toNat >>> shift < n := by
  rw [Nat.shiftRight_eq_div_pow, ← h]
  exact Nat.div_lt_div_of_lt_of_dvd (Nat.pow_dvd_pow 2 hs) x.toNat_lt

/-- Every table entry is found again: a check of finitely many entries. -/
def Finds (tags : Array UInt32) (toId : UInt32 → Option UInt32) : Prop :=
  ∀ i, i < tags.size → toId (tags.getD i 0) = some (UInt32.ofNat i)

theorem isId_of (tags : Array UInt32) (toId : UInt32 → Option UInt32) (hf : Finds tags toId) (hn : tags.size < 2 ^ 32)
    (ht : ∀ tag, ∃ id, toId tag = some id ∧ (id = kInvalidId ∨ ∃ i, tags[i]? = some tag ∧ id = UInt32.ofNat i)) (tag : UInt32) :
    ∃ id, toId tag = some id ∧ IsId tags tag id := by
  obtain ⟨id, h1, h2⟩ := ht tag
  refine ⟨id, h1, ?_⟩
  have key : tag ∈ tags → ∃ i, tags[i]? = some tag ∧ id = UInt32.ofNat i := by
    intro hm
    obtain ⟨i, hi, he⟩ := Array.mem_iff_getElem.1 hm
    have := hf i hi
    rw [Array.getD_eq_getD_getElem?, Array.getElem?_eq_getElem hi, Option.getD_some, he, h1] at this
    exact ⟨i, by rw [Array.getElem?_eq_getElem hi, he], Option.some.inj this⟩
  by_cases hm : tag ∈ tags
  · obtain ⟨i, e1, e2⟩ := key hm
    obtain ⟨hi, _⟩ := Array.getElem?_eq_some_iff.1 e1
    exact .inl ⟨i, e1, e2, by omega⟩
  · refine .inr ⟨hm, ?_⟩
    rcases h2 with h2 | ⟨i, e1, -⟩
    · exact h2
    · obtain ⟨hi, he⟩ := Array.getElem?_eq_some_iff.1 e1
      exact absurd (he ▸ Array.getElem_mem hi) hm

theorem lookup1_total {hash : Array Nat} {mul : UInt32} {shift : Nat} {tags : Array UInt32} (hs : shift ≤ 32)
    (hsz : 2 ^ 32 / 2 ^ shift = hash.size) (hb : ∀ x ∈ hash, x < tags.size) (tag : UInt32) :
    ∃ id, lookup1 hash mul shift tags tag = some id ∧
      (id = kInvalidId ∨ ∃ i, tags[i]? = some tag ∧ id = UInt32.ofNat i) := by
  have h1 := hash_lt (tag * mul) hs hsz
  obtain ⟨i1, e1⟩ : ∃ i, i = hash[(tag * mul).toNat >>> shift] := ⟨_, rfl⟩
  have h2 : i1 < tags.size := e1 ▸ hb _ (Array.getElem_mem h1)
  obtain ⟨t1, e2⟩ : ∃ t, t = tags[i1] := ⟨_, rfl⟩
  have e3 : lookup1 hash mul shift tags tag = some (if t1 = tag then UInt32.ofNat i1 else kInvalidId) := by
    simp only [lookup1, Array.getElem?_eq_getElem h1, ← e1, Option.bind_eq_bind, Option.bind_some,
      Array.getElem?_eq_getElem h2, ← e2]
  refine ⟨_, e3, ?_⟩
  split
  · rename_i h
    exact .inr ⟨i1, by rw [Array.getElem?_eq_getElem h2, ← e2, h], rfl⟩
  · exact .inl rfl

theorem lookup2_total {hash1 : Array Nat} {mul1 : UInt32} {shift1 : Nat} {hash2 : Array Nat} {mul2 : UInt32} {shift2 : Nat}
    {tags : Array UInt32} (hs1 : shift1 ≤ 32) (hs2 : shift2 ≤ 32)
    (hsz1 : 2 ^ 32 / 2 ^ shift1 = hash1.size) (hsz2 : 2 ^ 32 / 2 ^ shift2 = hash2.size)
    (hb1 : ∀ x ∈ hash1, x < tags.size) (hb2 : ∀ x ∈ hash2, x < tags.size) (tag : UInt32) :
    ∃ id, lookup2 hash1 mul1 shift1 hash2 mul2 shift2 tags tag = some id ∧
      (id = kInvalidId ∨ ∃ i, tags[i]? = some tag ∧ id = UInt32.ofNat i) := by
  have h1 := hash_lt (tag * mul1) hs1 hsz1
  have h2 := hash_lt (tag * mul2) hs2 hsz2
  obtain ⟨i1, e1⟩ : ∃ i, i = hash1[(tag * mul1).toNat >>> shift1] := ⟨_, rfl⟩
  obtain ⟨i2, e2⟩ : ∃ i, i = hash2[(tag * mul2).toNat >>> shift2] := ⟨_, rfl⟩
  have l1 : i1 < tags.size := e1 ▸ hb1 _ (Array.getElem_mem h1)
  have l2 : i2 < tags.size := e2 ▸ hb2 _ (Array.getElem_mem h2)
  obtain ⟨t1, f1⟩ : ∃ t, t = tags[i1] := ⟨_, rfl⟩
  obtain ⟨t2, f2⟩ : ∃ t, t = tags[i2] := ⟨_, rfl⟩
  have e3 : lookup2 hash1 mul1 shift1 hash2 mul2 shift2 tags tag =
      some (if t2 = tag then UInt32.ofNat i2 else if t1 = tag then UInt32.ofNat i1 else kInvalidId) := by
    simp only [lookup2, Array.getElem?_eq_getElem h1, ← e1, Option.bind_eq_bind, Option.bind_some,
      Array.getElem?_eq_getElem h2, ← e2, Array.getElem?_eq_getElem l1, ← f1, Array.getElem?_eq_getElem l2, ← f2]
  refine ⟨_, e3, ?_⟩
  split
  · rename_i h
    exact .inr ⟨i2, by rw [Array.getElem?_eq_getElem l2, ← f2, h], rfl⟩
  · split
    · rename_i h
      exact .inr ⟨i1, by rw [Array.getElem?_eq_getElem l1, ← f1, h], rfl⟩
    · exact .inl rfl

theorem script_finds : Finds scriptTags scriptToId := by unfold Finds; decide +kernel
theorem feature_finds : Finds featureTags featureToId := by unfold Finds; decide +kernel
theorem baseline_finds : Finds baselineTags baselineToId := by unfold Finds; decide +kernel
theorem variation_finds : Finds variationTags variationToId := by unfold Finds; decide +kernel
theorem table_finds : Finds tableTags tableToId := by unfold Finds; decide +kernel

theorem script_id (tag : UInt32) : ∃ id, scriptToId tag = some id ∧ IsId scriptTags tag id :=
  isId_of _ _ script_finds (by decide +kernel) (lookup2_total (by decide) (by decide) (by decide +kernel) (by decide +kernel)
    (by decide +kernel) (by decide +kernel)) tag
theorem feature_id (tag : UInt32) : ∃ id, featureToId tag = some id ∧ IsId featureTags tag id :=
  isId_of _ _ feature_finds (by decide +kernel) (lookup2_total (by decide) (by decide) (by decide +kernel) (by decide +kernel)
    (by decide +kernel) (by decide +kernel)) tag
theorem baseline_id (tag : UInt32) : ∃ id, baselineToId tag = some id ∧ IsId baselineTags tag id :=
  isId_of _ _ baseline_finds (by decide +kernel) (lookup1_total (by decide) (by decide +kernel) (by decide +kernel)) tag
theorem variation_id (tag : UInt32) : ∃ id, variationToId tag = some id ∧ IsId variationTags tag id :=
  isId_of _ _ variation_finds (by decide +kernel) (lookup1_total (by decide) (by decide +kernel) (by decide +kernel)) tag
theorem table_id (tag : UInt32) : ∃ id, tableToId tag = some id ∧ IsId tableTags tag id := by
  refine isId_of _ _ table_finds (by decide +kernel) (fun tag => ?_) tag
  obtain ⟨id, h1, h2⟩ := lookup1_total (hash := tableHash1) (mul := 907879475) (shift := 25) (tags := tableTags) (by decide)
    (by decide +kernel) (by decide +kernel) tag
  refine ⟨if tag = 1886545264 then 65 else id, by simp only [tableToId, h1, Option.bind_eq_bind, Option.bind_some], ?_⟩
  split
  · rename_i h
    subst h
    exact .inr ⟨65, by decide +kernel, rfl⟩
  · exact h2

/-! ## Valid tags -/

theorem and_high (z : Nat) : z &&& 0x80808080 = 0 ↔
    z / 2 ^ 7 % 2 = 0 ∧ z / 2 ^ 15 % 2 = 0 ∧ z / 2 ^ 23 % 2 = 0 ∧ z / 2 ^ 31 % 2 = 0 := by
  have ht : ∀ i, z / 2 ^ i % 2 = 0 ↔ z.testBit i = false := by
    intro i
    rw [Nat.testBit_eq_decide_div_mod_eq, decide_eq_false_iff_not]
    omega
  rw [ht, ht, ht, ht]
  constructor
  · intro h
    have hb : ∀ i, (z &&& 0x80808080).testBit i = false := by rw [h]; simp
    have h7 := hb 7; have h15 := hb 15; have h23 := hb 23; have h31 := hb 31
    rw [Nat.testBit_and] at h7 h15 h23 h31
    have t7 : Nat.testBit 0x80808080 7 = true := by decide
    have t15 : Nat.testBit 0x80808080 15 = true := by decide
    have t23 : Nat.testBit 0x80808080 23 = true := by decide
    have t31 : Nat.testBit 0x80808080 31 = true := by decide
    rw [t7, Bool.and_true] at h7
    rw [t15, Bool.and_true] at h15
    rw [t23, Bool.and_true] at h23
    rw [t31, Bool.and_true] at h31
    exact ⟨h7, h15, h23, h31⟩
  · rintro ⟨h7, h15, h23, h31⟩
    apply Nat.eq_of_testBit_eq
    intro i
    rw [Nat.testBit_and, Nat.zero_testBit]
    rcases Nat.lt_or_ge i 32 with hi | hi
    · have hm : ∀ k, k < 32 → k ≠ 7 → k ≠ 15 → k ≠ 23 → k ≠ 31 → Nat.testBit 0x80808080 k = false := by decide
      by_cases a : i = 7
      · rw [a, h7]; rfl
      by_cases b : i = 15
      · rw [b, h15]; rfl
      by_cases c : i = 23
      · rw [c, h23]; rfl
      by_cases d : i = 31
      · rw [d, h31]; rfl
      rw [hm i hi a b c d, Bool.and_false]
    · rw [Nat.testBit_lt_two_pow (x := 0x80808080) (Nat.lt_of_lt_of_le (by decide) (Nat.pow_le_pow_right (by decide) hi)), Bool.and_false]

theorem and_or_high (x y : Nat) : (x ||| y) &&& 0x80808080 = 0 ↔ x &&& 0x80808080 = 0 ∧ y &&& 0x80808080 = 0 := by
  rw [Nat.and_or_distrib_right]
  exact Nat.or_eq_zero_iff

theorem valid_iff (tag : UInt32) : isValidTag tag = true ↔ Printable tag := by
  have ht := tag.toNat_lt
  have hx : (tag - 0x20202020).toNat = (2 ^ 32 - 0x20202020 + tag.toNat) % 2 ^ 32 := by
    rw [UInt32.toNat_sub]; rfl
  have hy : (tag + 0x01010101).toNat = (tag.toNat + 0x01010101) % 2 ^ 32 := by
    rw [UInt32.toNat_add]; rfl
  have h0 : isValidTag tag = true ↔ (tag - 0x20202020).toNat &&& 0x80808080 = 0 ∧ (tag + 0x01010101).toNat &&& 0x80808080 = 0 := by
    unfold isValidTag
    rw [beq_iff_eq, ← UInt32.toNat_inj, UInt32.toNat_and, UInt32.toNat_or, ← and_or_high]
    rfl
  rw [h0, and_high, and_high, hx, hy]
  have hp : Printable tag ↔ (32 ≤ tag.toNat / 2 ^ 24 % 256 ∧ tag.toNat / 2 ^ 24 % 256 ≤ 126) ∧
      (32 ≤ tag.toNat / 2 ^ 16 % 256 ∧ tag.toNat / 2 ^ 16 % 256 ≤ 126) ∧
      (32 ≤ tag.toNat / 2 ^ 8 % 256 ∧ tag.toNat / 2 ^ 8 % 256 ≤ 126) ∧
      (32 ≤ tag.toNat % 256 ∧ tag.toNat % 256 ≤ 126) := by
    constructor
    · intro h
      have a0 := h 0 (by omega); have a1 := h 1 (by omega); have a2 := h 2 (by omega); have a3 := h 3 (by omega)
      simp only [char] at a0 a1 a2 a3
      norm_num at a0 a1 a2 a3 ⊢
      exact ⟨a0, a1, a2, a3⟩
    · rintro ⟨a0, a1, a2, a3⟩ k hk
      have : k = 0 ∨ k = 1 ∨ k = 2 ∨ k = 3 := by omega
      rcases this with rfl | rfl | rfl | rfl <;> simp only [char] <;> norm_num at a0 a1 a2 a3 ⊢ <;> assumption
  rw [hp]
  generalize tag.toNat = n at *
  clear h0 hp hx hy
  obtain ⟨a, ha⟩ : ∃ a, a = n % 256 := ⟨_, rfl⟩
  obtain ⟨b, hb⟩ : ∃ b, b = n / 256 % 256 := ⟨_, rfl⟩
  obtain ⟨c, hc⟩ : ∃ c, c = n / 65536 % 256 := ⟨_, rfl⟩
  obtain ⟨d, hd⟩ : ∃ d, d = n / 16777216 := ⟨_, rfl⟩
  have hn : n = a + 256 * b + 65536 * c + 16777216 * d := by omega
  norm_num
  omega

end Blend2D.FontTag
