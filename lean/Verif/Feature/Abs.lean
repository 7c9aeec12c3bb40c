import Verif.Feature.Fields
import Verif.Settings.Ops
import Verif.FontTag.Sets
/-! # Instances as bit sets and short sorted lists -/
namespace Blend2D.Feature
open Blend2D.FontTag (isValidTag featureTags featureToId kInvalidId features good_features tagOf tagOf_lt tagOf_inj known_cases feature_finds)
open Blend2D.Settings
open Blend2D.Settings.Spec (Map Lists nothing put)

/-- What an instance holds: the bit features, and the fat ones with their values. -/
structure Abs where
  b0 : UInt32
  b1 : UInt32
  fat : List (UInt32 × UInt32)

/-- The word with the identifiers; `n` fields. -/
def tagsN : Nat → List (UInt32 × UInt32) → Nat
  | n, [] => 256 ^ n - 1
  | n, p :: r => p.1.toNat + 256 * tagsN (n - 1) r

def valsN : List (UInt32 × UInt32) → Nat
  | [] => 0
  | p :: r => p.2.toNat + 16 * valsN r

def infoN (n : Nat) (F : List (UInt32 × UInt32)) : Nat := valsN F + 65536 * n + 2218786816

/-- The words, with `n` as the number of features. -/
def encode (A : Abs) (n : Nat) : Words := ⟨A.b0, A.b1, UInt32.ofNat (tagsN 4 A.fat), UInt32.ofNat (infoN n A.fat)⟩

/-- The number of features. -/
def Abs.size (A : Abs) : Nat := count A.b0 + A.fat.length

structure FatOk (F : List (UInt32 × UInt32)) : Prop where
  sorted : F.Pairwise (fun a b => a.1 < b.1)
  range : ∀ p ∈ F, p.1.toNat < 241 ∧ bitId p.1 = 63 ∧ p.2.toNat < 16

structure Good (A : Abs) : Prop where
  sub : ∀ j, bitAt A.b1 j = true → bitAt A.b0 j = true
  fat : FatOk A.fat
  len : A.fat.length ≤ 4

def lookFat : List (UInt32 × UInt32) → UInt32 → Option UInt32
  | [], _ => none
  | p :: r, id => if p.1 = id then some p.2 else lookFat r id

/-- The value of the feature with an identifier. -/
def look (A : Abs) (id : UInt32) : Option UInt32 :=
  if bitId id = 63 then lookFat A.fat id
  else if bitAt A.b0 (bitId id) = true then some (bit (bitAt A.b1 (bitId id))) else none

def lookKnown (A : Abs) (id : UInt32) : Option UInt32 := if id = kInvalidId then none else look A id

/-- The settings an instance holds. -/
def mapOf (A : Abs) : Map UInt32 := fun t => (featureToId t).bind (lookKnown A)

/-! ### Identifiers -/

def tagAt (id : UInt32) : UInt32 := tagOf features id.toNat

theorem size_features : features.tags.size = 241 := by decide +kernel

/-- The identifier of a tag. -/
theorem toId_cases (tag : UInt32) :
    (∃ id : UInt32, id.toNat < 241 ∧ featureToId tag = some id ∧ tag = tagAt id ∧ id ≠ kInvalidId) ∨
    (featureToId tag = some kInvalidId ∧ ∀ id : UInt32, id.toNat < 241 → tagAt id ≠ tag) := by
  rcases known_cases good_features tag with ⟨i, h1, h2, h3, h4, h5, h6⟩ | ⟨h1, h2⟩
  · rw [size_features] at h1
    exact .inl ⟨UInt32.ofNat i, by omega, h3, by rw [tagAt, h5, h2], h4⟩
  · refine .inr ⟨h2, fun id hid hc => h1 ?_⟩
    rw [← hc, tagAt, tagOf, Array.getD_eq_getD_getElem?, Array.getElem?_eq_getElem (by rw [size_features]; exact hid)]
    exact Array.getElem_mem _

theorem toId_tagAt {id : UInt32} (h : id.toNat < 241) : featureToId (tagAt id) = some id := by
  have := feature_finds id.toNat (by have := size_features; exact this ▸ h)
  rw [tagAt, tagOf]
  exact this.trans (by simp)

theorem ne_invalid {id : UInt32} (h : id.toNat < 241) : id ≠ kInvalidId := by
  intro hc; rw [hc] at h; revert h; decide

theorem tagAt_lt {a b : UInt32} (hb : b.toNat < 241) (h : a < b) : tagAt a < tagAt b :=
  tagOf_lt good_features (UInt32.lt_iff_toNat_lt.1 h) (by rw [size_features]; exact hb)

theorem tagAt_inj {a b : UInt32} (ha : a.toNat < 241) (hb : b.toNat < 241) (h : tagAt a = tagAt b) : a = b :=
  UInt32.toNat_inj.1 (tagOf_inj good_features (by rw [size_features]; exact ha) (by rw [size_features]; exact hb) h)

theorem tagAt_get {id : UInt32} (h : id.toNat < 241) : featureTags[id.toNat]? = some (tagAt id) := by
  have h2 : id.toNat < featureTags.size := size_features ▸ h
  rw [tagAt, tagOf, Array.getD_eq_getD_getElem?]
  show featureTags[id.toNat]? = some (featureTags[id.toNat]?.getD 0)
  rw [Array.getElem?_eq_getElem h2]
  rfl

theorem tag_valid {id : UInt32} (h : id.toNat < 241) : isValidTag (tagAt id) = true := by
  have : ∀ i, i < 241 → isValidTag (tagOf features i) = true := by decide +kernel
  exact this _ h

/-- The bit identifiers. -/
theorem bitId_cases (id : UInt32) : bitId id = 63 ∨ (bitId id < 32 ∧ bitFeatures[bitId id]? = some id) := by
  rw [bitId]
  cases h : bitFeatures.findIdx? (fun x => x == id) with
  | none => exact .inl rfl
  | some i =>
    refine .inr ?_
    rw [Array.findIdx?_eq_some_iff_getElem] at h
    obtain ⟨h1, h2, _⟩ := h
    refine ⟨h1, ?_⟩
    show bitFeatures[i]? = some id
    rw [Array.getElem?_eq_getElem h1]
    simpa using h2

/-- The feature of a bit. -/
def bitFeat (b : Nat) : UInt32 := bitFeatures.getD b 0

theorem bitFeat_facts : ∀ b, b < 32 → bitFeatures[b]? = some (bitFeat b) ∧ (bitFeat b).toNat < 241 ∧ bitId (bitFeat b) = b := by decide +kernel

theorem bitFeat_mono : ∀ b, b < 32 → ∀ a, a < b → bitFeat a < bitFeat b := by decide +kernel

theorem bitFeat_bitId {id : UInt32} (h : bitId id ≠ 63) : bitId id < 32 ∧ bitFeat (bitId id) = id := by
  rcases bitId_cases id with h' | ⟨h1, h2⟩
  · exact absurd h' h
  · refine ⟨h1, ?_⟩
    have := (bitFeat_facts _ h1).1
    rw [h2] at this
    exact (Option.some.inj this).symm

/-! ### Fat features -/

theorem fatOk_tail {p : UInt32 × UInt32} {F : List (UInt32 × UInt32)} (h : FatOk (p :: F)) : FatOk F :=
  ⟨(List.pairwise_cons.1 h.sorted).2, fun q hq => h.range q (List.mem_cons_of_mem _ hq)⟩

theorem lookFat_iff {F : List (UInt32 × UInt32)} (h : F.Pairwise (fun a b => a.1 < b.1)) (id v : UInt32) :
    lookFat F id = some v ↔ (id, v) ∈ F := by
  induction F with
  | nil => simp [lookFat]
  | cons p r ih =>
    rw [List.pairwise_cons] at h
    rw [lookFat]
    by_cases hp : p.1 = id
    · rw [if_pos hp, List.mem_cons]
      constructor
      · intro hv
        exact .inl (by rw [← hp, ← Option.some.inj hv])
      · rintro (hv | hv)
        · rw [← hv]
        · have := h.1 _ hv
          rw [UInt32.lt_iff_toNat_lt, hp] at this
          dsimp only at this
          omega
    · rw [if_neg hp, ih h.2, List.mem_cons]
      constructor
      · exact .inr
      · rintro (hv | hv)
        · exact absurd (by rw [← hv]) hp
        · exact hv

theorem and255 (x : UInt32) : (x &&& 255).toNat = x.toNat % 256 := by
  rw [UInt32.toNat_and, show (255 : UInt32).toNat = 2 ^ 8 - 1 from rfl, Nat.and_two_pow_sub_one_eq_mod]

theorem and15 (x : UInt32) : (x &&& 15).toNat = x.toNat % 16 := by
  rw [UInt32.toNat_and, show (15 : UInt32).toNat = 2 ^ 4 - 1 from rfl, Nat.and_two_pow_sub_one_eq_mod]

theorem shr8 (x : UInt32) : (x >>> 8).toNat = x.toNat / 256 := by
  have := shr_toNat x (o := 8) (by omega)
  simpa using this

theorem shr4 (x : UInt32) : (x >>> 4).toNat = x.toNat / 16 := by
  have := shr_toNat x (o := 4) (by omega)
  simpa using this

/-- The search for a fat feature. -/
theorem findLoop_ok {F : List (UInt32 × UInt32)} (h : FatOk F) {id : UInt32} (hid : id.toNat < 255) : ∀ (n i : Nat) (tags : UInt32),
    F.length ≤ n → tags.toNat = tagsN n F →
    ∃ k, findLoop id n i tags = (i + k, (lookFat F id).isSome) ∧ k ≤ F.length ∧
      (∀ v, lookFat F id = some v → F[k]? = some (id, v)) ∧ (∀ p ∈ F.take k, p.1 < id) ∧
      (lookFat F id = none → ∀ p ∈ F.drop k, id < p.1) := by
  induction F with
  | nil =>
    intro n i tags _ ht
    refine ⟨0, ?_, by simp, by simp [lookFat], by simp, by simp⟩
    cases n with
    | zero => rfl
    | succ n =>
      have e : tags &&& 255 = 255 := by
        apply UInt32.toNat_inj.1
        rw [and255, ht, tagsN]
        show (256 ^ (n + 1) - 1) % 256 = 255
        rw [Nat.pow_succ]
        have : 0 < 256 ^ n := Nat.pow_pos (by omega)
        omega
      rw [findLoop, e, if_pos (.inl rfl)]
      have : ((255 : UInt32) == id) = false := by
        rw [beq_eq_false_iff_ne]
        intro hc
        rw [← hc] at hid
        revert hid
        decide
      rw [this]
      rfl
  | cons p r ih =>
    intro n i tags hl ht
    cases n with
    | zero => simp at hl
    | succ n =>
      have hp := h.range p List.mem_cons_self
      have hs := List.pairwise_cons.1 h.sorted
      rw [tagsN] at ht
      simp only [Nat.add_sub_cancel] at ht
      have e : tags &&& 255 = p.1 := by
        apply UInt32.toNat_inj.1
        rw [and255, ht]
        omega
      rw [findLoop, e]
      have hne : p.1 ≠ 255 := by
        intro hc
        have := hp.1
        rw [hc] at this
        revert this
        decide
      by_cases hle : id ≤ p.1
      · rw [if_pos (.inr hle)]
        by_cases heq : p.1 = id
        · have e1 : lookFat (p :: r) id = some p.2 := by rw [lookFat, if_pos heq]
          refine ⟨0, ?_, by simp, ?_, by simp, by rw [e1]; simp⟩
          · rw [e1, heq]; simp
          · intro v hv
            rw [e1] at hv
            simp [← heq, ← Option.some.inj hv]
        · have hlt : id < p.1 := by
            rw [UInt32.lt_iff_toNat_lt]
            have h1 := UInt32.le_iff_toNat_le.1 hle
            have h2 : id.toNat ≠ p.1.toNat := fun hc => heq (UInt32.toNat_inj.1 hc).symm
            omega
          have all : ∀ q ∈ p :: r, id < q.1 := by
            intro q hq
            rcases List.mem_cons.1 hq with rfl | hq
            · exact hlt
            · have := hs.1 q hq
              rw [UInt32.lt_iff_toNat_lt] at *
              omega
          have e1 : lookFat (p :: r) id = none := by
            cases hx : lookFat (p :: r) id with
            | none => rfl
            | some v =>
              have := all _ ((lookFat_iff h.sorted id v).1 hx)
              rw [UInt32.lt_iff_toNat_lt] at this
              simp at this
          refine ⟨0, ?_, by simp, by rw [e1]; simp, by simp, fun _ => by simpa using all⟩
          rw [e1]
          simp [heq]
      · have hlt : p.1 < id := by
          rw [UInt32.lt_iff_toNat_lt]
          rw [UInt32.le_iff_toNat_le] at hle
          omega
        rw [if_neg (by rintro (h | h); exact hne h; exact hle h)]
        have hne2 : p.1 ≠ id := by
          intro hc
          rw [hc, UInt32.lt_iff_toNat_lt] at hlt
          omega
        obtain ⟨k, e1, e2, e3, e4, e5⟩ := ih (fatOk_tail h) n (i + 1) (tags >>> 8) (by simpa using hl) (by rw [shr8, ht]; have := hp.1; omega)
        have el : lookFat (p :: r) id = lookFat r id := by rw [lookFat, if_neg hne2]
        refine ⟨k + 1, ?_, by simpa using e2, ?_, ?_, ?_⟩
        · rw [e1, el]
          congr 1
          omega
        · intro v hv
          rw [el] at hv
          simpa using e3 v hv
        · intro q hq
          rw [List.take_succ_cons, List.mem_cons] at hq
          rcases hq with rfl | hq
          · exact hlt
          · exact e4 q hq
        · intro hn q hq
          rw [el] at hn
          rw [List.drop_succ_cons] at hq
          exact e5 hn q hq

theorem tagsN_lt : ∀ (F : List (UInt32 × UInt32)), FatOk F → F.length ≤ 4 → tagsN 4 F < 2 ^ 32 := by
  intro F h hl
  have hr := h.range
  match F with
  | [] => simp [tagsN]
  | [a] => simp only [List.mem_cons, List.not_mem_nil, or_false, forall_eq] at hr; simp [tagsN]; omega
  | [a, b] =>
    simp only [List.mem_cons, List.not_mem_nil, or_false, forall_eq_or_imp, forall_eq] at hr; simp [tagsN]; omega
  | [a, b, c] =>
    simp only [List.mem_cons, List.not_mem_nil, or_false, forall_eq_or_imp, forall_eq] at hr; simp [tagsN]; omega
  | [a, b, c, d] =>
    simp only [List.mem_cons, List.not_mem_nil, or_false, forall_eq_or_imp, forall_eq] at hr; simp [tagsN]; omega
  | a :: b :: c :: d :: e :: t => simp at hl

theorem valsN_lt : ∀ (F : List (UInt32 × UInt32)), FatOk F → valsN F < 16 ^ F.length := by
  intro F
  induction F with
  | nil => simp [valsN]
  | cons p r ih =>
    intro h
    have := ih (fatOk_tail h)
    have hp := (h.range p List.mem_cons_self).2.2
    rw [valsN, List.length_cons, Nat.pow_succ]
    omega

theorem valsN_lt4 {F : List (UInt32 × UInt32)} (h : FatOk F) (hl : F.length ≤ 4) : valsN F < 65536 :=
  Nat.lt_of_lt_of_le (valsN_lt F h) (by
    have : (65536 : Nat) = 16 ^ 4 := by decide
    rw [this]
    exact Nat.pow_le_pow_right (by omega) hl)

theorem size_le {A : Abs} (h : Good A) : A.size ≤ 36 := by
  have := count_le A.b0
  have := h.len
  rw [Abs.size]
  omega

theorem d2_encode {A : Abs} (h : Good A) (n : Nat) : (encode A n).d2.toNat = tagsN 4 A.fat :=
  UInt32.toNat_ofNat_of_lt' (by have := tagsN_lt A.fat h.fat h.len; simpa [UInt32.size] using this)

theorem d3_encode {A : Abs} (h : Good A) {n : Nat} (hn : n ≤ 63) : (encode A n).d3.toNat = infoN n A.fat :=
  UInt32.toNat_ofNat_of_lt' (by have := valsN_lt4 h.fat h.len; simp only [UInt32.size, infoN]; omega)

theorem ssoSize_encode {A : Abs} (h : Good A) {n : Nat} (hn : n ≤ 63) : ssoSize (encode A n) = n := by
  have h1 : ((encode A n).d3 >>> 16).toNat = (encode A n).d3.toNat / 65536 := by
    have := shr_toNat (encode A n).d3 (o := 16) (by omega)
    simpa using this
  rw [ssoSize, UInt32.toNat_and, h1, d3_encode h hn, show (63 : UInt32).toNat = 2 ^ 6 - 1 from rfl, Nat.and_two_pow_sub_one_eq_mod, infoN]
  have := valsN_lt4 h.fat h.len
  omega

theorem fatValue_encode {A : Abs} (h : Good A) {n : Nat} (hn : n ≤ 63) {k : Nat} {id v : UInt32} (hk : A.fat[k]? = some (id, v)) :
    fatValue (encode A n) k = v := by
  have hlt := (List.getElem?_eq_some_iff.1 hk).1
  have hlen := h.len
  apply UInt32.toNat_inj.1
  rw [fatValue, and15, shr_toNat _ (by omega), d3_encode h hn, infoN]
  have hr := h.fat.range
  generalize A.fat = F at *
  match F, k with
  | [a], 0 => simp only [List.mem_cons, List.not_mem_nil, or_false, forall_eq] at hr; simp at hk; subst hk; dsimp only at hr; simp [valsN]; omega
  | [a, b], 0 =>
    simp only [List.mem_cons, List.not_mem_nil, or_false, forall_eq_or_imp, forall_eq] at hr; simp at hk; subst hk; dsimp only at hr; simp [valsN]; omega
  | [a, b], 1 =>
    simp only [List.mem_cons, List.not_mem_nil, or_false, forall_eq_or_imp, forall_eq] at hr; simp at hk; subst hk; dsimp only at hr; simp [valsN]; omega
  | [a, b, c], 0 =>
    simp only [List.mem_cons, List.not_mem_nil, or_false, forall_eq_or_imp, forall_eq] at hr; simp at hk; subst hk; dsimp only at hr; simp [valsN]; omega
  | [a, b, c], 1 =>
    simp only [List.mem_cons, List.not_mem_nil, or_false, forall_eq_or_imp, forall_eq] at hr; simp at hk; subst hk; dsimp only at hr; simp [valsN]; omega
  | [a, b, c], 2 =>
    simp only [List.mem_cons, List.not_mem_nil, or_false, forall_eq_or_imp, forall_eq] at hr; simp at hk; subst hk; dsimp only at hr; simp [valsN]; omega
  | [a, b, c, d], 0 =>
    simp only [List.mem_cons, List.not_mem_nil, or_false, forall_eq_or_imp, forall_eq] at hr; simp at hk; subst hk; dsimp only at hr; simp [valsN]; omega
  | [a, b, c, d], 1 =>
    simp only [List.mem_cons, List.not_mem_nil, or_false, forall_eq_or_imp, forall_eq] at hr; simp at hk; subst hk; dsimp only at hr; simp [valsN]; omega
  | [a, b, c, d], 2 =>
    simp only [List.mem_cons, List.not_mem_nil, or_false, forall_eq_or_imp, forall_eq] at hr; simp at hk; subst hk; dsimp only at hr; simp [valsN]; omega
  | [a, b, c, d], 3 =>
    simp only [List.mem_cons, List.not_mem_nil, or_false, forall_eq_or_imp, forall_eq] at hr; simp at hk; subst hk; dsimp only at hr; simp [valsN]; omega
  | [], k => simp at hlt
  | [a], k + 1 => simp at hlt
  | [a, b], k + 2 => simp at hlt
  | [a, b, c], k + 3 => simp at hlt
  | [a, b, c, d], k + 4 => simp at hlt
  | a :: b :: c :: d :: e :: t, _ => simp at hlen

theorem hasBitTag_encode (A : Abs) (n : Nat) {b : Nat} (hb : b < 32) : hasBitTag (encode A n) b = bitAt A.b0 b := by
  rw [hasBitTag, encode, shr_and_one _ hb, bit_ne_zero]

theorem bitValue_encode (A : Abs) (n : Nat) {b : Nat} (hb : b < 32) : bitValue (encode A n) b = bit (bitAt A.b1 b) := by
  rw [bitValue, encode, shr_and_one _ hb]

theorem findFat_encode {A : Abs} (h : Good A) (n : Nat) {id : UInt32} (hid : id.toNat < 255) :
    ∃ k, findFat (encode A n) id = (k, (lookFat A.fat id).isSome) ∧ k ≤ A.fat.length ∧
      (∀ v, lookFat A.fat id = some v → A.fat[k]? = some (id, v)) ∧ (∀ p ∈ A.fat.take k, p.1 < id) ∧
      (lookFat A.fat id = none → ∀ p ∈ A.fat.drop k, id < p.1) := by
  obtain ⟨k, e, rest⟩ := findLoop_ok h.fat hid 4 0 (encode A n).d2 h.len (d2_encode h n)
  exact ⟨k, by rw [findFat, e, Nat.zero_add], rest⟩

end Blend2D.Feature
