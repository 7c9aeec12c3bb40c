import Verif.CMap.Valid

namespace Blend2D.CMap

open Spec

/-! ## Text -/

/-- Mapping of text with a relation that may be weaker than the specification. -/
def MapsText (P : Nat → Nat → Prop) (d : Data) (o format c : Nat) (text : List Nat) : Prop :=
  ∃ r, mapText d o format c text = some (some r) ∧ Mapped P text r

theorem mapEach_top {glyph : Nat → Option Nat} {P : Nat → Nat → Prop} (hP : ∀ uc, uc < 4294967296 → ∃ g, glyph uc = some g ∧ P uc g)
    (text : List Nat) (ht : ∀ c ∈ text, c < 4294967296) : ∃ r, mapEach glyph text {} [] = some r ∧ Mapped P text r := by
  have := mapEach_spec hP text [] [] ht .nil
  exact this

theorem mapRanges_top {search : Nat → Option (Option (Nat × Nat × Nat))} {glyph : Nat → Nat → Nat → Option Nat} {F L : Nat → Nat} {n : Nat}
    {P : Nat → Nat → Prop}
    (hsearch : ∀ uc, ∃ r, search uc = some r ∧ Found F L n uc r)
    (hnone : ∀ uc, Found F L n uc none → P uc 0)
    (hsome : ∀ uc m f l, Found F L n uc (some (m, f, l)) → ∃ g, glyph m f uc = some g ∧ P uc g) (text : List Nat) :
    ∃ r, mapRanges search glyph none text {} [] = some r ∧ Mapped P text r := by
  have := mapRanges_spec hsearch hnone hsome text none [] [] (by simp) .nil
  exact this

theorem sub32_lt {c first count : Nat} (hc : c < 4294967296) (hfc : first + count ≤ charMax) :
    (sub32 c first < count ↔ first ≤ c ∧ c < first + count) ∧ (first ≤ c → sub32 c first = c - first) := by
  unfold charMax at hfc
  unfold sub32
  refine ⟨⟨?_, ?_⟩, ?_⟩ <;> intros <;> omega

theorem trimmed_spec {d : Data} {array first count c : Nat} (hc : c < 4294967296) (hfc : first + count ≤ charMax) (hsz : array + 2 * count ≤ d.length) :
    glyphTrimmed d array first count c = some (if first ≤ c ∧ c < first + count then be16 d (array + 2 * (c - first)) else 0) := by
  obtain ⟨h1, h2⟩ := sub32_lt hc hfc
  unfold glyphTrimmed
  by_cases h : sub32 c first < count
  · have h' := h1.mp h
    rw [if_pos h, if_pos h', h2 h'.1, u16_some (by omega)]
  · rw [if_neg h, if_neg (fun hx => h (h1.mpr hx))]

theorem search4 {d : Data} {o c : Nat} (hv : Valid4 d o c) (uc : Nat) :
    ∃ r, find (first4 d o (segCount d o)) (last4 d o) uc (c + 1) c 0 = some r ∧ Found (startCode d o) (endCode d o) c uc r := by
  have h1 := hv.size
  have h2 := hv.le
  refine find_top uc ?_ ?_ hv.sorted
  · intro i hi
    unfold first4 startCode
    rw [u16_some (by omega), Nat.mul_comm (segCount d o) 2]
  · intro i hi
    unfold last4 endCode
    rw [u16_some (by omega)]

theorem search12 {d : Data} {o c : Nat} (hsz : o + 16 + 12 * c ≤ d.length) (hs : Sorted (groupFirst d o) (groupLast d o) c) (uc : Nat) :
    ∃ r, find (first12 d o) (last12 d o) uc (c + 1) c 0 = some r ∧ Found (groupFirst d o) (groupLast d o) c uc r := by
  refine find_top uc ?_ ?_ hs
  · intro i hi
    unfold first12 groupFirst
    rw [u32_some (by omega)]
  · intro i hi
    unfold last12 groupLast
    rw [u32_some (by omega)]

/-- What the code computes for a character of a segment of format 4. -/
def codeGlyph4 (d : Data) (o c i : Nat) : Nat :=
  if idRangeOffset d o i = 0 then (c + idDelta d o i) % 65536
  else if glyphPos d o c i + 2 ≤ d.length then (be16 d (glyphPos d o c i) + idDelta d o i) % 65536
  else 0

theorem glyph4_spec {d : Data} {o c m uc : Nat} (hv : Valid4 d o c) (hm : m < c) :
    glyph4 d o (segCount d o) m (startCode d o m) uc = some (codeGlyph4 d o uc m) := by
  have h1 := hv.size
  have h2 := hv.le
  unfold glyph4 offset4 delta4 value4
  rw [u16_some (by omega), u16_some (i := o + 16 + segCount d o * 4 + 2 * m) (by omega)]
  have e1 : be16 d (o + 16 + segCount d o * 6 + 2 * m) = idRangeOffset d o m := by
    unfold idRangeOffset; rw [Nat.mul_comm (segCount d o) 6]
  have e2 : be16 d (o + 16 + segCount d o * 4 + 2 * m) = idDelta d o m := by
    unfold idDelta; rw [Nat.mul_comm (segCount d o) 4]
  simp only [Option.bind_eq_bind, Option.bind_some, e1, e2]
  unfold codeGlyph4
  by_cases h0 : idRangeOffset d o m = 0
  · rw [if_pos h0, if_neg (by omega), if_neg (by omega)]; rfl
  · rw [if_neg h0]
    have e3 : o + 14 + 2 * m + (2 + segCount d o * 6 + (uc - startCode d o m) * 2 + idRangeOffset d o m) = glyphPos d o uc m := by
      unfold glyphPos; omega
    have hpos : glyphPos d o uc m = (o + 16 + 6 * segCount d o + 2 * m) + idRangeOffset d o m + 2 * (uc - startCode d o m) := rfl
    by_cases hin : glyphPos d o uc m + 2 ≤ d.length
    · rw [if_pos hin, if_neg (by omega), if_pos h0, e3, u16_some hin]; rfl
    · rw [if_neg hin, if_pos ⟨h0, by omega⟩]

theorem mapText_format {d : Data} {o format c : Nat} (hv : Valid d o format c) (P : Nat → Nat → Prop)
    (hP : format ≠ 4 → ∀ uc g, Maps d o format uc g → P uc g)
    (hP4 : format = 4 → (∀ uc, (∀ i, ¬ InSegment d o uc i) → P uc 0) ∧ ∀ uc i, InSegment d o uc i → P uc (codeGlyph4 d o uc i))
    (text : List Nat) (ht : ∀ x ∈ text, x < 4294967296) : MapsText P d o format c text := by
  unfold Valid at hv
  split at hv
  · -- format 0
    have hv : o + 262 ≤ d.length := hv
    obtain ⟨r, h1, h2⟩ := mapEach_top (glyph := glyph0 d o) (P := P) (by
      intro uc _
      refine ⟨if uc < 256 then byte d (o + 6 + uc) else 0, ?_, hP (by decide) _ _ rfl⟩
      unfold glyph0
      by_cases h : uc < 256
      · rw [if_pos h, if_pos h, u8_some (by omega)]
      · rw [if_neg h, if_neg h]) text ht
    exact ⟨r, by show (mapEach (glyph0 d o) text {} []).map some = _; rw [h1]; rfl, h2⟩
  · -- format 4
    obtain ⟨hn, hs⟩ := hP4 rfl
    obtain ⟨r, h1, h2⟩ := mapRanges_top (P := P) (glyph := glyph4 d o (segCount d o)) (search4 hv) (by
      intro uc hf
      apply hn
      rintro i ⟨h1, h2, h3⟩
      exact hf i ((hv.iff i h1).mpr h2) h3) (by
      rintro uc m f l ⟨h1, rfl, rfl, h3⟩
      refine ⟨_, glyph4_spec hv h1, hs uc m ⟨?_, ?_, h3⟩⟩
      · have := hv.le; omega
      · have := hv.le
        exact (hv.iff m (by omega)).mp h1) text
    refine ⟨r, ?_, h2⟩
    show (u16 d (o + 6)).bind (fun x => (mapRanges (fun uc => find (first4 d o (x / 2)) (last4 d o) uc (c + 1) c 0) (glyph4 d o (x / 2)) none text {} []).map some) = _
    have := hv.size
    rw [u16_some (by omega)]
    show (mapRanges (fun uc => find (first4 d o (segCount d o)) (last4 d o) uc (c + 1) c 0) (glyph4 d o (segCount d o)) none text {} []).map some = _
    rw [h1]; rfl
  · -- format 6
    obtain ⟨rfl, hsz, hfc⟩ := hv
    obtain ⟨r, h1, h2⟩ := mapEach_top (P := P) (fun uc huc =>
      ⟨_, trimmed_spec (d := d) (array := o + 10) (first := be16 d (o + 6)) (count := be16 d (o + 8)) huc (by unfold charMax; omega) (by omega), hP (by decide) _ _ rfl⟩) text ht
    refine ⟨r, ?_, h2⟩
    show (u16 d (o + 6)).bind (fun x => (u16 d (o + 8)).bind (fun y => (mapEach (glyphTrimmed d (o + 10) x y) text {} []).map some)) = _
    rw [u16_some (by omega), u16_some (by omega)]
    simp only [Option.bind_some]
    rw [h1]; rfl
  · -- format 10
    obtain ⟨rfl, hsz, hfc⟩ := hv
    obtain ⟨r, h1, h2⟩ := mapEach_top (P := P) (fun uc huc =>
      ⟨_, trimmed_spec (d := d) (array := o + 20) (first := be32 d (o + 12)) (count := be32 d (o + 16)) huc (by omega) (by omega), hP (by decide) _ _ rfl⟩) text ht
    refine ⟨r, ?_, h2⟩
    show (u32 d (o + 12)).bind (fun x => (u32 d (o + 16)).bind (fun y => (mapEach (glyphTrimmed d (o + 20) x y) text {} []).map some)) = _
    rw [u32_some (by omega), u32_some (by omega)]
    simp only [Option.bind_some]
    rw [h1]; rfl
  · -- format 12
    obtain ⟨rfl, hsz, hs, _⟩ := hv
    obtain ⟨r, h1, h2⟩ := mapRanges_top (P := P) (glyph := glyphGroup 12 d o) (search12 hsz hs) (by
      intro uc hf
      refine hP (by decide) _ _ (.inr ⟨?_, rfl⟩)
      rintro i ⟨h1, h2⟩
      exact hf i h1 h2) (by
      rintro uc m f l ⟨h1, rfl, rfl, h3⟩
      refine ⟨(groupGlyph d o m + (uc - groupFirst d o m)) % 65536, ?_, hP (by decide) _ _ (.inl ⟨m, ⟨h1, h3⟩, rfl⟩)⟩
      unfold glyphGroup glyph12
      rw [u32_some (by omega)]
      show some ((groupGlyph d o m + uc - groupFirst d o m) % 65536) = _
      rw [show groupGlyph d o m + uc - groupFirst d o m = groupGlyph d o m + (uc - groupFirst d o m) by omega]) text
    refine ⟨r, ?_, h2⟩
    show (mapRanges (fun uc => find (first12 d o) (last12 d o) uc (groupCount d o + 1) (groupCount d o) 0) (glyphGroup 12 d o) none text {} []).map some = _
    rw [h1]; rfl
  · -- format 13
    obtain ⟨rfl, hsz, hs, _⟩ := hv
    obtain ⟨r, h1, h2⟩ := mapRanges_top (P := P) (glyph := glyphGroup 13 d o) (search12 hsz hs) (by
      intro uc hf
      refine hP (by decide) _ _ (.inr ⟨?_, rfl⟩)
      rintro i ⟨h1, h2⟩
      exact hf i h1 h2) (by
      rintro uc m f l ⟨h1, rfl, rfl, h3⟩
      refine ⟨groupGlyph d o m % 65536, ?_, hP (by decide) _ _ (.inl ⟨m, ⟨h1, h3⟩, rfl⟩)⟩
      unfold glyphGroup glyph12
      rw [u32_some (by omega)]
      rfl) text
    refine ⟨r, ?_, h2⟩
    show (mapRanges (fun uc => find (first12 d o) (last12 d o) uc (groupCount d o + 1) (groupCount d o) 0) (glyphGroup 13 d o) none text {} []).map some = _
    rw [h1]; rfl
  · exact hv.elim

/-! ## Coverage -/

theorem coverage_trimmed {d : Data} {array first count : Nat} (hsz : array + 2 * count ≤ d.length) :
    ∃ cs, coverEach (fun i => u16 d (array + 2 * i)) first count 0 [] = some cs ∧
      ∀ c, c ∈ cs ↔ ∃ j, j < count ∧ c = first + j ∧ be16 d (array + 2 * j) ≠ 0 := by
  obtain ⟨cs, h1, h2⟩ := coverEach_spec (glyph := fun i => u16 d (array + 2 * i)) (G := fun i => be16 d (array + 2 * i)) (first := first) count 0 []
    (fun j _ hj => u16_some (by omega))
  refine ⟨cs, h1, fun c => ?_⟩
  rw [h2]
  simp

end Blend2D.CMap
