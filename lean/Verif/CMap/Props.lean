import Verif.CMap.Mapping

/-!
# C45: characters are mapped to the glyphs that the font's 'cmap' table says, without reading outside of it
-/

namespace Blend2D.CMap

open Spec

/-- Text is mapped without reading outside of the table, whatever the bytes of an accepted sub-table are. -/
theorem C45_safe {d : Data} {o format c : Nat} (hv : validate d o = some (.ok (format, c))) (text : List Nat) (ht : ∀ x ∈ text, x < 2 ^ 32) :
    ∃ glyphs, mapText d o format c text = some (some (glyphs, stateOf glyphs)) ∧ glyphs.length = text.length := by
  obtain ⟨⟨gs, s⟩, h1, h2, h3⟩ := mapText_format (validate_ok hv).2.2 (fun _ _ => True) (fun _ _ _ _ => trivial) (fun _ => ⟨fun _ _ => trivial, fun _ _ _ => trivial⟩) text ht
  simp only at h3
  subst h3
  exact ⟨gs, h1, h2.length_eq.symm⟩

/-- Each character of a text is mapped to the glyph that the sub-table gives it, for all formats except format 4. -/
theorem C45_mapping {d : Data} {o format c : Nat} (hv : validate d o = some (.ok (format, c))) (h4 : format ≠ 4)
    (text : List Nat) (ht : ∀ x ∈ text, x < 2 ^ 32) :
    ∃ glyphs, mapText d o format c text = some (some (glyphs, stateOf glyphs)) ∧ List.Forall₂ (Maps d o format) text glyphs := by
  obtain ⟨⟨gs, s⟩, h1, h2, h3⟩ := mapText_format (validate_ok hv).2.2 (Maps d o format) (fun _ _ _ h => h) (fun h => absurd h h4) text ht
  simp only at h3
  subst h3
  exact ⟨gs, h1, h2⟩

/-- Format 4.  Missing: an entry of the glyph array that is zero must stay the missing glyph, but the code adds `idDelta` to it
(`C45_format4_zero_entry`), so such characters are excluded. -/
theorem C45_mapping_format4_partial {d : Data} {o c : Nat} (hv : validate d o = some (.ok (4, c)))
    (text : List Nat) (ht : ∀ x ∈ text, x < 2 ^ 32)
    (hz : ∀ x ∈ text, ∀ i, InSegment d o x i → idRangeOffset d o i ≠ 0 → be16 d (glyphPos d o x i) = 0 → idDelta d o i = 0) :
    ∃ glyphs, mapText d o 4 c text = some (some (glyphs, stateOf glyphs)) ∧ List.Forall₂ (Maps d o 4) text glyphs := by
  obtain ⟨⟨gs, s⟩, h1, h2, h3⟩ := mapText_format (validate_ok hv).2.2
    (fun x g => (∀ i, InSegment d o x i → idRangeOffset d o i ≠ 0 → be16 d (glyphPos d o x i) = 0 → idDelta d o i = 0) → Maps d o 4 x g)
    (fun h => absurd rfl h) (fun _ => ⟨fun uc h _ => .inr ⟨h, rfl⟩, by
      intro uc i hi hd
      refine .inl ⟨i, hi, ?_⟩
      unfold codeGlyph4 segmentGlyph
      by_cases h0 : idRangeOffset d o i = 0
      · rw [if_pos h0, if_pos h0]
      · rw [if_neg h0, if_neg h0]
        by_cases hp : glyphPos d o uc i + 2 ≤ d.length
        · rw [if_pos hp, if_pos hp]
          by_cases hb : be16 d (glyphPos d o uc i) = 0
          · rw [if_pos hb, hb, hd i hi h0 hb]
          · rw [if_neg hb]
        · rw [if_neg hp, if_neg hp]⟩) text ht
  simp only at h3
  subst h3
  refine ⟨gs, h1, ?_⟩
  replace h2 : List.Forall₂ (fun x g => (∀ i, InSegment d o x i → idRangeOffset d o i ≠ 0 → be16 d (glyphPos d o x i) = 0 → idDelta d o i = 0) → Maps d o 4 x g) text gs := h2
  clear h1 ht
  induction h2 with
  | nil => exact .nil
  | cons h _ ih => exact .cons (h (hz _ (by simp))) (ih (fun x hx => hz x (by simp [hx])))

/-- The glyph of a character is unique in an accepted sub-table. -/
theorem C45_unique {d : Data} {o format c : Nat} (hv : validate d o = some (.ok (format, c))) {x g g' : Nat}
    (h : Maps d o format x g) (h' : Maps d o format x g') : g = g' := by
  have hv := (validate_ok hv).2.2
  unfold Valid at hv
  split at hv
  · exact Eq.trans h (Eq.symm h')
  · rcases h with ⟨i, hi, hg⟩ | ⟨hn, hg⟩ <;> rcases h' with ⟨j, hj, hg'⟩ | ⟨hn', hg'⟩
    · have : i = j := hv.sorted.unique ((hv.iff i hi.1).mpr hi.2.1) ((hv.iff j hj.1).mpr hj.2.1) hi.2.2.1 hi.2.2.2 hj.2.2.1 hj.2.2.2
      subst this; rw [hg, hg']
    · exact absurd hi (hn' i)
    · exact absurd hj (hn j)
    · rw [hg, hg']
  · exact Eq.trans h (Eq.symm h')
  · exact Eq.trans h (Eq.symm h')
  · obtain ⟨rfl, _, hs, _⟩ := hv
    rcases h with ⟨i, hi, hg⟩ | ⟨hn, hg⟩ <;> rcases h' with ⟨j, hj, hg'⟩ | ⟨hn', hg'⟩
    · have : i = j := hs.unique hi.1 hj.1 hi.2.1 hi.2.2 hj.2.1 hj.2.2
      subst this; rw [hg, hg']
    · exact absurd hi (hn' i)
    · exact absurd hj (hn j)
    · rw [hg, hg']
  · obtain ⟨rfl, _, hs, _⟩ := hv
    rcases h with ⟨i, hi, hg⟩ | ⟨hn, hg⟩ <;> rcases h' with ⟨j, hj, hg'⟩ | ⟨hn', hg'⟩
    · have : i = j := hs.unique hi.1 hj.1 hi.2.1 hi.2.2 hj.2.1 hj.2.2
      subst this; rw [hg, hg']
    · exact absurd hi (hn' i)
    · exact absurd hj (hn j)
    · rw [hg, hg']
  · exact hv.elim

/-- The validation itself reads inside of the table.  Missing: sub-tables of format 12 or 13 without groups, see `C45_empty_groups_read_outside`. -/
theorem C45_validate_partial (d : Data) (o : Nat) (h : NoEmptyGroups d o) : ∃ r, validate d o = some r := validate_total d o h

/-! ## Coverage -/

/-- The coverage of formats 0, 6 and 10 is the set of characters that have a glyph. -/
theorem C45_coverage_arrays {d : Data} {o format c : Nat} (hv : validate d o = some (.ok (format, c))) (hf : format = 0 ∨ format = 6 ∨ format = 10) :
    ∃ cov, coverage d o format c = some (some cov) ∧ ∀ x, Covers cov x ↔ ∃ g, Maps d o format x g ∧ g ≠ 0 := by
  have hv := (validate_ok hv).2.2
  rcases hf with rfl | rfl | rfl
  · have hv : o + 262 ≤ d.length := hv
    obtain ⟨cs, h1, h2⟩ := coverEach_spec (glyph := fun i => u8 d (o + 6 + i)) (G := fun i => byte d (o + 6 + i)) (first := 0) 256 0 []
      (fun j _ hj => u8_some (by omega))
    refine ⟨{ chars := cs }, by unfold coverage; simp only; rw [h1]; rfl, ?_⟩
    intro x
    unfold Covers
    simp only [List.not_mem_nil, false_and, exists_false, or_false, h2, false_or]
    constructor
    · rintro ⟨j, _, h3, rfl, h4⟩
      exact ⟨_, rfl, by rw [if_pos (by omega), Nat.zero_add]; exact h4⟩
    · rintro ⟨g, rfl, hg⟩
      by_cases hx : x < 256
      · rw [if_pos hx] at hg
        exact ⟨x, by omega, by omega, by omega, hg⟩
      · rw [if_neg hx] at hg; exact absurd rfl hg
  · obtain ⟨rfl, hsz, hfc⟩ := hv
    obtain ⟨cs, h1, h2⟩ := coverage_trimmed (d := d) (array := o + 10) (first := be16 d (o + 6)) (count := be16 d (o + 8)) (by omega)
    refine ⟨{ chars := cs }, by unfold coverage; simp only; rw [u16_some (by omega)]; simp only [Option.bind_eq_bind, Option.bind_some]; rw [h1]; rfl, ?_⟩
    intro x
    unfold Covers
    simp only [List.not_mem_nil, false_and, exists_false, or_false, h2]
    constructor
    · rintro ⟨j, h3, rfl, h4⟩
      refine ⟨_, rfl, ?_⟩
      rw [if_pos ⟨by omega, by omega⟩, Nat.add_sub_cancel_left]
      exact h4
    · rintro ⟨g, rfl, hg⟩
      by_cases hx : be16 d (o + 6) ≤ x ∧ x < be16 d (o + 6) + be16 d (o + 8)
      · rw [if_pos hx] at hg
        exact ⟨x - be16 d (o + 6), by omega, by omega, hg⟩
      · rw [if_neg hx] at hg; exact absurd rfl hg
  · obtain ⟨rfl, hsz, hfc⟩ := hv
    obtain ⟨cs, h1, h2⟩ := coverage_trimmed (d := d) (array := o + 20) (first := be32 d (o + 12)) (count := be32 d (o + 16)) (by omega)
    refine ⟨{ chars := cs }, by unfold coverage; simp only; rw [u32_some (by omega)]; simp only [Option.bind_eq_bind, Option.bind_some]; rw [h1]; rfl, ?_⟩
    intro x
    unfold Covers
    simp only [List.not_mem_nil, false_and, exists_false, or_false, h2]
    constructor
    · rintro ⟨j, h3, rfl, h4⟩
      refine ⟨_, rfl, ?_⟩
      rw [if_pos ⟨by omega, by omega⟩, Nat.add_sub_cancel_left]
      exact h4
    · rintro ⟨g, rfl, hg⟩
      by_cases hx : be32 d (o + 12) ≤ x ∧ x < be32 d (o + 12) + be32 d (o + 16)
      · rw [if_pos hx] at hg
        exact ⟨x - be32 d (o + 12), by omega, by omega, hg⟩
      · rw [if_neg hx] at hg; exact absurd rfl hg

/-- The coverage of format 4 is the set of characters of the segments, as ranges that are not empty. -/
theorem C45_coverage_segments {d : Data} {o c : Nat} (hv : validate d o = some (.ok (4, c))) :
    ∃ cov, coverage d o 4 c = some (some cov) ∧ (∀ r ∈ cov.ranges, r.1 < r.2) ∧ ∀ x, Covers cov x ↔ ∃ i, InSegment d o x i := by
  have hv : Valid4 d o c := (validate_ok hv).2.2
  have hsz := hv.size
  have hle := hv.le
  obtain ⟨cs, h1, h2, h3⟩ := coverRanges_spec (first := first4 d o (segCount d o)) (endOf := fun i => (last4 d o i).map (· + 1))
    (F := startCode d o) (E := fun i => endCode d o i + 1) c 0 0 0 [] (by
      intro j _ hj
      have := hv.sorted.1 j (by omega)
      refine ⟨?_, ?_, by omega⟩
      · unfold first4 startCode
        rw [u16_some (by omega), Nat.mul_comm (segCount d o) 2]
      · unfold last4
        rw [u16_some (by omega)]; rfl) (by omega) (by simp)
  have hno : ∀ x, (∃ i, InSegment d o x i) ↔ ∃ j, 0 ≤ j ∧ j < 0 + c ∧ startCode d o j ≤ x ∧ x < endCode d o j + 1 := by
    intro x
    constructor
    · rintro ⟨i, hi⟩
      exact ⟨i, by omega, by have := (hv.iff i hi.1).mpr hi.2.1; omega, hi.2.2.1, by have := hi.2.2.2; omega⟩
    · rintro ⟨j, _, hj, h4, h5⟩
      exact ⟨j, by omega, (hv.iff j (by omega)).mp (by omega), h4, by omega⟩
  unfold coverage
  simp only
  rw [u16_some (by omega)]
  simp only [Option.bind_eq_bind, Option.bind_some]
  change ∃ cov, (if segCount d o = 0 ∨ c = 0 then some (some ({} : Coverage)) else
    (coverRanges (first4 d o (segCount d o)) (fun i => (last4 d o i).map (· + 1)) c 0 0 0 []).bind fun rs => some (some ({ ranges := rs } : Coverage))) =
      some (some cov) ∧ (∀ r ∈ cov.ranges, r.1 < r.2) ∧ ∀ x, Covers cov x ↔ ∃ i, InSegment d o x i
  by_cases h0 : segCount d o = 0 ∨ c = 0
  · rw [if_pos h0]
    refine ⟨_, rfl, by simp, ?_⟩
    intro x
    rw [hno]
    simp only [Covers, List.not_mem_nil, false_and, exists_false, or_self, false_iff]
    rintro ⟨j, h5, h6, _⟩
    omega
  · rw [if_neg h0, h1]
    refine ⟨_, rfl, h2, ?_⟩
    intro x
    rw [hno]
    simp only [Covers, List.not_mem_nil, false_or, h3, false_and, exists_false]
    constructor
    · rintro (h | h)
      · omega
      · exact h
    · exact .inr

/-- The coverage of formats 12 and 13 is the set of characters of the groups, as ranges that are not empty. -/
theorem C45_coverage_groups {d : Data} {o format c : Nat} (hv : validate d o = some (.ok (format, c))) (hf : format = 12 ∨ format = 13) :
    ∃ cov, coverage d o format c = some (some cov) ∧ (∀ r ∈ cov.ranges, r.1 < r.2) ∧ ∀ x, Covers cov x ↔ ∃ i, InGroup d o x i := by
  have hv := (validate_ok hv).2.2
  have hv : c = groupCount d o ∧ o + 16 + 12 * c ≤ d.length ∧ Sorted (groupFirst d o) (groupLast d o) c ∧ ∀ j, j < c → groupLast d o j ≤ charMax := by
    rcases hf with rfl | rfl <;> exact hv
  obtain ⟨rfl, hsz, hs, hm⟩ := hv
  obtain ⟨cs, h1, h2, h3⟩ := coverRanges_spec (first := first12 d o) (endOf := fun i => (last12 d o i).map fun l => if l ≠ 0xFFFFFFFF then l + 1 else l)
    (F := groupFirst d o) (E := fun i => groupLast d o i + 1) (groupCount d o) 0 0 0 [] (by
      intro j _ hj
      have := hs.1 j (by omega)
      refine ⟨?_, ?_, by omega⟩
      · unfold first12 groupFirst
        rw [u32_some (by omega)]
      · unfold last12
        rw [u32_some (by omega)]
        have hm' := hm j (by omega)
        unfold charMax at hm'
        show some (if groupLast d o j ≠ 0xFFFFFFFF then groupLast d o j + 1 else groupLast d o j) = _
        rw [if_pos (by omega)]) (by omega) (by simp)
  have hno : ∀ x, (∃ i, InGroup d o x i) ↔ ∃ j, 0 ≤ j ∧ j < 0 + groupCount d o ∧ groupFirst d o j ≤ x ∧ x < groupLast d o j + 1 := by
    intro x
    constructor
    · rintro ⟨i, h4, h5, h6⟩
      exact ⟨i, by omega, by omega, h5, by omega⟩
    · rintro ⟨j, _, hj, h4, h5⟩
      exact ⟨j, by omega, h4, by omega⟩
  have hcov : coverage d o format (groupCount d o) = if groupCount d o = 0 then some (some {}) else
      (coverRanges (first12 d o) (fun i => (last12 d o i).map fun l => if l ≠ 0xFFFFFFFF then l + 1 else l) (groupCount d o) 0 0 0 []).bind
        fun rs => some (some { ranges := rs }) := by
    rcases hf with rfl | rfl <;> rfl
  rw [hcov]
  by_cases h0 : groupCount d o = 0
  · rw [if_pos h0]
    refine ⟨_, rfl, by simp, ?_⟩
    intro x
    rw [hno]
    simp only [Covers, List.not_mem_nil, false_and, exists_false, or_self, false_iff]
    rintro ⟨j, h5, h6, _⟩
    omega
  · rw [if_neg h0, h1]
    refine ⟨_, rfl, h2, ?_⟩
    intro x
    rw [hno]
    simp only [Covers, List.not_mem_nil, false_or, h3, false_and, exists_false]
    constructor
    · rintro (h | h)
      · omega
      · exact h
    · exact .inr

/-- Every character that has a glyph is in the coverage, whatever the format is. -/
theorem C45_coverage_complete {d : Data} {o format c : Nat} (hv : validate d o = some (.ok (format, c))) :
    ∃ cov, coverage d o format c = some (some cov) ∧ ∀ x g, Maps d o format x g → g ≠ 0 → Covers cov x := by
  have hv' := (validate_ok hv).2.2
  unfold Valid at hv'
  split at hv'
  · obtain ⟨cov, h1, h2⟩ := C45_coverage_arrays hv (by simp)
    exact ⟨cov, h1, fun x g h h' => (h2 x).mpr ⟨g, h, h'⟩⟩
  · obtain ⟨cov, h1, _, h2⟩ := C45_coverage_segments hv
    refine ⟨cov, h1, fun x g h h' => (h2 x).mpr ?_⟩
    rcases h with ⟨i, hi, _⟩ | ⟨_, hg⟩
    · exact ⟨i, hi⟩
    · exact absurd hg h'
  · obtain ⟨cov, h1, h2⟩ := C45_coverage_arrays hv (by simp)
    exact ⟨cov, h1, fun x g h h' => (h2 x).mpr ⟨g, h, h'⟩⟩
  · obtain ⟨cov, h1, h2⟩ := C45_coverage_arrays hv (by simp)
    exact ⟨cov, h1, fun x g h h' => (h2 x).mpr ⟨g, h, h'⟩⟩
  · obtain ⟨cov, h1, _, h2⟩ := C45_coverage_groups hv (by simp)
    refine ⟨cov, h1, fun x g h h' => (h2 x).mpr ?_⟩
    rcases h with ⟨i, hi, _⟩ | ⟨_, hg⟩
    · exact ⟨i, hi⟩
    · exact absurd hg h'
  · obtain ⟨cov, h1, _, h2⟩ := C45_coverage_groups hv (by simp)
    refine ⟨cov, h1, fun x g h h' => (h2 x).mpr ?_⟩
    rcases h with ⟨i, hi, _⟩ | ⟨_, hg⟩
    · exact ⟨i, hi⟩
    · exact absurd hg h'
  · exact hv'.elim

/-! ## Choice of the sub-table -/

/-- Record `i` has a sub-table of a known kind that was accepted. -/
def Usable (d : Data) (i : Nat) : Prop :=
  i < numRecords d ∧ 0 < rank d i ∧ subtable d i < d.length - 4 ∧ ∃ f c, validate d (subtable d i) = some (.ok (f, c))

theorem score_eq (d : Data) (i : Nat) :
    score (platformId d i) (encodingId d i) (be16 d (subtable d i)) =
      if rank d i = 4 then 0x20000 + encodingId d i else if rank d i = 3 then 0x10000 + encodingId d i else rank d i := by
  unfold rank
  generalize platformId d i = p
  generalize encodingId d i = e
  generalize be16 d (subtable d i) = f
  unfold score
  rcases p with _ | _ | _ | _ | p
  · simp
  · by_cases h : e = 0 ∧ f = 0 <;> simp [h]
  · simp
  · by_cases h0 : e = 0
    · simp [h0]
    · by_cases h1 : e = 1 ∨ e = 10 <;> simp [h0, h1]
  · simp

theorem score_le (d : Data) (i j : Nat) :
    (score (platformId d i) (encodingId d i) (be16 d (subtable d i)) < score (platformId d j) (encodingId d j) (be16 d (subtable d j))) ↔ Preferred d i j := by
  have hi : encodingId d i < 65536 := be16_lt _ _
  have hj : encodingId d j < 65536 := be16_lt _ _
  have ri : rank d i ≤ 4 := by unfold rank; split_ifs <;> omega
  have rj : rank d j ≤ 4 := by unfold rank; split_ifs <;> omega
  rw [score_eq, score_eq]
  unfold Preferred
  split_ifs <;> omega

/-- The best record among the first `k`. -/
def Best (d : Data) (k : Nat) : Option Match → Prop
  | none => ∀ i, i < k → ¬ Usable d i
  | some m => ∃ i, i < k ∧ Usable d i ∧ m.offset = subtable d i ∧ m.score = score (platformId d i) (encodingId d i) (be16 d (subtable d i)) ∧
      validate d m.offset = some (.ok (m.format, m.count)) ∧ (∀ j, j < k → Usable d j → ¬ Preferred d i j) ∧ ∀ j, j < i → Usable d j → Preferred d j i

theorem supported_of_valid {d : Data} {o f c : Nat} (h : validate d o = some (.ok (f, c))) : supported (be16 d o) = true := by
  obtain ⟨rfl, _, hv⟩ := validate_ok h
  unfold Valid at hv
  split at hv <;> simp_all [supported]

theorem best_step (d : Data) (i : Nat) (hn : i < numRecords d) (hsz : 4 + 8 * numRecords d ≤ d.length) (best : Option Match) (hb : Best d i best)
    {r : Option Match} (hr : tryEncoding d i best = some r) : Best d (i + 1) r := by
  unfold tryEncoding at hr
  rw [u32_some (by omega)] at hr
  simp only [Option.bind_eq_bind, Option.bind_some] at hr
  change (if subtable d i ≥ d.length - 4 then _ else _) = _ at hr
  have extend : ¬ Usable d i → Best d (i + 1) best := by
    intro hnu
    match best, hb with
    | none, hb =>
      intro j hj
      rcases Nat.lt_or_ge j i with h | h
      · exact hb j h
      · obtain rfl : j = i := by omega
        exact hnu
    | some m, ⟨j, h1, h2, h3, h4, h5, h6, h7⟩ =>
      refine ⟨j, by omega, h2, h3, h4, h5, ?_, h7⟩
      intro j' hj' hu
      rcases Nat.lt_or_ge j' i with h | h
      · exact h6 j' h hu
      · obtain rfl : j' = i := by omega
        exact absurd hu hnu
  by_cases h1 : subtable d i ≥ d.length - 4
  · rw [if_pos h1] at hr
    cases hr
    exact extend (fun hu => by have := hu.2.2.1; omega)
  rw [if_neg h1, u16_some (by omega), u16_some (by omega), u16_some (i := be32 d (4 + 8 * i + 4)) (by
    have : ¬ subtable d i ≥ d.length - 4 := h1
    unfold subtable at this; omega)] at hr
  simp only [Option.bind_some] at hr
  change (if (!supported (be16 d (subtable d i))) = true then some best
    else if score (platformId d i) (encodingId d i) (be16 d (subtable d i)) > bestScore best then _ else some best) = _ at hr
  by_cases h2 : supported (be16 d (subtable d i)) = false
  · rw [h2] at hr
    simp only [Bool.not_false, if_true] at hr
    cases hr
    refine extend fun hu => ?_
    obtain ⟨f, c, hv⟩ := hu.2.2.2
    rw [supported_of_valid hv] at h2; cases h2
  rw [Bool.not_eq_false] at h2
  rw [h2] at hr
  simp only [Bool.not_true, Bool.false_eq_true, if_false] at hr
  have hrank : 0 < rank d i ↔ 0 < score (platformId d i) (encodingId d i) (be16 d (subtable d i)) := by
    have ri : rank d i ≤ 4 := by unfold rank; split_ifs <;> omega
    rw [score_eq]; split_ifs <;> omega
  split at hr
  · rename_i hgt
    have hpos : 0 < rank d i := hrank.mpr (by omega)
    cases hv : validate d (subtable d i) with
    | none =>
      change (validate d (subtable d i)).bind _ = _ at hr
      rw [hv] at hr; cases hr
    | some e =>
      change (validate d (subtable d i)).bind _ = _ at hr
      rw [hv] at hr
      simp only [Option.bind_some] at hr
      cases e with
      | error e =>
        simp only at hr
        cases hr
        refine extend fun hu => ?_
        obtain ⟨f, c, hv'⟩ := hu.2.2.2
        rw [hv] at hv'; cases hv'
      | ok fc =>
        obtain ⟨f, c⟩ := fc
        simp only at hr
        cases hr
        have hu : Usable d i := ⟨hn, hpos, by omega, f, c, hv⟩
        refine ⟨i, by omega, hu, rfl, rfl, hv, ?_, ?_⟩
        · intro j hj huj hp
          rcases Nat.lt_or_ge j i with h | h
          · match best, hb, hgt with
            | none, hb, _ => exact hb j h huj
            | some m, ⟨b, b1, b2, b3, b4, b5, b6, b7⟩, hgt =>
              simp only [bestScore, b4] at hgt
              have q1 := (score_le d i j).mpr hp
              have q2 : ¬ (_ < _) := fun hlt => b6 j h huj ((score_le d b j).mp hlt)
              omega
          · obtain rfl : j = i := by omega
            have := (score_le d j j).mpr hp
            omega
        · intro j hj huj
          match best, hb, hgt with
          | none, hb, _ => exact absurd huj (hb j hj)
          | some m, ⟨b, b1, b2, b3, b4, b5, b6, b7⟩, hgt =>
            simp only [bestScore, b4] at hgt
            refine (score_le d j i).mp ?_
            have q2 : ¬ (_ < _) := fun hlt => b6 j hj huj ((score_le d b j).mp hlt)
            omega
  · rename_i hgt
    cases hr
    match best, hb, hgt with
    | none, hb, hgt =>
      refine extend fun hu => ?_
      have := hrank.mp hu.2.1
      simp only [bestScore] at hgt
      omega
    | some m, ⟨b, b1, b2, b3, b4, b5, b6, b7⟩, hgt =>
      simp only [bestScore, b4] at hgt
      refine ⟨b, by omega, b2, b3, b4, b5, ?_, b7⟩
      intro j hj huj hp
      rcases Nat.lt_or_ge j i with h | h
      · exact b6 j h huj hp
      · obtain rfl : j = i := by omega
        have := (score_le d b j).mpr hp
        omega

theorem best_loop (d : Data) (hsz : 4 + 8 * numRecords d ≤ d.length) :
    ∀ k i best, i + k = numRecords d → Best d i best → ∀ r, tryEncodings d k i best = some r → Best d (numRecords d) r := by
  intro k
  induction k with
  | zero =>
    intro i best hk hb r hr
    obtain rfl : i = numRecords d := by omega
    cases hr; exact hb
  | succ k ih =>
    intro i best hk hb r hr
    unfold tryEncodings at hr
    cases hs : tryEncoding d i best with
    | none => rw [hs] at hr; simp at hr
    | some b =>
      rw [hs] at hr
      exact ih (i + 1) b (by omega) (best_step d i (by omega) hsz best hb hs) r hr

/-- A font face uses the sub-table of a usable encoding record to which no other usable one is preferred; of equal ones the first.  It maps characters
with it, and it has no character mapping only if no record is usable. -/
theorem C45_choice {d : Data} {r : Option Match} (hsz : 4 + 8 * numRecords d ≤ d.length) (h12 : 12 ≤ d.length) (hr : init d = some r) :
    match r with
    | none => ∀ i, ¬ Usable d i
    | some m => validate d m.offset = some (.ok (m.format, m.count)) ∧
        ∃ i, Usable d i ∧ m.offset = subtable d i ∧ (∀ j, Usable d j → ¬ Preferred d i j) ∧ ∀ j, j < i → Usable d j → Preferred d j i := by
  unfold init at hr
  rw [if_neg (by omega), u16_some (by omega)] at hr
  simp only [Option.bind_eq_bind, Option.bind_some] at hr
  change (if d.length < 4 + numRecords d * 8 then some none else tryEncodings d (numRecords d) 0 none) = _ at hr
  rw [if_neg (by omega)] at hr
  have := best_loop d hsz _ 0 none (by omega) (by intro i hi; omega) r hr
  cases r with
  | none => exact fun i hu => this i hu.1 hu
  | some m =>
    obtain ⟨i, h1, h2, h3, h4, h5, h6, h7⟩ := this
    exact ⟨h5, i, h2, h3, fun j hj => h6 j hj.1 hj, h7⟩

/-- A face never reads outside of its 'cmap' table while it chooses the sub-table.  Missing: sub-tables of format 12 or 13 without groups. -/
theorem C45_init_partial (d : Data) (h : ∀ i, i < numRecords d → NoEmptyGroups d (subtable d i)) : ∃ r, init d = some r := by
  unfold init
  by_cases h1 : d.length < 12
  · rw [if_pos h1]; exact ⟨_, rfl⟩
  rw [if_neg h1, u16_some (by omega)]
  simp only [Option.bind_eq_bind, Option.bind_some]
  change ∃ r, (if d.length < 4 + numRecords d * 8 then some none else tryEncodings d (numRecords d) 0 none) = some r
  by_cases h2 : d.length < 4 + numRecords d * 8
  · rw [if_pos h2]; exact ⟨_, rfl⟩
  rw [if_neg h2]
  have step : ∀ i best, i < numRecords d → ∃ r, tryEncoding d i best = some r := by
    intro i best hi
    unfold tryEncoding
    rw [u32_some (by omega)]
    simp only [Option.bind_eq_bind, Option.bind_some]
    change ∃ r, (if subtable d i ≥ d.length - 4 then some best else _) = some r
    by_cases h3 : subtable d i ≥ d.length - 4
    · rw [if_pos h3]; exact ⟨_, rfl⟩
    rw [if_neg h3, u16_some (by omega), u16_some (by omega), u16_some (i := be32 d (4 + 8 * i + 4)) (by
      have : ¬ subtable d i ≥ d.length - 4 := h3
      unfold subtable at this; omega)]
    simp only [Option.bind_some]
    split
    · exact ⟨_, rfl⟩
    split
    · obtain ⟨e, he⟩ := validate_total d (be32 d (4 + 8 * i + 4)) (h i hi)
      rw [he]
      simp only [Option.bind_some]
      cases e <;> exact ⟨_, rfl⟩
    · exact ⟨_, rfl⟩
  have loop : ∀ k i best, i + k = numRecords d → ∃ r, tryEncodings d k i best = some r := by
    intro k
    induction k with
    | zero => intro i best _; exact ⟨_, rfl⟩
    | succ k ih =>
      intro i best hk
      obtain ⟨b, hb⟩ := step i best (by omega)
      unfold tryEncodings
      rw [hb]
      exact ih (i + 1) b (by omega)
  exact loop _ 0 none (by omega)

/-! ## Concrete tables -/

/-- Big endian bytes of 16-bit and 32-bit numbers. -/
private def w (xs : List Nat) : Data := xs.flatMap fun x => [UInt8.ofNat (x / 256), UInt8.ofNat x]

/-- Format 4 with segments A-C (by delta), a-b (by the glyph array) and the closing mark. -/
private def table4 : Data := w [4, 46, 0, 6, 0, 0, 0, 0x43, 0x62, 0xFFFF, 0, 0x41, 0x61, 0xFFFF, 65536 - 0x40, 5, 1, 0, 4, 0, 7, 0, 0]

/-- Format 12 with the groups A-C and U+1F600 to U+1F601, as the only sub-table of a 'cmap' table with a Windows UCS-4 record, after a Unicode record with
the same sub-table. -/
private def font12 : Data :=
  w [0, 2, 0, 4, 0, 20, 3, 10, 0, 20, 12, 0, 0, 40, 0, 0, 0, 2, 0, 0x41, 0, 0x43, 0, 10, 1, 0xF600, 1, 0xF601, 0, 20]

example : validate table4 0 = some (.ok (4, 2)) := by decide +kernel
example : mapText table4 0 4 2 [0x41, 0x42, 0x44, 0x61, 0xFFFF, 0x43] = some (some ([1, 2, 0, 12, 0, 3], ⟨6, 2, some 2⟩)) := by decide +kernel
example : InSegment table4 0 0x61 1 ∧ segmentGlyph table4 0 0x61 1 = 12 := by unfold InSegment IsMark; decide +kernel
example : coverage table4 0 4 2 = some (some { ranges := [(0x41, 0x44), (0x61, 0x63)] }) := by decide +kernel
example : init font12 = some (some ⟨0x2000A, 12, 20, 2⟩) := by decide +kernel
example : mapText font12 20 12 2 [0x1F601, 0x41, 0x40, 0x43] = some (some ([21, 10, 0, 12], ⟨4, 1, some 2⟩)) := by decide +kernel
example : NoEmptyGroups font12 20 := by unfold NoEmptyGroups; decide +kernel

/-- The entry of the glyph array for character b of `table4` is zero: the character has no glyph, but it is mapped to glyph 5. -/
theorem C45_format4_zero_entry :
    validate table4 0 = some (.ok (4, 2)) ∧ Maps table4 0 4 0x62 0 ∧ mapText table4 0 4 2 [0x62] = some (some ([5], ⟨1, 0, none⟩)) := by
  refine ⟨by decide +kernel, .inl ⟨1, by unfold InSegment IsMark; decide +kernel, by decide +kernel⟩, by decide +kernel⟩

/-- Format 12 with no groups, at the end of the table: the validation reads the first group, which is outside of the table. -/
theorem C45_empty_groups_read_outside : validate (w [12, 0, 0, 16, 0, 0, 0, 0]) 0 = none := by decide +kernel

/-- A well-formed table of format 6 with two glyphs has 14 bytes; it is rejected because 24 are demanded. -/
theorem C45_format6_rejected : validate (w [6, 14, 0, 0x41, 2, 3, 4]) 0 = some (.error .invalidData) := by decide +kernel

end Blend2D.CMap
