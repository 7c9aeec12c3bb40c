import Verif.NameTable.Text
import Verif.FontData.Lemmas
/-! Selection of the records. -/
namespace Blend2D.NameTable
open Blend2D.FaceMetrics.Spec (word)
open Blend2D.FontData (u16_word)

theorem word_lt {l : List UInt8} {o : Nat} (h : o + 2 ≤ l.length) : word l o < 65536 := by
  have h1 := u16_word h
  rw [Kern.u16, Kern.u8_some (show o < l.length by omega), Kern.u8_some (show o + 1 < l.length by omega)] at h1
  simp at h1
  rw [← h1]
  have := (l[o]).toNat_lt; have := (l[o + 1]).toNat_lt
  omega

theorem record_spec {d : List UInt8} {i : Nat} (h : 6 + 12 * (i + 1) ≤ d.length) :
    record d i = some (Spec.record d i) := by
  unfold record Spec.record
  rw [u16_word (by omega), u16_word (by omega), u16_word (by omega), u16_word (by omega), u16_word (by omega),
    u16_word (by omega)]
  simp only [Option.bind_some, Nat.mul_comm i 12]

theorem record_length {d : List UInt8} {i : Nat} (h : 6 + 12 * (i + 1) ≤ d.length) :
    (Spec.record d i).length < 65536 := word_lt (by omega)

/-- The region of a record and the bytes of its string. -/
theorem region_spec {d : List UInt8} (r : Rec) (hb : word d 4 < d.length) :
    (region r (d.length - word d 4) = none ∧ Spec.bytes d r = none) ∨
    ∃ off s, region r (d.length - word d 4) = some off ∧ Spec.bytes d r = some s ∧
      slice d (word d 4 + off) r.length = some s ∧ s.length = r.length := by
  unfold region Spec.bytes slice
  by_cases h0 : r.length = 0
  · right
    refine ⟨0, [], ?_, by simp [h0], ?_, by simp [h0]⟩
    · simp only [h0, if_true]; rw [if_neg (by omega)]
    · rw [if_pos (by omega), h0]; simp
  · simp only [h0, if_false]
    by_cases h1 : word d 4 + r.offset + r.length ≤ d.length
    · right
      refine ⟨r.offset, _, by rw [if_neg (by omega)], by rw [if_pos h1], by rw [if_pos h1], ?_⟩
      simp; omega
    · left
      exact ⟨by rw [if_pos (by omega)], by rw [if_neg h1]⟩

/-- The score is that of the language and the encoding. -/
theorem score_eq (r : Rec) : score r = if Spec.encoding r = 0 then 0 else Spec.language r * 256 + Spec.encoding r := by
  unfold score Spec.encoding Spec.language
  have hm : r.language &&& 0xFF = r.language % 256 := Nat.and_two_pow_sub_one_eq_mod _ 8
  rw [hm]
  by_cases h0 : r.platform = 0
  · simp [h0]
  · by_cases h1 : r.platform = 1
    · simp only [h1]
      by_cases h2 : r.specific = 0 <;> by_cases h3 : r.language = 0 <;> simp [h2, h3]
    · by_cases h3 : r.platform = 3
      · simp only [h3]
        by_cases s0 : r.specific = 0
        · by_cases l1 : r.language = 0x0409
          · simp [s0, l1]
          · by_cases l2 : r.language = 0x0809
            · simp [s0, l2]
            · by_cases l3 : r.language % 256 = 9 <;> simp [s0, l1, l2, l3]
        · by_cases s1 : r.specific = 1
          · by_cases l1 : r.language = 0x0409
            · simp [s1, l1]
            · by_cases l2 : r.language = 0x0809
              · simp [s1, l2]
              · by_cases l3 : r.language % 256 = 9 <;> simp [s1, l1, l2, l3]
          · simp [s0, s1]
      · simp [h0, h1, h3]

theorem level_pos {r : Rec} {t : List UInt8} (h : Spec.encoding r ≠ 0) : 0 < Spec.level r t := by
  unfold Spec.level; split <;> omega

/-- What is known after the first `n` records. -/
def Inv (d : List UInt8) (n : Nat) (s : Sel) : Prop :=
  ∀ id, match s.best id with
    | none => id ∈ important → ∀ j u, j < n → ¬ Spec.Gives d id j u
    | some (sc, i) => id ∈ important ∧ i < n ∧ ∃ t, Spec.Gives d id i t ∧ sc = Spec.level (Spec.record d i) t ∧
        ∀ j u, j < n → Spec.Gives d id j u →
          Spec.level (Spec.record d j) u ≤ sc ∧ (j < i → Spec.level (Spec.record d j) u < sc)

theorem IsText_unique {p : Nat} {s t u : List UInt8} (hl : s.length < 65536) (h1 : Spec.IsText p s t)
    (h2 : Spec.IsText p s u) : t = u := by
  obtain ⟨r, _, hr⟩ := convert_spec p s hl
  have a := (hr t).2 h1
  have b := (hr u).2 h2
  rw [a] at b; simpa using b

/-- A record that gives nothing leaves the selection as it is. -/
theorem Inv.skip {d : List UInt8} {n : Nat} {s : Sel} (h : Inv d n s) (w : Bool)
    (hn : ∀ id u, id ∈ important → ¬ Spec.Gives d id n u) : Inv d (n + 1) { s with wrong := w } := by
  intro id
  have := h id
  simp only
  split
  · rename_i hb
    rw [hb] at this
    intro hi j u hj
    rcases Nat.lt_succ_iff_lt_or_eq.1 hj with hj | rfl
    · exact this hi j u hj
    · exact hn id u hi
  · rename_i sc i hb
    rw [hb] at this
    obtain ⟨h1, h2, t, h3, h4, h5⟩ := this
    refine ⟨h1, by omega, t, h3, h4, ?_⟩
    intro j u hj hg
    rcases Nat.lt_succ_iff_lt_or_eq.1 hj with hj | rfl
    · exact h5 j u hj hg
    · exact absurd hg (hn id u h1)

/-- A record that gives a text is selected if it is better. -/
theorem Inv.take {d : List UInt8} {n : Nat} {s : Sel} {t : List UInt8} (h : Inv d n s)
    (hi : (Spec.record d n).id ∈ important) (hg : Spec.Gives d (Spec.record d n).id n t)
    (hu : ∀ u, Spec.Gives d (Spec.record d n).id n u → u = t) :
    Inv d (n + 1) (s.take (Spec.record d n).id (Spec.level (Spec.record d n) t) n) := by
  intro id
  by_cases he : id = (Spec.record d n).id
  · subst he
    have hs := h (Spec.record d n).id
    have hp := level_pos (t := t) hg.2.2.1
    unfold Sel.take
    cases hb : s.best (Spec.record d n).id with
    | none =>
      rw [hb] at hs
      rw [if_pos (by unfold Sel.score; rw [hb]; exact hp)]
      simp only [if_true]
      refine ⟨hi, by omega, t, hg, rfl, ?_⟩
      intro j u hj hgj
      rcases Nat.lt_succ_iff_lt_or_eq.1 hj with hj | rfl
      · exact absurd hgj (hs hi j u hj)
      · rw [hu u hgj]; exact ⟨le_rfl, fun h => by omega⟩
    | some q =>
      obtain ⟨sc, i⟩ := q
      rw [hb] at hs
      obtain ⟨h1, h2, t', h3, h4, h5⟩ := hs
      have hsc : s.score (Spec.record d n).id = sc := by unfold Sel.score; rw [hb]
      rw [hsc]
      by_cases hgt : Spec.level (Spec.record d n) t > sc
      · rw [if_pos hgt]
        simp only [if_true]
        refine ⟨hi, by omega, t, hg, rfl, ?_⟩
        intro j u hj hgj
        rcases Nat.lt_succ_iff_lt_or_eq.1 hj with hj | rfl
        · have := (h5 j u hj hgj).1; omega
        · rw [hu u hgj]; exact ⟨le_rfl, fun h => by omega⟩
      · rw [if_neg hgt, hb]
        refine ⟨hi, by omega, t', h3, h4, ?_⟩
        intro j u hj hgj
        rcases Nat.lt_succ_iff_lt_or_eq.1 hj with hj | rfl
        · exact h5 j u hj hgj
        · rw [hu u hgj]; exact ⟨by omega, fun h => by omega⟩
  · have := h id
    have hb : (s.take (Spec.record d n).id (Spec.level (Spec.record d n) t) n).best id = s.best id := by
      unfold Sel.take; split
      · simp [he]
      · rfl
    rw [hb]
    split
    · rename_i hb
      rw [hb] at this
      intro hi j u hj
      rcases Nat.lt_succ_iff_lt_or_eq.1 hj with hj | rfl
      · exact this hi j u hj
      · intro hgj; exact he hgj.2.1.symm
    · rename_i sc i hb
      rw [hb] at this
      obtain ⟨h1, h2, t, h3, h4, h5⟩ := this
      refine ⟨h1, by omega, t, h3, h4, ?_⟩
      intro j u hj hgj
      rcases Nat.lt_succ_iff_lt_or_eq.1 hj with hj | rfl
      · exact h5 j u hj hgj
      · exact (he hgj.2.1.symm).elim

/-- One record is read inside of the table and keeps what is known. -/
theorem step_spec {d : List UInt8} (ha : Spec.Accepted d) {n : Nat} (hn : n < word d 2) {s : Sel} (h : Inv d n s) :
    ∃ s', step d (word d 4) (d.length - word d 4) s n = some s' ∧ Inv d (n + 1) s' ∧
      (s'.wrong = true ↔ s.wrong = true ∨ Spec.Broken d n) := by
  obtain ⟨_, _, _, ha1, ha2⟩ := ha
  have hfit : 6 + 12 * (n + 1) ≤ d.length := by omega
  unfold step
  rw [record_spec hfit]
  simp only [Option.bind_some]
  have hskip : (∀ id u, id ∈ important → ¬ Spec.Gives d id n u) → Inv d (n + 1) s := fun hh => h.skip s.wrong hh
  by_cases hid : (Spec.record d n).id ∈ important
  · have hle : ¬ ((Spec.record d n).id > 26 ∨ (Spec.record d n).id ∉ important) := by
      have : ∀ x ∈ important, x ≤ 26 := by decide
      have := this _ hid
      simp only [hid, not_true_eq_false, or_false]; omega
    rw [if_neg hle]
    rcases region_spec (Spec.record d n) ha2 with ⟨h1, h2⟩ | ⟨off, src, h1, h2, h3, h4⟩
    · rw [h1]
      refine ⟨s, rfl, hskip ?_, ⟨Or.inl, ?_⟩⟩
      · rintro id u _ ⟨_, _, _, x, hx, _⟩
        rw [h2] at hx; cases hx
      · rintro (hw | ⟨_, _, _, x, hx, _⟩)
        · exact hw
        · rw [h2] at hx; cases hx
    · rw [h1]
      simp only
      rw [score_eq]
      by_cases he : Spec.encoding (Spec.record d n) = 0
      · rw [if_pos he, if_pos rfl]
        refine ⟨s, rfl, hskip ?_, ⟨Or.inl, ?_⟩⟩
        · rintro id u _ ⟨_, _, hx, _⟩
          exact hx he
        · rintro (hw | ⟨_, _, hx, _⟩)
          · exact hw
          · exact absurd he hx
      · rw [if_neg he, if_neg (by omega), h3]
        simp only [Option.bind_some]
        have hl : src.length < 65536 := by rw [h4]; exact record_length hfit
        obtain ⟨r, hr, hrt⟩ := convert_spec (Spec.record d n).platform src hl
        rw [hr]
        cases r with
        | none =>
          have hno : ∀ u, ¬ Spec.IsText (Spec.record d n).platform src u := by
            intro u hx'
            have := (hrt u).2 hx'; cases this
          refine ⟨_, rfl, h.skip true ?_, ⟨fun _ => Or.inr ⟨hn, hid, he, src, h2, hno⟩, fun _ => rfl⟩⟩
          rintro id u _ ⟨_, _, _, x, hx, hx'⟩
          rw [h2] at hx
          simp only [Option.some.injEq] at hx
          subst hx
          exact hno u hx'
        | some t =>
          have hg : Spec.Gives d (Spec.record d n).id n t := ⟨hn, rfl, he, src, h2, (hrt t).1 rfl⟩
          have hw : ∀ k, (s.take (Spec.record d n).id k n).wrong = s.wrong := by
            intro k; unfold Sel.take; split <;> rfl
          have := h.take hid hg (fun u hu => by
            obtain ⟨_, _, _, x, hx, hx'⟩ := hu
            rw [h2] at hx
            simp only [Option.some.injEq] at hx
            subst hx
            exact IsText_unique hl hx' ((hrt t).1 rfl))
          refine ⟨_, rfl, this, ?_⟩
          rw [hw]
          refine ⟨Or.inl, ?_⟩
          rintro (hw | ⟨_, _, _, x, hx, hx'⟩)
          · exact hw
          · rw [h2] at hx
            simp only [Option.some.injEq] at hx
            subst hx
            exact absurd ((hrt t).1 rfl) (hx' t)
  · rw [if_pos (Or.inr hid)]
    refine ⟨s, rfl, hskip ?_, ⟨Or.inl, ?_⟩⟩
    · rintro id u hi ⟨_, hx, _⟩
      rw [hx] at hid; exact hid hi
    · rintro (hw | ⟨_, hx, _⟩)
      · exact hw
      · exact absurd hx hid

theorem loop_spec {d : List UInt8} (ha : Spec.Accepted d) : ∀ n, n ≤ word d 2 →
    ∃ s, (List.range n).foldlM (step d (word d 4) (d.length - word d 4)) {} = some s ∧ Inv d n s ∧
      (s.wrong = true ↔ ∃ j, j < n ∧ Spec.Broken d j) := by
  intro n
  induction n with
  | zero => intro _; exact ⟨{}, rfl, fun id => (by intro _ j u hj; omega), by simp⟩
  | succ n ih =>
    intro hn
    obtain ⟨s, h1, h2, hw⟩ := ih (by omega)
    obtain ⟨s', h3, h4, hw'⟩ := step_spec ha (show n < word d 2 by omega) h2
    refine ⟨s', ?_, h4, ?_⟩
    · rw [List.range_succ, List.foldlM_append, h1]
      simp [h3]
    · rw [hw', hw]
      constructor
      · rintro (⟨j, hj, hb⟩ | hb)
        · exact ⟨j, by omega, hb⟩
        · exact ⟨n, by omega, hb⟩
      · rintro ⟨j, hj, hb⟩
        rcases Nat.lt_succ_iff_lt_or_eq.1 hj with hj | rfl
        · exact Or.inl ⟨j, hj, hb⟩
        · exact Or.inr hb

/-- The text of a record that gives one. -/
theorem textOf_spec {d : List UInt8} (ha : Spec.Accepted d) {id i : Nat} {t : List UInt8} (hg : Spec.Gives d id i t) :
    textOf d (word d 4) (d.length - word d 4) i = some (some t) := by
  obtain ⟨_, _, _, ha1, ha2⟩ := ha
  obtain ⟨h1, h2, h3, s, h4, h5⟩ := hg
  have hfit : 6 + 12 * (i + 1) ≤ d.length := by omega
  unfold textOf
  rw [record_spec hfit]
  simp only [Option.bind_some]
  rcases region_spec (Spec.record d i) ha2 with ⟨g1, g2⟩ | ⟨off, src, g1, g2, g3, g4⟩
  · rw [g2] at h4; cases h4
  · rw [g2] at h4
    simp only [Option.some.injEq] at h4
    subst h4
    rw [g1]
    simp only
    rw [g3]
    simp only [Option.bind_some]
    obtain ⟨r, hr, hrt⟩ := convert_spec (Spec.record d i).platform src (by rw [g4]; exact record_length hfit)
    rw [hr, (hrt t).2 h5]

end Blend2D.NameTable
