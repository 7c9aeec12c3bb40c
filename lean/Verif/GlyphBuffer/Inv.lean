import Verif.GlyphBuffer.Unique
/-! The invariant of a glyph buffer and the effect of each call on it. -/
namespace Blend2D.GlyphBuffer
open Blend2D.Unicode (Enc charSize)
open Blend2D.Unicode.Spec (codePoint)

/-- What holds between calls. -/
structure Inv (d : Impl) : Prop where
  same : d.info.length = d.content.length
  fits : d.size ≤ d.content.length
  adv : d.flags.advances = true → d.size ≤ d.second.length ∧ d.placed = true
  txt : d.flags.ucs4 = true → d.flags.advances = false

theorem inv_create : Inv create := ⟨rfl, Nat.le_refl _, by simp [create], by simp [create]⟩

theorem newCapacity_ge (n : Nat) : n ≤ newCapacity n := by
  unfold newCapacity; split
  · omega
  · split <;> omega

/-- `ensure_buffer` either succeeds and then the buffer has the capacity, or changes nothing. -/
theorem ensure0_spec (d : Impl) (n : Nat) (m : Malloc) :
    (∃ d', ensure0 d 0 n m = (.success, d') ∧ n ≤ d'.content.length ∧
      (d.info.length = d.content.length → d'.info.length = d'.content.length) ∧
      d'.second = d.second ∧ d'.placed = d.placed ∧ d'.offsets = d.offsets) ∨
    (ensure0 d 0 n m = (.outOfMemory, d) ∧ d.content.length < n ∧
      (m = none ∨ newCapacity n * 16 ≥ 2 ^ 64)) := by
  unfold ensure0
  split
  · exact Or.inl ⟨d, rfl, by assumption, id, rfl, rfl, rfl⟩
  · rename_i h
    simp only
    cases ha : allocate m (newCapacity n) with
    | none =>
      refine Or.inr ⟨rfl, by omega, ?_⟩
      unfold allocate at ha
      split at ha
      · right; assumption
      · left; exact ha
    | some w =>
      refine Or.inl ⟨_, rfl, ?_, ?_, rfl, rfl, rfl⟩
      · simpa using newCapacity_ge n
      · simp

/-- The effect of storing a text. -/
theorem setEncoded_spec (e : Enc) (d : Impl) (src : List UInt8) (n : Nat) (hsrc : n * charSize e ≤ src.length)
    (hcap : n ≤ d.content.length) (hsame : d.info.length = d.content.length) :
    ∃ d' out, setEncoded e d src n = some d' ∧ Spec.Decodes e 0 (src.take (n * charSize e)) out ∧
      d'.size = out.length ∧ out.length ≤ n ∧
      d'.content = out.map (fun p => UInt32.ofNat p.1) ++ d.content.drop out.length ∧
      d'.info = out.map (fun p => UInt32.ofNat p.2) ++ d.info.drop out.length ∧
      d'.flags = { ucs4 := out.length != 0 } ∧
      d'.second = d.second ∧ d'.placed = d.placed ∧ d'.offsets = d.offsets := by
  by_cases he : e = .latin1
  · subst he
    have k : charSize .latin1 = 1 := rfl
    rw [k, Nat.mul_one] at hsrc ⊢
    obtain ⟨d', out, h1, h2, h3, h4, h5, h6⟩ := latin1Loop_spec src n d 0 (by omega) (by omega) hsame
    subst h2
    refine ⟨finishText d' out.length, out, ?_, ?_, rfl, Nat.le_refl _, ?_, ?_, rfl, h6⟩
    · simp [setEncoded, setLatin1, h1]
    · simpa using h3
    · simpa [finishText] using h4
    · simpa [finishText] using h5
  · have hpos := charSize_pos e
    obtain ⟨d', out, h1, h2, h3, h4, h5, h6⟩ := textLoop_spec e he src (n * charSize e) hsrc (n * charSize e + 1) d 0
      { ptr := 0 } (Nat.zero_le _) (by simp) (by simp) (by simp)
      (by simp only [Nat.sub_zero, Nat.zero_add]; rw [Nat.mul_div_cancel _ hpos]; exact hcap) hsame
    have hunfold : setEncoded e d src n = setUnicode e d src (n * charSize e) := by
      cases e
      · exact absurd rfl he
      all_goals rfl
    have hlen : out.length ≤ n := by
      have hb : ∀ {k bs out}, Spec.Decodes e k bs out → out.length * charSize e ≤ bs.length := by
        intro k bs out h
        induction h with
        | done => simp
        | char k c rest out _ _ ih =>
          have a := Unicode.cp_pos false e c
          have b := Unicode.cp_mod false e c
          have : charSize e ≤ (codePoint false e c).length := Nat.le_of_dvd a (Nat.dvd_of_mod_eq_zero b)
          simp only [List.length_cons, List.length_append, Nat.add_mul, Nat.one_mul]; omega
        | lone k c rest out _ _ _ _ _ ih =>
          have a := Unicode.cp_pos false e c
          have b := Unicode.cp_mod false e c
          have : charSize e ≤ (codePoint false e c).length := Nat.le_of_dvd a (Nat.dvd_of_mod_eq_zero b)
          simp only [List.length_cons, List.length_append, Nat.add_mul, Nat.one_mul]; omega
        | bad k b rest out hb _ _ ih =>
          rw [unit_charSize] at hb
          simp only [List.length_cons, List.length_append, Nat.add_mul, Nat.one_mul]; omega
      have := hb h2
      rw [Unicode.win_length _ _ _ hsrc, Nat.sub_zero] at this
      exact Nat.le_of_mul_le_mul_right this hpos
    refine ⟨finishText d' out.length, out, ?_, ?_, rfl, hlen, ?_, ?_, rfl, h6⟩
    · rw [hunfold, setUnicode, h1]; simp
    · simpa using h2
    · simpa [finishText] using h3
    · simpa [finishText] using h4

/-- The glyph ids at address `a`, `a + advance`, … -/
def idsAt (mem : List UInt8) (k : Nat) (advance a : Int) : Nat → List (Option UInt32)
  | 0 => []
  | n + 1 => load mem k a :: idsAt mem k advance (a + advance) n

theorem glyphLoop_spec (mem : List UInt8) (k : Nat) (advance : Int) : ∀ (n : Nat) (d : Impl) (i : Nat) (a : Int)
    (ids : List UInt32), idsAt mem k advance a n = ids.map some → i + n ≤ d.content.length →
    d.info.length = d.content.length →
    ∃ d', glyphLoop mem k advance d i a n = some d' ∧
      d'.content = d.content.take i ++ ids ++ d.content.drop (i + n) ∧
      d'.info = d.info.take i ++ (List.range' i n).map UInt32.ofNat ++ d.info.drop (i + n) ∧
      d'.second = d.second ∧ d'.placed = d.placed ∧ d'.offsets = d.offsets := by
  intro n
  induction n with
  | zero =>
    intro d i a ids h _ _
    have : ids = [] := by simpa [idsAt] using h.symm
    subst this
    exact ⟨d, rfl, by simp, by simp, rfl, rfl, rfl⟩
  | succ n ih =>
    intro d i a ids h h2 h3
    cases ids with
    | nil => simp [idsAt] at h
    | cons v ids =>
      simp only [idsAt, List.map_cons, List.cons.injEq] at h
      unfold glyphLoop
      rw [h.1]
      simp only [Option.bind_eq_bind, Option.bind_some]
      rw [put_spec d i _ _ (by omega) (by omega)]
      simp only [Option.bind_some]
      obtain ⟨d', e1, e4, e5, e6⟩ := ih
        { d with content := d.content.set i v, info := d.info.set i (UInt32.ofNat i) } (i + 1) (a + advance) ids
        h.2 (by simp; omega) (by simpa using h3)
      have hi : i < d.content.length := by omega
      refine ⟨d', e1, ?_, ?_, e6⟩
      · rw [e4, List.take_add_one, List.take_set_of_le (Nat.le_refl i), List.drop_set_of_lt (by omega)]
        simp [hi, Nat.add_assoc, Nat.add_comm 1]
      · rw [e5, List.take_add_one, List.take_set_of_le (Nat.le_refl i), List.drop_set_of_lt (by omega)]
        simp [h3, hi, Nat.add_assoc, Nat.add_comm 1, List.range'_succ]

theorem inv_shape_text {d d' : Impl} {out : List (Nat × Nat)} {n : Nat} (hn : n ≤ d.content.length)
    (hl : out.length ≤ n) (hsame : d.info.length = d.content.length)
    (hs : d'.size = out.length)
    (hc : d'.content = out.map (fun p => UInt32.ofNat p.1) ++ d.content.drop out.length)
    (hi : d'.info = out.map (fun p => UInt32.ofNat p.2) ++ d.info.drop out.length)
    (hf : d'.flags = { ucs4 := out.length != 0 }) : Inv d' := by
  refine ⟨?_, ?_, ?_, by rw [hf]; simp⟩
  · rw [hc, hi]; simp [hsame]
  · rw [hs, hc]; simp
  · rw [hf]; simp

/-- `set_text` keeps the invariant, and its result is a success or a failed allocation that changes nothing. -/
theorem setText_spec (d : Impl) (hd : Inv d) (e : Enc) (src : List UInt8) (size : Option Nat) (n : Nat)
    (hsz : textSize e src size = some n) (hsrc : n * charSize e ≤ src.length) (m : Malloc) :
    (∃ d' out, setText d e src size m = some (.success, d') ∧ Inv d' ∧
      Spec.Decodes e 0 (src.take (n * charSize e)) out ∧ d'.size = out.length ∧
      Spec.items d' = out.map (fun p => (UInt32.ofNat p.1, UInt32.ofNat p.2)) ∧
      d'.flags = { ucs4 := out.length != 0 }) ∨
    (setText d e src size m = some (.outOfMemory, d) ∧ d.content.length < n ∧
      (m = none ∨ newCapacity n * 16 ≥ 2 ^ 64)) := by
  unfold setText
  rw [hsz]
  simp only
  rcases ensure0_spec d n m with ⟨d1, h1, h2, h3, -⟩ | ⟨h1, h2, h3⟩
  · left
    rw [h1]
    simp only
    obtain ⟨d', out, g1, g2, g3, g4, g5, g6, g7, -⟩ := setEncoded_spec e d1 src n hsrc h2 (h3 hd.same)
    refine ⟨d', out, by rw [g1]; rfl, inv_shape_text h2 g4 (h3 hd.same) g3 g5 g6 g7, g2, g3, ?_, g7⟩
    unfold Spec.items
    rw [g3, g5, g6, List.take_left' (by simp), List.take_left' (by simp), List.zip_map']
  · right
    rw [h1]
    exact ⟨rfl, h2, h3⟩

/-- `set_glyphs` and `set_glyphs_from_struct`. -/
theorem setGlyphIds_spec (d : Impl) (hsame : d.info.length = d.content.length) (mem : List UInt8) (k : Nat) (a : Int)
    (size : Nat) (advance : Int) (ids : List UInt32) (hids : idsAt mem k advance a size = ids.map some)
    (hcap : size ≤ d.content.length) :
    ∃ d', setGlyphIds d mem k a size advance = some d' ∧ Inv d' ∧ d'.size = size ∧ d'.flags = {} ∧
      Spec.items d' = ids.zip ((List.range size).map UInt32.ofNat) := by
  obtain ⟨d', h1, h2, h3, -⟩ := glyphLoop_spec mem k advance size d 0 a ids hids (by omega) hsame
  have hl : ids.length = size := by
    have hlen : ∀ n (a : Int), (idsAt mem k advance a n).length = n := by
      intro n; induction n with
      | zero => intro _; rfl
      | succ n ih => intro a; simp [idsAt, ih]
    have := hlen size a
    rw [hids] at this
    simpa using this
  simp only [List.take_zero, List.nil_append, Nat.zero_add] at h2 h3
  refine ⟨{ d' with size := size, flags := {} }, by simp [setGlyphIds, h1], ⟨?_, ?_, by simp, by simp⟩, rfl, rfl, ?_⟩
  · simp only [h2, h3]; simp [hl, hsame]
  · simp only [h2]; simp [hl]
  · simp only [Spec.items, h2, h3]
    rw [List.take_left' hl, List.take_left' (by simp), List.range_eq_range']

theorem inv_clear {d : Impl} (h : Inv d) : Inv (clear d) := by
  unfold clear; split
  · exact h
  · exact ⟨h.same, Nat.zero_le _, by simp, by simp⟩

theorem mapText_inv (F : Face) {d : Impl} (h : Inv d) : ∃ r d', mapText F d = some (r, d') ∧ Inv d' := by
  unfold mapText
  split
  · exact ⟨_, _, rfl, h⟩
  split
  · exact ⟨_, _, rfl, h⟩
  rw [if_pos h.fits]
  have hf := h.fits
  refine ⟨_, _, rfl, ⟨?_, ?_, h.adv, by simp⟩⟩
  · simp only [List.length_append, List.length_map, List.length_take, List.length_drop]
    rw [h.same]; omega
  · simp only [List.length_append, List.length_map, List.length_take, List.length_drop]; omega

theorem writeAdvances_spec (F : Face) {d : Impl} (h : d.size ≤ d.content.length) (h2 : d.size ≤ d.second.length) :
    ∃ d', writeAdvances F d = some d' ∧ d'.second.length = d.second.length ∧
      d' = { d with second := d'.second } ∧
      d'.second.take d.size = (d.content.take d.size).map (fun g => ⟨0, 0, F.advance g, 0⟩) := by
  unfold writeAdvances
  rw [if_pos ⟨h, h2⟩]
  refine ⟨_, rfl, ?_, rfl, ?_⟩
  · simp; omega
  · simp only; rw [List.take_left' (by simp; omega)]

theorem kernRun_spec (F : Face) {d : Impl} (h : d.size ≤ d.content.length) (h2 : d.size ≤ d.second.length) :
    ∃ d', kernRun F d = some d' ∧ d'.second.length = d.second.length ∧
      d' = { d with second := d'.second } ∧
      d'.second.take d.size = (List.range d.size).map (F.kern (d.content.take d.size) (d.second.take d.size)) := by
  unfold kernRun
  rw [if_pos ⟨h, h2⟩]
  refine ⟨_, rfl, ?_, rfl, ?_⟩
  · simp; omega
  · simp only; rw [List.take_left' (by simp)]

theorem ensurePlacement_spec (d : Impl) (m : Malloc) :
    (∃ s, ensurePlacement d m = (.success, { d with second := s, placed := true }) ∧ d.size ≤ s.length) ∨
    (ensurePlacement d m = (.outOfMemory, d) ∧ d.second.length < d.size ∧
      (m = none ∨ newCapacity d.size * 16 ≥ 2 ^ 64)) := by
  unfold ensurePlacement
  split
  · exact Or.inl ⟨d.second, rfl, by assumption⟩
  · simp only
    cases ha : allocate m (newCapacity d.size) with
    | none =>
      refine Or.inr ⟨rfl, by omega, ?_⟩
      unfold allocate at ha
      split at ha
      · right; assumption
      · left; exact ha
    | some w => exact Or.inl ⟨_, rfl, by simpa using newCapacity_ge d.size⟩

/-- After `addAdvances` the placements are there, unless the allocation failed. -/
theorem addAdvances_spec (F : Face) {d : Impl} (h : Inv d) (m : Malloc) :
    (∃ s, addAdvances F d m = some (.success,
        { d with second := s, placed := true, offsets := d.offsets || !d.flags.advances, flags := { d.flags with advances := true } }) ∧
      d.size ≤ s.length ∧
      (d.flags.advances = true → s = d.second) ∧
      (d.flags.advances = false → s.take d.size = (d.content.take d.size).map (fun g => ⟨0, 0, F.advance g, 0⟩))) ∨
    (addAdvances F d m = some (.outOfMemory, d) ∧ d.second.length < d.size ∧
      (m = none ∨ newCapacity d.size * 16 ≥ 2 ^ 64)) := by
  unfold addAdvances
  by_cases hadv : d.flags.advances = true
  · left
    rw [if_pos hadv]
    refine ⟨d.second, ?_, (h.adv hadv).1, fun _ => rfl, by simp [hadv]⟩
    have hp := (h.adv hadv).2
    obtain ⟨sz, ⟨u, i, ug, ad⟩, c, inf, s, p, o⟩ := d
    simp only at hadv hp
    subst hadv hp
    simp
  · rw [if_neg hadv]
    simp only [Bool.not_eq_true] at hadv
    rcases ensurePlacement_spec d m with ⟨s, h1, h2⟩ | ⟨h1, h2⟩
    · left
      rw [h1]
      simp only
      obtain ⟨d', e1, e2, e3, e4⟩ := writeAdvances_spec F (d := { d with second := s, placed := true }) h.fits h2
      rw [e1]
      refine ⟨d'.second, ?_, by rw [e2]; exact h2, by simp [hadv], fun _ => e4⟩
      rw [e3]
      simp [hadv]
    · right
      rw [h1]
      exact ⟨rfl, h2⟩

theorem position_inv (F : Face) (k : Bool) {d : Impl} (h : Inv d) (m : Malloc) :
    ∃ r d', position F k d m = some (r, d') ∧ Inv d' := by
  unfold position
  split
  · exact ⟨_, _, rfl, h⟩
  split
  · exact ⟨_, _, rfl, h⟩
  rename_i hu
  rcases addAdvances_spec F h m with ⟨s, h1, h2, -⟩ | ⟨h1, -⟩
  · rw [h1]
    simp only
    have hI : Inv { d with second := s, placed := true, offsets := d.offsets || !d.flags.advances, flags := { d.flags with advances := true } } :=
      ⟨h.same, h.fits, fun _ => ⟨h2, rfl⟩, fun h => absurd h hu⟩
    cases k
    · exact ⟨_, _, rfl, hI⟩
    · obtain ⟨d', e1, e2, e3, -⟩ := kernRun_spec F hI.fits h2
      rw [if_pos rfl, e1]
      refine ⟨_, _, rfl, ?_⟩
      rw [e3]
      exact ⟨h.same, h.fits, fun _ => ⟨by simpa [e2] using h2, rfl⟩, fun h => absurd h hu⟩
  · rw [h1]
    exact ⟨_, _, rfl, h⟩

theorem shape_inv (F : Face) (k : Bool) {d : Impl} (h : Inv d) (m : Malloc) :
    ∃ r d', shape F k d m = some (r, d') ∧ Inv d' := by
  unfold shape
  obtain ⟨r, d', h1, h2⟩ := mapText_inv F h
  rw [h1]
  cases r
  · exact position_inv F k h2 m
  all_goals exact ⟨_, _, rfl, h2⟩

end Blend2D.GlyphBuffer
