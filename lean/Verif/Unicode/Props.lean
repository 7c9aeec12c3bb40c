import Verif.Unicode.Convert
/-!
# C07 (text conversion is faithful) and C08 (text code stays inside its buffers)
-/
namespace Blend2D.Unicode
open Bits Spec

/-! ## C08 -/

/-- **C08** (readers).  With something left to read, `next` reads only inside the text whatever the bytes are,
in every mode; on success it consumed at least one whole unit and stays inside the text, on error the reader
has not moved. -/
theorem C08_next_safe (e : Enc) (he : e ≠ .latin1) (f : Flags) (src : List UInt8) (stop : Nat) (r : Reader)
    (hstop : stop ≤ src.length) (hlt : r.ptr < stop) (hal : (stop - r.ptr) % charSize e = 0) :
    ∃ res uc n r', next e f src stop r = some (res, uc, n, r') ∧
      ((res = .success ∧ r'.ptr = r.ptr + n ∧ 0 < n ∧ r'.ptr ≤ stop ∧ (stop - r'.ptr) % charSize e = 0 ∧ uc.toNat ≤ 0x10FFFF) ∨
       ((res = .invalidString ∨ res = .dataTruncated) ∧ r' = r)) := by
  rcases next_spec e he f src stop r hstop hlt hal with ⟨c, hr, hp, hn⟩ | ⟨err, u, n, herr, hn, _⟩
  · have hlen := prefix_le hstop hp (cp_pos _ _ _)
    have hpos := cp_pos f.swap e c
    have hptr := okStep_ptr f e r c
    have hmod := cp_mod f.swap e c
    have hres := okStep_res f e r c
    have hnl := okStep_len f e r c
    have huc := okStep_uc f e r c
    obtain ⟨S, hS⟩ : ∃ S, S = okStep f e r c := ⟨_, rfl⟩
    rw [← hS] at hptr hres hnl huc hn
    obtain ⟨a1, a2, a3, a4⟩ := S
    clear hS
    simp only at hptr hres hnl huc
    refine ⟨_, _, _, _, hn, Or.inl ⟨hres, by rw [hptr, hnl], by rw [hnl]; exact hpos, by rw [hptr]; exact hlen, ?_, ?_⟩⟩
    · rw [hptr]
      have : stop - r.ptr = (stop - (r.ptr + (codePoint f.swap e c).length)) + (codePoint f.swap e c).length := by omega
      rw [this, Nat.add_mod, hmod] at hal
      simpa using hal
    · rw [huc]; have := hr.1; simp; omega
  · exact ⟨err, u, n, r, hn, Or.inr ⟨herr, rfl⟩⟩

example : next .utf8 {} [0xF0, 0x9F] 2 { ptr := 0 } = some (.dataTruncated, 0x2E, 4, { ptr := 0 }) := by decide
example : next .utf8 {} [0x41, 0xC3, 0xA9] 3 { ptr := 1 } = some (.success, 0xE9, 2, { ptr := 3 }) := by decide

/-- **C08** (writers).  A write of any code point stores only inside the destination: it either advances by the
length of the encoded form, or reports `NO_SPACE_LEFT` and changes nothing, exactly when the form does not fit. -/
theorem C08_write_safe (e : Enc) (he : e ≠ .latin1) (w : Writer) (uc : UInt32) (hmax : uc.toNat ≤ 0x10FFFF)
    (hs : w.stop * charSize e ≤ w.mem.length) (hp : w.ptr ≤ w.stop) :
    ∃ res w', write e w uc = some (res, w') ∧ w'.stop = w.stop ∧ w'.ptr ≤ w'.stop ∧ w'.mem.length = w.mem.length ∧
      ((res = .success ∧ w'.ptr * charSize e = w.ptr * charSize e + (codePoint false e uc.toNat).length ∧
          w'.mem = w.mem.take (w.ptr * charSize e) ++ codePoint false e uc.toNat ++ w.mem.drop (w'.ptr * charSize e)) ∨
       (res = .noSpaceLeft ∧ w' = w ∧
          w.stop * charSize e < w.ptr * charSize e + (codePoint false e uc.toNat).length)) := by
  rcases write_spec e he w uc uc.toNat rfl hmax hs hp with ⟨hfit, p', h1, h2, h3⟩ | ⟨hno, h3⟩
  · refine ⟨_, _, h3, rfl, h2, over_length _ _ _ (by omega), Or.inl ⟨rfl, h1, ?_⟩⟩
    unfold over; rw [h1]
  · exact ⟨_, _, h3, rfl, hp, rfl, Or.inr ⟨rfl, rfl, hno⟩⟩

example : write .utf8 ⟨[0, 0, 0], 1, 3⟩ 0xE9 = some (.success, ⟨[0, 0xC3, 0xA9], 3, 3⟩) := by decide
example : write .utf8 ⟨[0, 0], 1, 2⟩ 0xE9 = some (.noSpaceLeft, ⟨[0, 0], 1, 2⟩) := by decide

/-! ## C07: validation -/

/-- **C07** (validation, what is reported).  Whatever the bytes are, the three reported indexes are the sizes, in
UTF-8 bytes, UTF-16 units and code points, of the longest prefix of the text that is well-formed; the result is
success exactly if that prefix is everything. -/
theorem C07_validate_reports_prefix (e : Enc) (src : List UInt8) :
    ∃ res st cs rest, validateUnicode e src = some (res, st) ∧ (∀ c ∈ cs, Carried e c) ∧ src = text e cs ++ rest ∧
      st.utf8 = (text .utf8 cs).length ∧ 2 * st.utf16 = (text .utf16 cs).length ∧ 4 * st.utf32 = (text .utf32 cs).length ∧
      (res = .success ↔ rest = []) ∧ (∀ c, Carried e c → ¬ codePoint false e c <+: rest) := by
  have hconv : ∀ cs, (⟨n8 cs, n16 cs, cs.length⟩ : ValidationState).utf8 = (text .utf8 cs).length ∧
      2 * (⟨n8 cs, n16 cs, cs.length⟩ : ValidationState).utf16 = (text .utf16 cs).length ∧
      4 * (⟨n8 cs, n16 cs, cs.length⟩ : ValidationState).utf32 = (text .utf32 cs).length := by
    intro cs; rw [text_length8, text_length16, text_length32]; exact ⟨rfl, rfl, rfl⟩
  have hnil : ∀ e c, ¬ codePoint false e c <+: ([] : List UInt8) := by
    intro e c h; have h1 := h.length_le; have h2 := cp_pos false e c; rw [List.length_nil] at h1; omega
  by_cases he : e = .latin1
  · subst he
    refine ⟨_, _, src.map UInt8.toNat, [], rfl, ?_, by rw [latin1_text]; simp, ?_, ?_, ?_, by simp [validateLatin1],
      fun c _ => hnil _ c⟩
    · intro c hc
      obtain ⟨b, _, rfl⟩ := List.mem_map.1 hc
      exact b.toNat_lt
    · have := extra_spec src 0
      rw [text_length8]
      simp only [validateLatin1]
      simp only [n8] at this
      omega
    · rw [text_length16]; have := n16_bytes src; simp only [n16] at this; rw [this]
    · rw [text_length32]; simp [validateLatin1]
  · have hcs := charSize_pos e
    -- the common part for the three readers
    have core : ∀ (trunc : Bool), (trunc = true ↔ src.length % charSize e ≠ 0) →
        ∀ res cs rest, (∀ c ∈ cs, Accepts e c) →
        src.take (alignDown src.length (charSize e)) = text e cs ++ rest →
        ((res = .success ∧ rest = []) ∨ ((res = .invalidString ∨ res = .dataTruncated) ∧ rest ≠ [] ∧
          (∀ c, Accepts e c → ¬ codePoint false e c <+: rest))) →
        ∃ rest', src = text e cs ++ rest' ∧
          ((if (decide (res = .success) && trunc) = true then Result.dataTruncated else res) = .success ↔ rest' = []) ∧
          (∀ c, Carried e c → ¬ codePoint false e c <+: rest') := by
      intro trunc htr res cs rest hacc htake hres
      have hsplit := List.take_append_drop (alignDown src.length (charSize e)) src
      have htl : (src.drop (alignDown src.length (charSize e))).length = src.length % charSize e := by
        rw [List.length_drop]
        have := Nat.div_add_mod src.length (charSize e)
        unfold alignDown; rw [Nat.mul_comm] at this; omega
      have hlt := Nat.mod_lt src.length hcs
      refine ⟨rest ++ src.drop (alignDown src.length (charSize e)), ?_, ?_, ?_⟩
      · rw [← List.append_assoc, ← htake, hsplit]
      · rcases hres with ⟨h1, h2⟩ | ⟨h1, h2, h3⟩
        · subst h1 h2
          cases trunc
          · have : src.length % charSize e = 0 := by
              by_cases h : src.length % charSize e = 0
              · exact h
              · exact absurd (htr.2 h) (by simp)
            rw [this] at htl
            simp [List.length_eq_zero_iff.1 htl]
          · have := htr.1 rfl
            rw [← htl] at this
            simp only [decide_true, Bool.and_self, if_true, List.nil_append]
            constructor
            · intro h; exact absurd h (by simp)
            · intro h; rw [h] at this; simp at this
        · have : ¬ res = .success := by rcases h1 with h | h <;> rw [h] <;> simp
          simp [this, h2]
      · intro c hc hp
        rw [carried_iff e he] at hc
        have hm := cp_mod false e c
        have hpos := cp_pos false e c
        -- the rest is a whole number of units followed by less than one unit
        have hrm : rest.length % charSize e = 0 := by
          have h1 := congrArg List.length htake
          rw [List.length_append, List.length_take, Nat.min_eq_left (alignDown_le _ _)] at h1
          have h2 := alignDown_mod src.length (charSize e)
          have h3 := text_mod e cs
          rw [h1, Nat.add_mod, h3] at h2
          simpa using h2
        have hlen := hp.length_le
        rw [List.length_append, htl] at hlen
        -- hence the code point fits into `rest`
        have hfit : (codePoint false e c).length ≤ rest.length := by
          have d1 := Nat.div_add_mod (codePoint false e c).length (charSize e)
          have d2 := Nat.div_add_mod rest.length (charSize e)
          rw [hm] at d1; rw [hrm] at d2
          by_cases hlt2 : rest.length / charSize e < (codePoint false e c).length / charSize e
          · have hmul : charSize e * (rest.length / charSize e + 1) ≤
                charSize e * ((codePoint false e c).length / charSize e) := Nat.mul_le_mul_left _ hlt2
            rw [Nat.mul_add] at hmul
            omega
          · have hmul : charSize e * ((codePoint false e c).length / charSize e) ≤ charSize e * (rest.length / charSize e) :=
              Nat.mul_le_mul_left _ (by omega)
            omega
        have hp2 : codePoint false e c <+: rest := List.prefix_of_prefix_length_le hp (List.prefix_append _ _) hfit
        rcases hres with ⟨_, h2⟩ | ⟨_, _, h3⟩
        · rw [h2] at hfit; simp at hfit; rw [hfit] at hpos; simp at hpos
        · exact h3 c hc hp2
    obtain ⟨res, cs, rest, h1, h2, h3, h4⟩ := validateString_spec e he src
    have h4' : ((res = .success ∧ rest = []) ∨ ((res = .invalidString ∨ res = .dataTruncated) ∧ rest ≠ [] ∧
          (∀ c, Accepts e c → ¬ codePoint false e c <+: rest))) := by
      rcases h4 with h | ⟨a, b, c, _⟩
      · exact Or.inl h
      · exact Or.inr ⟨a, b, c⟩
    have hcar : ∀ c ∈ cs, Carried e c := fun c hc => (carried_iff e he c).2 (h2 c hc)
    obtain ⟨i1, i2, i3⟩ := hconv cs
    obtain ⟨rest', g1, g2, g3⟩ := core (decide (src.length % charSize e ≠ 0)) (by simp) res cs rest h2 h3 h4'
    refine ⟨_, _, cs, rest', ?_, hcar, g1, i1, i2, i3, g2, g3⟩
    cases e
    · exact absurd rfl he
    · simp only [validateUnicode, h1, charSize, Nat.mod_one]
      simp
    all_goals
      simp only [validateUnicode, h1, Option.bind_eq_bind, Option.bind_some, charSize]
      split <;> rename_i hx <;> simp_all

example : validateUnicode .utf8 [0x41, 0xC3, 0xA9, 0xFF, 0x41] = some (.invalidString, ⟨3, 2, 2⟩) := by decide

/-- **C08** (validation).  Validating any bytes terminates without leaving the text. -/
theorem C08_validate_safe (e : Enc) (src : List UInt8) : ∃ res st, validateUnicode e src = some (res, st) := by
  obtain ⟨res, st, _, _, h, _⟩ := C07_validate_reports_prefix e src
  exact ⟨res, st, h⟩

/-- **C07** (validation is exact) for Latin-1, UTF-16 and UTF-32: a buffer validates exactly if it is well-formed. -/
theorem C07_validate_exact (e : Enc) (he : e ≠ .utf8) (src : List UInt8) :
    (∃ st, validateUnicode e src = some (.success, st)) ↔ WellFormed e src := by
  have hen : ∀ c, Carried e c ↔ Encodable e c := by intro c; cases e <;> simp_all [Carried, Encodable]
  obtain ⟨res, st, cs, rest, h1, h2, h3, _, _, _, h4, h5⟩ := C07_validate_reports_prefix e src
  constructor
  · rintro ⟨st', h⟩
    rw [h1] at h
    simp only [Option.some.injEq, Prod.mk.injEq] at h
    have := h4.1 h.1
    exact ⟨cs, fun c hc => (hen c).1 (h2 c hc), by rw [h3, this]; simp⟩
  · rintro ⟨cs', h6, h7⟩
    refine ⟨st, ?_⟩
    rw [h1, h4.2 ?_]
    by_cases hl : e = .latin1
    · subst hl
      rcases rest with _ | ⟨b, t⟩
      · rfl
      · exact absurd (show codePoint false .latin1 b.toNat <+: b :: t from ⟨t, by simp [codePoint]⟩) (h5 _ b.toNat_lt)
    · obtain ⟨t, h8, h9⟩ := text_prefix e hl cs cs' rest (fun c hc => (carried_iff e hl c).1 ((hen c).2 (h6 c hc)))
        (fun c hc => (carried_iff e hl c).1 (h2 c hc)) (by rw [← h7, h3])
      rcases t with _ | ⟨c, t⟩
      · exact h9
      · exact absurd (show codePoint false e c <+: rest by rw [h9, text_cons]; exact List.prefix_append _ _)
          (h5 c ((hen c).2 (h6 c (by rw [h8]; simp))))

example : WellFormed .utf16 [0x3D, 0xD8, 0x00, 0xDE] := ⟨[0x1F600], show ∀ c ∈ [0x1F600], Scalar c by decide, by decide⟩
example : validateUnicode .utf16 [0x3D, 0xD8, 0x00] = some (.dataTruncated, ⟨0, 0, 0⟩) := by decide

/-- **C07** (validation of UTF-8).  Full statement: a buffer validates exactly if it is well-formed UTF-8.
Missing: the library also accepts surrogate code points, so the accepted buffers are the encodings of code points
up to U+10FFFF including U+D800..U+DFFF (see `C07_validate_utf8_counterexample`). -/
theorem C07_validate_utf8_partial (src : List UInt8) :
    (∃ st, validateUnicode .utf8 src = some (.success, st)) ↔
      ∃ cs, (∀ c ∈ cs, c ≤ 0x10FFFF) ∧ src = text .utf8 cs := by
  obtain ⟨res, st, cs, rest, h1, h2, h3, _, _, _, h4, h5⟩ := C07_validate_reports_prefix .utf8 src
  constructor
  · rintro ⟨st', h⟩
    rw [h1] at h
    simp only [Option.some.injEq, Prod.mk.injEq] at h
    have := h4.1 h.1
    exact ⟨cs, h2, by rw [h3, this]; simp⟩
  · rintro ⟨cs', h6, h7⟩
    refine ⟨st, ?_⟩
    rw [h1, h4.2 ?_]
    obtain ⟨t, h8, h9⟩ := text_prefix .utf8 (by simp) cs cs' rest (fun c hc => ⟨h6 c hc, by simp⟩)
        (fun c hc => ⟨h2 c hc, by simp⟩) (by rw [← h7, h3])
    rcases t with _ | ⟨c, t⟩
    · exact h9
    · exact absurd (show codePoint false .utf8 c <+: rest by rw [h9, text_cons]; exact List.prefix_append _ _)
        (h5 c (h6 c (by rw [h8]; simp)))

/-- Every well-formed UTF-8 text validates. -/
theorem C07_validate_utf8_accepts (src : List UInt8) (h : WellFormed .utf8 src) :
    ∃ st, validateUnicode .utf8 src = some (.success, st) := by
  obtain ⟨cs, h1, h2⟩ := h
  exact (C07_validate_utf8_partial src).2 ⟨cs, fun c hc => (h1 c hc).1, h2⟩

example : WellFormed .utf8 [0x41, 0xE2, 0x82, 0xAC] := ⟨[0x41, 0x20AC], show ∀ c ∈ [0x41, 0x20AC], Scalar c by decide, by decide⟩

/-- The encoded surrogate `ED A0 80` validates although it is not well-formed UTF-8. -/
theorem C07_validate_utf8_counterexample :
    (∃ st, validateUnicode .utf8 [0xED, 0xA0, 0x80] = some (.success, st)) ∧ ¬ WellFormed .utf8 [0xED, 0xA0, 0x80] := by
  refine ⟨⟨⟨3, 1, 1⟩, by decide⟩, ?_⟩
  rintro ⟨cs, h1, h2⟩
  rcases cs with _ | ⟨c, t⟩
  · simp [text_nil] at h2
  · have hs := h1 c (by simp)
    have : c = 0xD800 := by
      apply cp_unique .utf8 (by simp) [0xED, 0xA0, 0x80] c 0xD800 ⟨hs.1, by simp⟩ ⟨by decide, by simp⟩
      · rw [h2, text_cons]; exact List.prefix_append _ _
      · exact ⟨[], by decide⟩
    subst this
    exact absurd (show Scalar 0xD800 from hs) (by decide)

/-! ## C07: conversion -/

/-- A source cut in the middle of a code point is reported as truncated, not as invalid. -/
theorem next_cut (e : Enc) (he : e = .utf8 ∨ e = .utf16) (f : Flags) (hst : f.strict = true) (hsw : f.swap = false) (src : List UInt8)
    (n : Nat) (hn : n ≤ src.length) (hn2 : n % charSize e = 0) (r : Reader) (hr : r.ptr < n) (hr2 : r.ptr % charSize e = 0) (c : Nat) (hc : Accepts e c)
    (hp : codePoint false e c <+: src.drop r.ptr) (hlt : n < r.ptr + (codePoint false e c).length) :
    ∃ u m, next e f (src.take n) n r = some (.dataTruncated, u, m, r) := by
  have hw : win src src.length r.ptr = src.drop r.ptr := by simp [win]
  rw [← hw] at hp
  have hg := get_of_prefix (Nat.le_refl _) hp
  have hcpos := cp_pos false e c
  have h0 := hg 0 hcpos
  rw [Nat.add_zero] at h0
  have h0' : (src.take n)[r.ptr]? = some (codePoint false e c)[0] := by
    rw [List.getElem?_take, if_pos hr]; exact h0
  rcases he with rfl | rfl
  · obtain ⟨b0, hb0⟩ : ∃ b0, b0 = (codePoint false .utf8 c)[0] := ⟨_, rfl⟩
    rw [← hb0] at h0'
    rw [len_cp] at hlt
    simp only at hlt
    have hmax := hc.1
    by_cases h1 : c ≤ 127
    · rw [utf8_1 c h1] at hlt; simp at hlt; omega
    by_cases h2 : c ≤ 2047
    · have : b0 = UInt8.ofNat (0xC0 + c / 64) := by rw [hb0]; simp only [utf8_bytes, utf8_2 c h1 h2]; rfl
      rw [utf8_2 c h1 h2] at hlt; simp at hlt
      exact next8_2t f _ n r h0' (by rw [this, ofNat8]; omega) (by rw [this, ofNat8]; omega) (by omega)
    by_cases h3 : c ≤ 65535
    · have : b0 = UInt8.ofNat (0xE0 + c / 4096) := by rw [hb0]; simp only [utf8_bytes, utf8_3 c h2 h3]; rfl
      rw [utf8_3 c h2 h3] at hlt; simp at hlt
      exact next8_3t f _ n r h0' (by rw [this, ofNat8]; omega) (by rw [this, ofNat8]; omega) (by omega)
    · have : b0 = UInt8.ofNat (0xF0 + c / 262144) := by rw [hb0]; simp only [utf8_bytes, utf8_4 c h3]; rfl
      rw [utf8_4 c h3] at hlt; simp at hlt
      exact next8_4t f _ n r h0' (by rw [this, ofNat8]; omega) (by rw [this, ofNat8]; omega) (by omega)
  · rw [len_cp] at hlt
    simp only [charSize] at hlt hn2 hr2
    by_cases h1 : c ≤ 65535
    · rw [utf16_1 c h1] at hlt; simp at hlt; omega
    · have hlen4 : (codePoint false .utf16 c).length = 4 := by rw [len_cp]; simp [utf16_2 c h1]
      have h1' := hg 1 (by omega)
      have h1'' : (src.take n)[r.ptr + 1]? = some ((codePoint false .utf16 c)[1]'(by omega)) := by
        rw [List.getElem?_take, if_pos (by omega)]; exact h1'
      rw [utf16_2 c h1] at hlt; simp at hlt
      obtain ⟨u, eu, hu⟩ := rd16_val f (src.take n) r.ptr h0' h1''
      have hv : val16 f ((codePoint false .utf16 c)[0]) ((codePoint false .utf16 c)[1]'(by omega)) = 0xD800 + (c - 0x10000) / 1024 := by
        apply val16_unit f _ (by have := hc.1; omega)
        simp only [codePoint, utf16_2 c h1]
        unfold unit16
        rw [hsw]; rfl
      have s1 : isSurrogate u = true := by rw [isSurrogate_iff]; unfold Surrogate; have := hc.1; omega
      have s2 : isHiSurrogate u = true := by rw [isHi_iff]; have := hc.1; omega
      have s3 : r.ptr + 2 = n := by omega
      refine ⟨u, 0, ?_⟩
      simp only [next, next16, eu, Option.bind_eq_bind, Option.bind_some, s1, s2, s3, hst, if_true, ne_eq, not_true_eq_false, if_false]
      rw [← s3]; simp

/-- `convert_unicode_impl` on any buffers: what it does, including a tail shorter than one source unit. -/
theorem convertImpl_spec (de se : Enc) (hde : de ≠ .latin1) (hse : se ≠ .latin1) (dst src : List UInt8) :
    ∃ r cs rest, convertImpl de se { strict := true } dst src = some r ∧ (∀ c ∈ cs, Accepts se c) ∧
      src.take (alignDown src.length (charSize se)) = text se cs ++ rest ∧
      (text de cs).length ≤ dst.length ∧ r.mem = text de cs ++ dst.drop (text de cs).length ∧
      r.dstIndex = (text de cs).length ∧ r.srcIndex = (text se cs).length ∧
      ((r.res = .success ∧ rest = []) ∨
       ((r.res = .invalidString ∨ r.res = .dataTruncated) ∧ rest ≠ [] ∧ ∀ c, Accepts se c → ¬ codePoint false se c <+: rest) ∨
       (r.res = .noSpaceLeft ∧ rest ≠ [] ∧
         ∀ c, Accepts se c → codePoint false se c <+: rest → dst.length < (text de (cs ++ [c])).length)) := by
  have hcap : dst.length / charSize de * charSize de ≤ dst.length := Nat.div_mul_le_self _ _
  obtain ⟨res, cs, rest, h1, h2, h3, h4, h5⟩ := convertLoop_spec de se hde hse { strict := true } rfl rfl src
    (alignDown src.length (charSize se)) (alignDown_le _ _) dst (src.length + 1) ⟨dst, 0, dst.length / charSize de⟩ { ptr := 0 } []
    (Nat.zero_le _) (by have := alignDown_le src.length (charSize se); omega) (by simpa using alignDown_mod src.length (charSize se))
    hcap (Nat.zero_le _) (by simp [text_nil]) (by simp [text_nil, over])
  rw [win_zero] at h3
  simp only [List.nil_append, Nat.zero_add] at h1 h4 h5
  have hm := text_mod se cs
  refine ⟨⟨res, over dst 0 (text de cs), (text de cs).length, (text se cs).length⟩, cs, rest, ?_, h2, h3, by omega, over_zero _ _, rfl, rfl, ?_⟩
  · unfold convertImpl
    rw [alignDown_of_mod (alignDown src.length (charSize se)) _ (alignDown_mod _ _), h1]
    simp only [Option.bind_eq_bind, Option.bind_some, hm]
    simp
  · rcases h5 with h | h | ⟨h, c, hc, hp, hlt⟩
    · exact Or.inl h
    · exact Or.inr (Or.inl h)
    · refine Or.inr (Or.inr ⟨h, ?_, ?_⟩)
      · intro hnil; have h1 := hp.length_le; have h2 := cp_pos false se c; rw [hnil, List.length_nil] at h1; omega
      · intro c' hc' hp'
        have : c' = c := cp_unique se hse rest c' c hc' hc hp' hp
        subst this
        -- the destination form is a whole number of units, so it does not fit into the bytes either
        have hmod := text_mod de (cs ++ [c'])
        have d1 := Nat.div_add_mod (text de (cs ++ [c'])).length (charSize de)
        rw [hmod] at d1
        by_cases hle : (text de (cs ++ [c'])).length ≤ dst.length
        · have := Nat.div_le_div_right (c := charSize de) hle
          have := Nat.mul_le_mul_left (charSize de) this
          rw [Nat.mul_comm _ (dst.length / charSize de)] at this
          omega
        · omega

theorem faithful_impl (de se : Enc) (hde : de ≠ .latin1) (hse : se ≠ .latin1) (dst src : List UInt8)
    (hal : src.length % charSize se = 0) :
    ∃ r, convertImpl de se { strict := true } dst src = some r ∧ Faithful de se dst src r := by
  obtain ⟨r, cs, rest, h1, h2, h3, h4, h5, h6, h7, h8⟩ := convertImpl_spec de se hde hse dst src
  rw [alignDown_of_mod _ _ hal, List.take_length] at h3
  refine ⟨r, h1, cs, rest, fun c hc => (carried_iff se hse c).2 (h2 c hc), h3, h4, h5, h6, h7, ?_⟩
  simp only [carried_iff se hse]
  exact h8

/-- The copying conversions (UTF-8 to UTF-8, UTF-16 to UTF-16). -/
theorem copy_core (e : Enc) (he : e = .utf8 ∨ e = .utf16) (dst src : List UInt8) (n : Nat)
    (hn : n = alignDown (min dst.length src.length) (charSize e)) (hal : src.length % charSize e = 0) :
    ∃ res cs, validateUnicode e (src.take n) = some (res, ⟨n8 cs, n16 cs, cs.length⟩) ∧
      Faithful e e dst src ⟨if (decide (n < src.length) && (decide (res = .success) || decide (res = .dataTruncated))) = true
        then .noSpaceLeft else res, text e cs ++ dst.drop (text e cs).length, (text e cs).length, (text e cs).length⟩ ∧
      (text e cs).length ≤ dst.length ∧ src.take (text e cs).length = text e cs := by
  have hne : e ≠ .latin1 := by rcases he with rfl | rfl <;> simp
  have hnle : n ≤ src.length := by
    rw [hn]; exact Nat.le_trans (alignDown_le _ _) (Nat.min_le_right _ _)
  have hnld : n ≤ dst.length := by
    rw [hn]; exact Nat.le_trans (alignDown_le _ _) (Nat.min_le_left _ _)
  have hnm : n % charSize e = 0 := by rw [hn]; exact alignDown_mod _ _
  have hln : (src.take n).length = n := by rw [List.length_take]; omega
  obtain ⟨res, cs, rest, h1, h2, h3, h4⟩ := validateString_spec e hne (src.take n)
  rw [hln, alignDown_of_mod _ _ hnm] at h3 h4
  rw [List.take_take, Nat.min_self] at h3
  have hval : validateUnicode e (src.take n) = some (res, ⟨n8 cs, n16 cs, cs.length⟩) := by
    rcases he with rfl | rfl
    · exact h1
    · simp only [validateUnicode, h1, Option.bind_eq_bind, Option.bind_some, hln]
      simp only [charSize] at hnm
      simp [hnm]
  have hl := congrArg List.length h3
  rw [hln, List.length_append] at hl
  have hsrc : src = text e cs ++ (rest ++ src.drop n) := by
    rw [← List.append_assoc, ← h3, List.take_append_drop]
  have hpre : src.take (text e cs).length = text e cs := by
    conv => lhs; rw [hsrc]
    rw [List.take_append_of_le_length (Nat.le_refl _), List.take_length]
  refine ⟨res, cs, hval, ?_, by omega, hpre⟩
  refine ⟨cs, rest ++ src.drop n, fun c hc => (carried_iff e hne c).2 (h2 c hc), hsrc, by omega, rfl, rfl, rfl, ?_⟩
  simp only [carried_iff e hne]
  -- capacity in units when the source did not fit
  have hcap : n < src.length → dst.length < n + charSize e := by
    intro hlt
    have hcs := charSize_pos e
    have hmd : alignDown (min dst.length src.length) (charSize e) + charSize e > min dst.length src.length := by
      have := Nat.div_add_mod (min dst.length src.length) (charSize e)
      have := Nat.mod_lt (min dst.length src.length) hcs
      unfold alignDown
      rw [Nat.mul_comm]; omega
    by_cases hle : src.length ≤ dst.length
    · rw [Nat.min_eq_right hle, alignDown_of_mod _ _ hal] at hn; omega
    · rw [Nat.min_eq_left (by omega)] at hmd hn; omega
  by_cases hfull : n = src.length
  · have hd : src.drop n = [] := by rw [hfull]; simp
    have : ¬ n < src.length := by omega
    simp only [this, decide_false, Bool.false_and, Bool.false_eq_true, if_false, hd, List.append_nil]
    rcases h4 with h | ⟨a, b, c, _⟩
    · exact Or.inl h
    · exact Or.inr (Or.inl ⟨a, b, c⟩)
  · have hlt : n < src.length := by omega
    have hdne : src.drop n ≠ [] := by
      intro h; have := congrArg List.length h; simp at this; omega
    have hrest : (rest ++ src.drop n) ≠ [] := by simp [hdne]
    have hdrop : src.drop (text e cs).length = rest ++ src.drop n := by
      conv => lhs; rw [hsrc]
      rw [List.drop_append_of_le_length (Nat.le_refl _)]; simp
    -- a code point that continues the source does not end within the copied part
    have hcross : (∀ c, Accepts e c → ¬ codePoint false e c <+: rest) → ∀ c, Accepts e c → codePoint false e c <+: rest ++ src.drop n →
        n < (text e cs).length + (codePoint false e c).length := by
      intro hno c hc hp
      by_cases hle : (codePoint false e c).length ≤ rest.length
      · exact absurd (List.prefix_of_prefix_length_le hp (List.prefix_append _ _) hle) (hno c hc)
      · omega
    have hnofit : ∀ c, n < (text e cs).length + (codePoint false e c).length → dst.length < (text e (cs ++ [c])).length := by
      intro c hc
      have hc1 := hcap hlt
      rw [text_append, List.length_append, text_cons, text_nil, List.append_nil]
      have m1 := text_mod e (cs ++ [c])
      rw [text_append, List.length_append, text_cons, text_nil, List.append_nil] at m1
      rcases he with rfl | rfl
      · simp only [charSize] at *; omega
      · simp only [charSize] at *; omega
    rcases h4 with ⟨hs, hr⟩ | ⟨herr, hrne, hno, u, m, r, hnx, hrp⟩
    · subst hs hr
      simp only [hlt, decide_true, Bool.true_or, Bool.and_self, if_true]
      refine Or.inr (Or.inr ⟨trivial, hrest, ?_⟩)
      intro c hc hp
      apply hnofit
      have := cp_pos false e c
      simp at hl; omega
    · rcases herr with herr | herr
      · subst herr
        simp only [hlt, decide_true, Bool.true_and, show decide (Result.invalidString = Result.success) = false by rfl,
          show decide (Result.invalidString = Result.dataTruncated) = false by rfl, Bool.or_self, Bool.false_eq_true, if_false]
        refine Or.inr (Or.inl ⟨Or.inl trivial, hrest, ?_⟩)
        intro c hc hp
        have hx := hcross hno c hc hp
        rw [← hrp] at hx
        have hrl : 0 < rest.length := List.length_pos_iff.2 hrne
        obtain ⟨u', m', h'⟩ := next_cut e he { strict := true, index := true } rfl rfl src n hnle hnm r (by omega)
          (by rw [hrp]; exact text_mod e cs) c hc (by rw [hrp, hdrop]; exact hp) hx
        rw [hnx] at h'
        simp at h'
      · subst herr
        simp only [hlt, decide_true, Bool.or_true, Bool.and_self, if_true]
        refine Or.inr (Or.inr ⟨trivial, hrest, ?_⟩)
        intro c hc hp
        exact hnofit c (hcross hno c hc hp)

theorem bytes16_latin1 (b : UInt8) : bytes16 b.toUInt32 = codePoint false .utf16 b.toNat := by
  have := b.toNat_lt
  rw [bytes16_eq _ b.toNat (toUInt32_toNat b) (by omega)]
  simp only [codePoint, utf16_1 b.toNat (by omega)]
  simp

theorem bytes32_latin1 (b : UInt8) : bytes32 b.toUInt32 = codePoint false .utf32 b.toNat := by
  rw [bytes32_eq _ b.toNat (toUInt32_toNat b)]; rfl

theorem text_take_latin1 (src : List UInt8) (n : Nat) :
    src = text .latin1 ((src.take n).map UInt8.toNat) ++ src.drop n := by
  rw [latin1_text, List.take_append_drop]

theorem len_latin1_16 (src : List UInt8) : (text .utf16 (src.map UInt8.toNat)).length = src.length * 2 := by
  rw [text_length16]; have := n16_bytes src; simp only [n16] at this; rw [this]; omega

theorem len_latin1_32 (src : List UInt8) : (text .utf32 (src.map UInt8.toNat)).length = src.length * 4 := by
  rw [text_length32]; simp; omega

theorem carried_bytes (src : List UInt8) : ∀ c ∈ src.map UInt8.toNat, Carried .latin1 c := by
  intro c hc
  obtain ⟨b, _, rfl⟩ := List.mem_map.1 hc
  exact b.toNat_lt

/-- Latin-1 to UTF-16 and UTF-32. -/
theorem faithful_wide (e : Enc) (he : e = .utf16 ∨ e = .utf32) (dst src : List UInt8) (bytes : UInt32 → List UInt8) (k : Nat)
    (hk : k = charSize e) (hb : ∀ b : UInt8, bytes b.toUInt32 = codePoint false e b.toNat) :
    ∃ mem, latin1ToWide bytes k (src.take (min (dst.length / k) src.length)) dst 0 = some mem ∧
      Faithful e .latin1 dst src ⟨if min (dst.length / k) src.length < src.length then .noSpaceLeft else .success, mem,
        min (dst.length / k) src.length * k, min (dst.length / k) src.length⟩ := by
  have hkp : 0 < k := by rw [hk]; exact charSize_pos e
  have hlen : ∀ l : List UInt8, (text e (l.map UInt8.toNat)).length = l.length * k := by
    intro l; rw [hk]; rcases he with rfl | rfl
    · exact len_latin1_16 l
    · exact len_latin1_32 l
  obtain ⟨n, hn⟩ : ∃ n, n = min (dst.length / k) src.length := ⟨_, rfl⟩
  rw [← hn]
  have hnl : (src.take n).length = n := by rw [List.length_take]; omega
  have hnk : n * k ≤ dst.length := by
    have : n * k ≤ dst.length / k * k := Nat.mul_le_mul_right k (by omega)
    have := Nat.div_mul_le_self dst.length k
    omega
  have hcp : ∀ b : UInt8, (codePoint false e b.toNat).length = k := by
    intro b
    have := hlen [b]
    simp only [List.map_cons, List.map_nil, text_cons, text_nil, List.append_nil, List.length_cons, List.length_nil] at this
    omega
  have hw := latin1ToWide_spec e bytes k hb hcp (src.take n) dst 0 (by rw [hnl, Nat.zero_add]; exact hnk)
  refine ⟨_, hw, (src.take n).map UInt8.toNat, src.drop n, carried_bytes _, text_take_latin1 src n, ?_, ?_, ?_, ?_, ?_⟩
  · rw [hlen, hnl]; exact hnk
  · rw [Nat.zero_mul]; exact over_zero _ _
  · rw [hlen, hnl]
  · rw [latin1_text, hnl]
  · by_cases hlt : n < src.length
    · simp only [hlt, if_true]
      refine Or.inr (Or.inr ⟨trivial, ?_, ?_⟩)
      · intro h; have := congrArg List.length h; simp at this; omega
      · intro c _ _
        have : dst.length < (n + 1) * k := by
          have hq : n = dst.length / k := by omega
          rw [hq, Nat.add_mul, Nat.one_mul]
          have := Nat.div_add_mod dst.length k
          have := Nat.mod_lt dst.length hkp
          rw [Nat.mul_comm]; omega
        rw [text_append, List.length_append, hlen, hnl, text_cons, text_nil, List.append_nil]
        have hc := cp_pos false e c
        have hm := cp_mod false e c
        rw [← hk] at hm
        have hge : k ≤ (codePoint false e c).length := Nat.le_of_dvd hc (Nat.dvd_of_mod_eq_zero hm)
        rw [Nat.add_mul, Nat.one_mul] at this
        omega
    · simp only [hlt, if_false]
      refine Or.inl ⟨trivial, ?_⟩
      simp; omega

/-- **C07** (conversion).  Full statement: every supported conversion is faithful in the sense of `Spec.Faithful`, for
every source and every destination buffer.  Missing, because the code disagrees (see the counterexamples below):
a UTF-16/32 source whose size is not a whole number of units, and the size-checked Latin-1 to UTF-8 path taken
when the destination is smaller than twice the source. -/
theorem C07_convert_partial (de se : Enc) (hsup : de = .latin1 → se = .latin1) (dst src : List UInt8)
    (hal : src.length % charSize se = 0)
    (hfast : de = .utf8 → se = .latin1 → src.length ≤ dst.length / 2) :
    ∃ r, convertUnicode de se dst src = some r ∧ Faithful de se dst src r := by
  cases de <;> cases se <;> first | (cases hsup rfl; done) | skip
  · -- Latin-1 to Latin-1
    have hn : (src.take (min dst.length src.length)).length = min dst.length src.length := by
      rw [List.length_take]; omega
    refine ⟨_, by simp only [convertUnicode]; rw [store_spec _ _ _ (by rw [hn]; omega)]; rfl, ?_⟩
    refine ⟨(src.take (min dst.length src.length)).map UInt8.toNat, src.drop (min dst.length src.length), carried_bytes _,
      text_take_latin1 src _, ?_, ?_, ?_, ?_, ?_⟩
    · rw [latin1_text, hn]; omega
    · rw [latin1_text]; exact over_zero _ _
    · rw [latin1_text, hn]
    · rw [latin1_text, hn]
    · by_cases hlt : dst.length < src.length
      · simp only [hlt, if_true]
        refine Or.inr (Or.inr ⟨trivial, ?_, ?_⟩)
        · intro h; have := congrArg List.length h; simp at this; omega
        · intro c _ _
          rw [text_append, List.length_append, latin1_text, hn, text_cons, text_nil, List.append_nil]
          have := cp_pos false .latin1 c
          omega
      · simp only [hlt, if_false]
        refine Or.inl ⟨trivial, ?_⟩
        simp; omega
  · -- Latin-1 to UTF-8, fast path
    have hf := hfast rfl rfl
    have hlen : (text .utf8 (src.map UInt8.toNat)).length ≤ 2 * src.length := by
      clear hf hal hfast
      induction src with
      | nil => simp [text_nil]
      | cons c t ih =>
        rw [List.map_cons, text_cons, List.length_append, List.length_cons, len_cp]
        have := len8_latin1 c
        simp only; omega
    refine ⟨_, by simp only [convertUnicode]; rw [if_pos hf, latin1ToUtf8Unsafe_spec src dst 0 (by omega)]; rfl, ?_⟩
    refine ⟨src.map UInt8.toNat, [], carried_bytes _, by rw [latin1_text]; simp, by omega, over_zero _ _, by simp,
      by rw [latin1_text], Or.inl ⟨rfl, rfl⟩⟩
  · -- UTF-8 to UTF-8
    obtain ⟨res, cs, h1, h2, h3, h4⟩ := copy_core .utf8 (Or.inl rfl) dst src (min dst.length src.length)
      (by simp [alignDown, charSize]) hal
    have h5 : n8 cs = (text .utf8 cs).length := (text_length8 cs).symm
    refine ⟨_, ?_, h2⟩
    simp only [convertUnicode, h1, Option.bind_eq_bind, Option.bind_some, h5, h4]
    rw [store_spec _ _ _ (by omega), over_zero]; rfl
  · exact faithful_impl .utf8 .utf16 (by simp) (by simp) dst src hal
  · exact faithful_impl .utf8 .utf32 (by simp) (by simp) dst src hal
  · obtain ⟨mem, h1, h2⟩ := faithful_wide .utf16 (Or.inl rfl) dst src bytes16 2 rfl bytes16_latin1
    exact ⟨_, by simp only [convertUnicode, h1]; rfl, h2⟩
  · exact faithful_impl .utf16 .utf8 (by simp) (by simp) dst src hal
  · -- UTF-16 to UTF-16
    obtain ⟨res, cs, h1, h2, h3, h4⟩ := copy_core .utf16 (Or.inr rfl) dst src (alignDown (min dst.length src.length) 2)
      (by simp [charSize]) hal
    have h5 : n16 cs * 2 = (text .utf16 cs).length := by rw [text_length16]; simp only [n16]; omega
    refine ⟨_, ?_, h2⟩
    have hal' : src.length % 2 = 0 := hal
    simp only [convertUnicode, h1, Option.bind_eq_bind, Option.bind_some, h5, h4, hal']
    rw [store_spec _ _ _ (by omega), over_zero]
    simp
  · exact faithful_impl .utf16 .utf32 (by simp) (by simp) dst src hal
  · obtain ⟨mem, h1, h2⟩ := faithful_wide .utf32 (Or.inr rfl) dst src bytes32 4 rfl bytes32_latin1
    exact ⟨_, by simp only [convertUnicode, h1]; rfl, h2⟩
  · exact faithful_impl .utf32 .utf8 (by simp) (by simp) dst src hal
  · exact faithful_impl .utf32 .utf16 (by simp) (by simp) dst src hal
  · exact faithful_impl .utf32 .utf32 (by simp) (by simp) dst src hal

example : convertUnicode .utf16 .utf8 [9, 9, 9, 9, 9, 9, 9] [0x41, 0xF0, 0x9F, 0x98, 0x80, 0x42] =
    some ⟨.noSpaceLeft, [0x41, 0, 0x3D, 0xD8, 0x00, 0xDE, 9], 6, 5⟩ := by decide

/-- The size-checked Latin-1 to UTF-8 path writes the right bytes and the right result code; only the indexes are
wrong on success. -/
theorem C07_latin1_utf8_checked (dst src : List UInt8) (hslow : ¬ src.length ≤ dst.length / 2) :
    ∃ r, convertUnicode .utf8 .latin1 dst src = some r ∧
      (r.res = .success → r.mem = text .utf8 (src.map UInt8.toNat) ++ dst.drop (text .utf8 (src.map UInt8.toNat)).length) ∧
      (r.res ≠ .success → Faithful .utf8 .latin1 dst src r) := by
  obtain ⟨r, cs, rest, h1, h2, h3, h4, h5⟩ := latin1ToUtf8Safe_spec dst src ⟨dst, 0, dst.length⟩ 0 [] rfl (by simp [text_nil])
    (Nat.zero_le _) (by simp [text_nil, over])
  rw [List.nil_append, over_zero] at h3
  rw [List.nil_append] at h4
  refine ⟨r, by simp only [convertUnicode]; rw [if_neg hslow]; exact h1, ?_, ?_⟩
  · intro hs
    rcases h5 with ⟨_, h, _⟩ | ⟨h, _⟩
    · rw [h3, h2, h]; simp
    · rw [hs] at h; simp at h
  · intro hs
    rcases h5 with ⟨h, _⟩ | ⟨q1, q2, q3, b, t, q4, q5⟩
    · exact absurd h hs
    · rw [List.nil_append] at q2 q5
      refine ⟨cs.map UInt8.toNat, rest, carried_bytes _, by rw [latin1_text]; exact h2, h4, h3, q2, by rw [q3, latin1_text]; omega,
        Or.inr (Or.inr ⟨q1, by rw [q4]; simp, ?_⟩)⟩
      intro c hc hp
      have : c = b.toNat := by
        rw [q4] at hp
        obtain ⟨s, hs⟩ := hp
        simp only [codePoint, List.map_cons, List.map_nil, List.singleton_append, List.cons.injEq] at hs
        rw [← hs.1]; simp only [ofNat8]
        have : c < 256 := hc
        omega
      rw [this]; exact q5

/-- Latin-1 `"é"` into a 3-byte UTF-8 buffer succeeds, but reports zero bytes written. -/
theorem C07_latin1_utf8_index_counterexample :
    convertUnicode .utf8 .latin1 [0, 0, 0] [0xE9, 0x41] = some ⟨.success, [0xC3, 0xA9, 0x41], 0, 0⟩ := by decide

/-- A UTF-16 source with a stray last byte converts to UTF-8 with success, although validation of the same buffer
reports it as truncated. -/
theorem C07_odd_source_counterexample :
    convertUnicode .utf8 .utf16 [0, 0] [0x41, 0x00, 0x42] = some ⟨.success, [0x41, 0], 1, 2⟩ ∧
    validateUnicode .utf16 [0x41, 0x00, 0x42] = some (.dataTruncated, ⟨1, 1, 1⟩) := by decide

/-- UTF-16 to UTF-16 with the same source reports `NO_SPACE_LEFT` although the destination is large enough. -/
theorem C07_odd_utf16_copy_counterexample :
    convertUnicode .utf16 .utf16 [0, 0, 0, 0, 0, 0] [0x41, 0x00, 0x42] = some ⟨.noSpaceLeft, [0x41, 0, 0, 0, 0, 0], 2, 2⟩ := by decide

/-- An encoded surrogate in UTF-8 is converted to ill-formed UTF-16, which the library itself then rejects. -/
theorem C07_surrogate_counterexample :
    convertUnicode .utf16 .utf8 [0, 0] [0xED, 0xA0, 0x80] = some ⟨.success, [0x00, 0xD8], 2, 3⟩ ∧
    validateUnicode .utf16 [0x00, 0xD8] = some (.dataTruncated, ⟨0, 0, 0⟩) := by decide

/-- **C07** (well-formed text).  Well-formed text converts, given enough room, to the destination form of the same
code points. -/
theorem C07_convert_wellformed (de se : Enc) (hde : de ≠ .latin1) (hse : se ≠ .latin1) (cs : List Nat) (hcs : ∀ c ∈ cs, Scalar c)
    (dst : List UInt8) (hroom : (text de cs).length ≤ dst.length) :
    convertUnicode de se dst (text se cs) = some ⟨.success, text de cs ++ dst.drop (text de cs).length,
      (text de cs).length, (text se cs).length⟩ := by
  obtain ⟨⟨res, mem, di, si⟩, h1, cs', rest, h2, h3, h4, h5, h6, h7, h8⟩ := C07_convert_partial de se (fun h => absurd h hde) dst (text se cs)
    (text_mod se cs) (fun _ h => absurd h hse)
  have hacc : ∀ c ∈ cs, Accepts se c := fun c hc => ⟨(hcs c hc).1, fun _ => (hcs c hc).2⟩
  obtain ⟨t, h9, h10⟩ := text_prefix se hse cs' cs rest hacc (fun c hc => (carried_iff se hse c).1 (h2 c hc)) h3
  simp only at h5 h6 h7 h8
  have ht : t = [] := by
    rcases t with _ | ⟨c, t⟩
    · rfl
    · exfalso
      have hp : codePoint false se c <+: rest := by rw [h10, text_cons]; exact List.prefix_append _ _
      have hc : Carried se c := (carried_iff se hse c).2 (hacc c (by rw [h9]; simp))
      rcases h8 with ⟨_, h⟩ | ⟨_, _, h⟩ | ⟨_, _, h⟩
      · rw [h] at hp; have h1 := hp.length_le; have h2 := cp_pos false se c; rw [List.length_nil] at h1; omega
      · exact h c hc hp
      · have := h c hc hp
        rw [h9, show cs' ++ c :: t = (cs' ++ [c]) ++ t by simp, text_append, List.length_append] at hroom
        omega
  subst ht
  rw [List.append_nil] at h9
  subst h9
  have hr : rest = [] := h10
  have hres : res = .success := by
    rcases h8 with ⟨h, _⟩ | ⟨_, h, _⟩ | ⟨_, h, _⟩
    · exact h
    · exact absurd hr h
    · exact absurd hr h
  rw [h1, hres, h5, h6, h7]

example : ∀ c ∈ [0x41, 0x20AC, 0x1F600], Scalar c := by decide

theorem n8_le (cs : List Nat) : n8 cs ≤ 4 * cs.length := by
  induction cs with
  | nil => simp [n8]
  | cons c t ih =>
    rw [n_cons8, List.length_cons]
    have : (utf8 c).length ≤ 4 := by unfold utf8; (repeat' split) <;> simp
    omega

theorem n16_le (cs : List Nat) : n16 cs ≤ 2 * cs.length := by
  induction cs with
  | nil => simp [n16]
  | cons c t ih =>
    rw [n_cons16, List.length_cons]
    have : (utf16 c).length ≤ 2 := by unfold utf16; split <;> simp
    omega

/-- **C07** (round trip).  Converting well-formed text to another encoding and back returns the original bytes. -/
theorem C07_round_trip (e1 e2 : Enc) (h1 : e1 ≠ .latin1) (h2 : e2 ≠ .latin1) (src : List UInt8) (hwf : WellFormed e1 src)
    (tmp dst : List UInt8) (htmp : 4 * src.length ≤ tmp.length) (hdst : src.length ≤ dst.length) :
    ∃ r, convertUnicode e2 e1 tmp src = some r ∧ r.res = .success ∧ r.srcIndex = src.length ∧
      WellFormed e2 (r.mem.take r.dstIndex) ∧
      ∃ r', convertUnicode e1 e2 dst (r.mem.take r.dstIndex) = some r' ∧ r'.res = .success ∧
        r'.mem.take r'.dstIndex = src := by
  obtain ⟨cs, hc, rfl⟩ := hwf
  have hsc : ∀ c ∈ cs, Scalar c := by
    intro c hx; have := hc c hx; cases e1 <;> first | exact absurd rfl h1 | exact this
  have hlen : (text e2 cs).length ≤ 4 * (text e1 cs).length := by
    have a1 := n8_ge cs
    have a2 := n16_ge cs
    have b1 : (text .utf8 cs).length = n8 cs := text_length8 cs
    have b2 : (text .utf16 cs).length = 2 * n16 cs := text_length16 cs
    have b3 := text_length32 cs
    have c1 := n8_le cs
    have c2 := n16_le cs
    cases e1 <;> cases e2 <;> first | exact absurd rfl h1 | exact absurd rfl h2 | omega
  have f1 := C07_convert_wellformed e2 e1 h2 h1 cs hsc tmp (by omega)
  have ht : (text e2 cs ++ tmp.drop (text e2 cs).length).take (text e2 cs).length = text e2 cs := by simp
  refine ⟨_, f1, rfl, rfl, ?_, ?_⟩
  · simp only [ht]
    refine ⟨cs, ?_, rfl⟩
    intro c hx
    cases e2 <;> first | exact absurd rfl h2 | exact hsc c hx
  · simp only [ht]
    have f2 := C07_convert_wellformed e1 e2 h1 h2 cs hsc dst hdst
    exact ⟨_, f2, rfl, by simp⟩

/-- **C08** (conversion).  For every pair of encodings, every source and every destination, of any size, the conversion
terminates, reads and stores only inside the buffers, and reports indexes inside them. -/
theorem C08_convert_safe (de se : Enc) (dst src : List UInt8) :
    ∃ r, convertUnicode de se dst src = some r ∧ r.mem.length = dst.length ∧ r.dstIndex ≤ dst.length ∧ r.srcIndex ≤ src.length := by
  have impl : ∀ de se, de ≠ .latin1 → se ≠ .latin1 → ∃ r, convertImpl de se { strict := true } dst src = some r ∧
      r.mem.length = dst.length ∧ r.dstIndex ≤ dst.length ∧ r.srcIndex ≤ src.length := by
    intro de se h1 h2
    obtain ⟨r, cs, rest, a1, a2, a3, a4, a5, a6, a7, _⟩ := convertImpl_spec de se h1 h2 dst src
    refine ⟨r, a1, by rw [a5]; simp; omega, by omega, ?_⟩
    have := congrArg List.length a3
    rw [List.length_append, List.length_take] at this
    rw [a7]; omega
  have faith : ∀ de se, (de = .latin1 → se = .latin1) → src.length % charSize se = 0 →
      (de = .utf8 → se = .latin1 → src.length ≤ dst.length / 2) →
      ∃ r, convertUnicode de se dst src = some r ∧ r.mem.length = dst.length ∧ r.dstIndex ≤ dst.length ∧ r.srcIndex ≤ src.length := by
    intro de se h1 h2 h3
    obtain ⟨r, a0, cs, rest, a1, a2, a3, a4, a5, a6, _⟩ := C07_convert_partial de se h1 dst src h2 h3
    refine ⟨r, a0, by rw [a4]; simp; omega, by omega, ?_⟩
    have := congrArg List.length a2
    rw [List.length_append] at this
    rw [a6]; omega
  cases de <;> cases se
  · exact faith _ _ (by simp) (Nat.mod_one _) (by simp)
  · exact ⟨_, rfl, rfl, Nat.zero_le _, Nat.zero_le _⟩
  · exact ⟨_, rfl, rfl, Nat.zero_le _, Nat.zero_le _⟩
  · exact ⟨_, rfl, rfl, Nat.zero_le _, Nat.zero_le _⟩
  · -- Latin-1 to UTF-8
    by_cases hf : src.length ≤ dst.length / 2
    · exact faith _ _ (by simp) (Nat.mod_one _) (fun _ _ => hf)
    · obtain ⟨r, cs, rest, h1, h2, h3, h4, h5⟩ := latin1ToUtf8Safe_spec dst src ⟨dst, 0, dst.length⟩ 0 [] rfl (by simp [text_nil])
        (Nat.zero_le _) (by simp [text_nil, over])
      rw [List.nil_append] at h3 h4 h5
      refine ⟨r, by simp only [convertUnicode]; rw [if_neg hf]; exact h1, by rw [h3, over_length _ _ _ (by omega)], ?_, ?_⟩
      · rcases h5 with ⟨_, _, h, _⟩ | ⟨_, h, _⟩ <;> omega
      · have := congrArg List.length h2
        rw [List.length_append] at this
        rcases h5 with ⟨_, _, _, h⟩ | ⟨_, _, h, _⟩ <;> omega
  · exact faith _ _ (by simp) (Nat.mod_one _) (by simp)
  · exact impl _ _ (by simp) (by simp)
  · exact impl _ _ (by simp) (by simp)
  · exact faith _ _ (by simp) (Nat.mod_one _) (by simp)
  · exact impl _ _ (by simp) (by simp)
  · -- UTF-16 to UTF-16, any size
    obtain ⟨n, hn⟩ : ∃ n, n = alignDown (min dst.length src.length) 2 := ⟨_, rfl⟩
    have hnle : n ≤ min dst.length src.length := by rw [hn]; exact alignDown_le _ _
    have hnm : n % 2 = 0 := by rw [hn]; exact alignDown_mod _ _
    have hln : (src.take n).length = n := by rw [List.length_take]; omega
    obtain ⟨res, cs, rest, h1, h2, h3, h4⟩ := validateString_spec .utf16 (by simp) (src.take n)
    rw [hln, show charSize .utf16 = 2 from rfl, alignDown_of_mod _ _ hnm] at h3
    have hl := congrArg List.length h3
    rw [List.length_append, text_length16, List.length_take, hln, Nat.min_self] at hl
    have h5 : n16 cs * 2 ≤ n := by simp only [n16]; omega
    have hval : validateUnicode .utf16 (src.take n) = some (res, ⟨n8 cs, n16 cs, cs.length⟩) := by
      simp only [validateUnicode, h1, Option.bind_eq_bind, Option.bind_some, hln]
      simp [hnm]
    have hst : (src.take (n16 cs * 2)).length = n16 cs * 2 := by rw [List.length_take]; omega
    have hstore := store_spec (src.take (n16 cs * 2)) dst 0 (by omega)
    simp only [convertUnicode, ← hn, hval, Option.bind_eq_bind, Option.bind_some, hstore]
    exact ⟨_, rfl, over_length _ _ _ (by omega), by simp only; omega, by simp only; omega⟩
  · exact impl _ _ (by simp) (by simp)
  · exact faith _ _ (by simp) (Nat.mod_one _) (by simp)
  · exact impl _ _ (by simp) (by simp)
  · exact impl _ _ (by simp) (by simp)
  · exact impl _ _ (by simp) (by simp)

example : convertUnicode .utf8 .utf16 [0, 0] [0x3D, 0xD8, 0x41] = some ⟨.dataTruncated, [0, 0], 0, 0⟩ := by decide

end Blend2D.Unicode
