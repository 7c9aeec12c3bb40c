import Verif.Deflate.Sim

/-!
# The data of a block: what the tables and the specification say about the next symbol
-/

namespace Blend2D.Deflate
open Spec

/-- The buffer without its first `n` bits. -/
def BitBuf.drop (b : BitBuf) (n : Nat) : BitBuf := ⟨b.word / 2 ^ n, b.len - n⟩

theorem consume_drop {b : BitBuf} {n : Nat} (h : n ≤ b.len) : b.consume n = some (b.drop n) := consume_some h

theorem drop_stream {b : BitBuf} {rest : List UInt8} {n : Nat} (h : n ≤ b.len) : (b.drop n).stream rest = (b.stream rest).skip n :=
  consume_stream h

theorem drop_agree {b : BitBuf} {rest : List UInt8} {n : Nat} (h : n ≤ b.len) (ha : b.Agree rest) : (b.drop n).Agree rest :=
  consume_agree h ha

theorem drop_clean {b : BitBuf} {n : Nat} (h : n ≤ b.len) (ha : b.Clean) : (b.drop n).Clean := consume_clean h ha

theorem drop_drop (b : BitBuf) (m n : Nat) : (b.drop m).drop n = b.drop (m + n) := by
  simp only [BitBuf.drop, Nat.div_div_eq_div_mul, ← Nat.pow_add, Nat.sub_sub]

theorem drop_len (b : BitBuf) (n : Nat) : (b.drop n).len = b.len - n := rfl

/-! ## Entries -/

theorem shape_literal {cap tb W l x : Nat} {T : Tab} (h : Shape cap T tb W l (.literal x)) :
    ∃ e, T.read cap (W % 2 ^ tb) = some e ∧
      ((isLiteral e = true ∧ payloadField e % 256 = x ∧ baseLength e = l) ∨
       (isLiteral e = false ∧ isOffOrLen e = false ∧ fullLength e = (e &&& 63).toNat ∧
        ∃ e2, T.read cap (payloadField e + W % 2 ^ fullLength e / 2 ^ baseLength e) = some e2 ∧ fullLength e2 = (e2 &&& 63).toNat ∧
          isLiteral e2 = true ∧ payloadField e2 % 256 = x ∧ fullLength e2 = l)) := by
  obtain ⟨e, he, h⟩ := h
  refine ⟨e, he, ?_⟩
  rcases h with ⟨h1, h2⟩ | ⟨h1, h2, h3, h4⟩ | ⟨h1, h2, h3, e2, h4, h5, h6⟩
  · simp only [means, Bool.and_eq_true, beq_iff_eq] at h2
    exact Or.inl ⟨h1, h2.1.2, h2.2⟩
  · simp [means, h1] at h4
  · simp only [means, Bool.and_eq_true, beq_iff_eq] at h6
    exact Or.inr ⟨h1, h2, h3, e2, h4, h5, h6.1.1, h6.1.2, h6.2⟩

theorem shape_eob {cap tb W l : Nat} {T : Tab} (h : Shape cap T tb W l .endOfBlock) :
    ∃ e, T.read cap (W % 2 ^ tb) = some e ∧ isLiteral e = false ∧ isOffOrLen e = false ∧ fullLength e = (e &&& 63).toNat ∧
        ∃ e2, T.read cap (payloadField e + W % 2 ^ fullLength e / 2 ^ baseLength e) = some e2 ∧ fullLength e2 = (e2 &&& 63).toNat ∧
          isLiteral e2 = false ∧ isOffOrLen e2 = false ∧ isEob e2 = true ∧ isEobInvalid e2 = false ∧ fullLength e2 = l := by
  obtain ⟨e, he, h⟩ := h
  refine ⟨e, he, ?_⟩
  rcases h with ⟨h1, h2⟩ | ⟨h1, h2, h3, h4⟩ | ⟨h1, h2, h3, e2, h4, h5, h6⟩
  · simp [means, h1] at h2
  · simp [means, h2] at h4
  · simp only [means, Bool.and_eq_true, beq_iff_eq, Bool.not_eq_true'] at h6
    exact ⟨h1, h2, h3, e2, h4, h5, h6.1.1.1.1, h6.1.1.1.2, h6.1.1.2, h6.1.2, h6.2⟩

theorem shape_invalid {cap tb W l : Nat} {T : Tab} (h : Shape cap T tb W l .invalid) :
    ∃ e, T.read cap (W % 2 ^ tb) = some e ∧ isLiteral e = false ∧ isOffOrLen e = false ∧ fullLength e = (e &&& 63).toNat ∧
        ∃ e2, T.read cap (payloadField e + W % 2 ^ fullLength e / 2 ^ baseLength e) = some e2 ∧ fullLength e2 = (e2 &&& 63).toNat ∧
          isLiteral e2 = false ∧ isOffOrLen e2 = false ∧ isEob e2 = true ∧ isEobInvalid e2 = true ∧ fullLength e2 = l := by
  obtain ⟨e, he, h⟩ := h
  refine ⟨e, he, ?_⟩
  rcases h with ⟨h1, h2⟩ | ⟨h1, h2, h3, h4⟩ | ⟨h1, h2, h3, e2, h4, h5, h6⟩
  · simp [means, h1] at h2
  · simp [means, h2] at h4
  · simp only [means, Bool.and_eq_true, beq_iff_eq, Bool.not_eq_true'] at h6
    exact ⟨h1, h2, h3, e2, h4, h5, h6.1.1.1.1, h6.1.1.1.2, h6.1.1.2, h6.1.2, h6.2⟩

theorem shape_value {cap tb W l base extra : Nat} {T : Tab} (h : Shape cap T tb W l (.value base extra)) :
    ∃ e, T.read cap (W % 2 ^ tb) = some e ∧ isLiteral e = false ∧ fullLength e = (e &&& 63).toNat ∧
      ((isOffOrLen e = true ∧ payloadField e = base ∧ baseLength e = l ∧ fullLength e = l + extra) ∨
       (isOffOrLen e = false ∧
        ∃ e2, T.read cap (payloadField e + W % 2 ^ fullLength e / 2 ^ baseLength e) = some e2 ∧ fullLength e2 = (e2 &&& 63).toNat ∧
          isLiteral e2 = false ∧ isOffOrLen e2 = true ∧ isEob e2 = false ∧ payloadField e2 = base ∧ baseLength e2 = l ∧
          fullLength e2 = l + extra)) := by
  obtain ⟨e, he, h⟩ := h
  refine ⟨e, he, ?_⟩
  rcases h with ⟨h1, h2⟩ | ⟨h1, h2, h3, h4⟩ | ⟨h1, h2, h3, e2, h4, h5, h6⟩
  · simp [means, h1] at h2
  · simp only [means, Bool.and_eq_true, beq_iff_eq, Bool.not_eq_true'] at h4
    exact ⟨h1, h3, Or.inl ⟨h2, h4.1.1.1.2, h4.1.1.2, h4.1.2⟩⟩
  · simp only [means, Bool.and_eq_true, beq_iff_eq, Bool.not_eq_true'] at h6
    exact ⟨h1, h3, Or.inr ⟨h2, e2, h4, h5, h6.1.1.1.1.1.1, h6.1.1.1.1.1.2, h6.1.1.1.1.2, h6.1.1.1.2, h6.1.1.2, h6.1.2⟩⟩

/-! ## Symbols -/

def litBound : Meaning → Bool
  | .literal x => decide (x < 256)
  | .value base extra => decide (3 ≤ base ∧ extra ≤ 5 ∧ base + 2 ^ extra ≤ 259)
  | _ => true

theorem litLen_bounds : ∀ s < 288, litBound (litLenMeaning s) = true := by decide +kernel

def offBound (s : Nat) : Meaning → Bool
  | .value base extra => decide (1 ≤ base ∧ extra ≤ 13)
  | .invalid => decide (30 ≤ s)
  | _ => false

theorem offset_bounds : ∀ s < 32, offBound s (offsetMeaning s) = true := by decide +kernel

theorem lit_codes {ll : List Nat} {tb : Nat} {T : Tab} (h : LitTable ll tb T) {W s : Nat} (hc : Codes ll W s) :
    s < 288 ∧ 1 ≤ ll.getD s 0 ∧ ll.getD s 0 ≤ 15 := by
  have := hc.1
  have := h.hlen
  exact ⟨by omega, Nat.one_le_iff_ne_zero.2 hc.2.1, getD_le hc.1 h.h15⟩

theorem off_codes {ll : List Nat} {tb : Nat} {T : Tab} (h : OffTable ll tb T) {W s : Nat} (hc : Codes ll W s) :
    s < 32 ∧ 1 ≤ ll.getD s 0 ∧ ll.getD s 0 ≤ 15 := by
  have := hc.1
  have := h.hlen
  exact ⟨by omega, Nat.one_le_iff_ne_zero.2 hc.2.1, getD_le hc.1 h.h15⟩

theorem symbol_found {lens : List Nat} {b : BitBuf} {rest : List UInt8} {s : Nat} (h15 : ∀ l ∈ lens, l ≤ 15)
    (hk : Complete lens ∨ Single lens ∨ Unused lens) (hc : Codes lens b.word s) (hl : lens.getD s 0 ≤ b.len) :
    symbol lens (b.stream rest) = .ok (s, (b.drop (lens.getD s 0)).stream rest) := by
  rw [drop_stream hl]
  exact symbol_ok h15 (kraft_le hk) ((codes_stream hl).2 hc) (by rw [stream_len]; omega)

theorem codes_first {lens : List Nat} {N N' : Nat} (hs : Single lens ∨ Unused lens) (h : N.testBit 0 = N'.testBit 0)
    (hn : ∀ s, ¬ Codes lens N s) (s : Nat) : ¬ Codes lens N' s := by
  intro hc
  rcases hs with hs | hs
  · have hm : lens.getD s 0 ∈ lens.filter (· ≠ 0) := by
      refine List.mem_filter.2 ⟨?_, by simpa using hc.2.1⟩
      rw [List.getD_eq_getElem?_getD, List.getElem?_eq_getElem hc.1]
      exact List.getElem_mem hc.1
    rw [hs, List.mem_singleton] at hm
    refine hn s ((codes_congr ?_).2 hc)
    intro i hi
    rw [show i = 0 by omega]; exact h
  · refine hc.2.1 (hs _ ?_)
    rw [List.getD_eq_getElem?_getD, List.getElem?_eq_getElem hc.1]
    exact List.getElem_mem hc.1

/-- A codeword that is not found is not in the stream. -/
theorem missing_invalid {lens : List Nat} {b : BitBuf} {rest : List UInt8} (h15 : ∀ l ∈ lens, l ≤ 15)
    (hk : Complete lens ∨ Single lens ∨ Unused lens) (hn : ∀ s, ¬ Codes lens b.word s) (hl : 1 ≤ b.len) :
    symbol lens (b.stream rest) = .invalid := by
  have hnc : ¬ Complete lens := by
    intro hc
    obtain ⟨s, hs⟩ := complete_codes h15 hc b.word
    exact hn s hs
  have hno := codes_first (N' := (b.stream rest).val) (by tauto) (by rw [stream_testBit, if_pos (by omega)]) hn
  rw [symbol_none (fun s hs => absurd hs (hno s)), if_neg]
  rintro (h | h)
  · rw [stream_len] at h; omega
  · exact hnc h

theorem symbol_short {lens : List Nat} {b : BitBuf} {s : Nat} (h15 : ∀ l ∈ lens, l ≤ 15)
    (hk : Complete lens ∨ Single lens ∨ Unused lens) (ha : b.Agree []) (hc : Codes lens b.word s) (hl : b.len < lens.getD s 0) :
    symbol lens (b.stream []) = .truncated := by
  have hv := agree_nil ha
  have hu : ∀ t, Codes lens (b.stream []).val t → (b.stream []).len < lens.getD t 0 := by
    intro t ht
    rw [hv] at ht
    rw [codes_unique h15 (kraft_le hk) ht hc]
    simpa [stream_len] using hl
  rw [symbol_none hu]
  by_cases hcomp : Complete lens
  · rw [if_pos (Or.inr hcomp)]
  · rw [if_pos (Or.inl ?_)]
    have hs : Single lens ∨ Unused lens := by tauto
    rcases hs with hs | hs
    · have hm : lens.getD s 0 ∈ lens.filter (· ≠ 0) := by
        refine List.mem_filter.2 ⟨?_, by simpa using hc.2.1⟩
        rw [List.getD_eq_getElem?_getD, List.getElem?_eq_getElem hc.1]
        exact List.getElem_mem hc.1
      rw [hs, List.mem_singleton] at hm
      simp [stream_len]; omega
    · refine absurd (hs _ ?_) hc.2.1
      rw [List.getD_eq_getElem?_getD, List.getElem?_eq_getElem hc.1]
      exact List.getElem_mem hc.1

theorem missing_short {lens : List Nat} {b : BitBuf} (ha : b.Agree []) (hn : ∀ s, ¬ Codes lens b.word s) (hl : b.len < 1) :
    symbol lens (b.stream []) = .truncated := by
  rw [symbol_none (fun s hs => absurd (by rwa [agree_nil ha] at hs) (hn s)), if_pos (Or.inl (by simp [stream_len]; omega))]

theorem bits_drop {b : BitBuf} {rest : List UInt8} {n : Nat} (h : n ≤ b.len) :
    bits n (b.stream rest) = .ok (b.word % 2 ^ n, (b.drop n).stream rest) := by
  rw [bits_ok h]
  simp [BitBuf.extract, BitBuf.drop]

/-! ## What follows a symbol -/

/-- The offset of a match of length `n`, and the rest of the block. -/
def offsetPart (ll dl : List Nat) (out : List UInt8) (n : Nat) (S : Stream) : Result (List UInt8 × Stream) :=
  (symbol dl S).bind fun d =>
    match offsetMeaning d.1 with
    | .value obase oextra =>
      (bits oextra d.2).bind fun w =>
      if out.length < obase + w.1 then .invalid
      else huffman ll dl w.2 (out ++ copied out (obase + w.1) n)
    | _ => .invalid

variable {ll dl : List Nat} {tb : Nat} {T : Tab} {b : BitBuf} {rest out : List UInt8} {s : Nat}

theorem lit_code (h : LitTable ll tb T) : Complete ll ∨ Single ll ∨ Unused ll := by
  have := h.hcode; tauto

theorem spec_literal (h : LitTable ll tb T) (hc : Codes ll b.word s) (hl : ll.getD s 0 ≤ b.len) {x : Nat}
    (hm : litLenMeaning s = .literal x) : huffman ll dl (b.stream rest) out =
      huffman ll dl ((b.drop (ll.getD s 0)).stream rest) (out ++ [UInt8.ofNat x]) := by
  rw [huffman_eq, symbol_found h.h15 (lit_code h) hc hl]
  simp only [bind_ok, hm]

theorem spec_eob (h : LitTable ll tb T) (hc : Codes ll b.word s) (hl : ll.getD s 0 ≤ b.len) 
    (hm : litLenMeaning s = .endOfBlock) : huffman ll dl (b.stream rest) out = .ok (out, (b.drop (ll.getD s 0)).stream rest) := by
  rw [huffman_eq, symbol_found h.h15 (lit_code h) hc hl]
  simp only [bind_ok, hm]

theorem spec_invalid (h : LitTable ll tb T) (hc : Codes ll b.word s) (hl : ll.getD s 0 ≤ b.len) 
    (hm : litLenMeaning s = .invalid) : huffman ll dl (b.stream rest) out = .invalid := by
  rw [huffman_eq, symbol_found h.h15 (lit_code h) hc hl]
  simp only [bind_ok, hm]

theorem spec_missing (h : LitTable ll tb T) (hc : ∀ s, ¬ Codes ll b.word s) (hl : 1 ≤ b.len) :
    huffman ll dl (b.stream rest) out = .invalid := by
  rw [huffman_eq, missing_invalid h.h15 (lit_code h) hc hl, bind_invalid]

theorem spec_value (h : LitTable ll tb T) (hc : Codes ll b.word s) {base extra : Nat} (hl : ll.getD s 0 + extra ≤ b.len)
    (hm : litLenMeaning s = .value base extra) : huffman ll dl (b.stream rest) out =
      offsetPart ll dl out (base + b.word % 2 ^ (ll.getD s 0 + extra) / 2 ^ ll.getD s 0) ((b.drop (ll.getD s 0 + extra)).stream rest) := by
  rw [huffman_eq, symbol_found h.h15 (lit_code h) hc (by omega)]
  simp only [bind_ok, hm]
  rw [bits_drop (by rw [drop_len]; omega), drop_drop]
  simp only [bind_ok, BitBuf.drop, offsetPart]
  rw [Nat.pow_add, Nat.mod_mul_right_div_self]
  rfl

theorem spec_lit_short (h : LitTable ll tb T) (ha : b.Agree []) (hc : Codes ll b.word s) (hl : b.len < ll.getD s 0) :
    huffman ll dl (b.stream []) out = .truncated := by
  rw [huffman_eq, symbol_short h.h15 (lit_code h) ha hc hl, bind_truncated]

theorem spec_missing_short (ha : b.Agree []) (hc : ∀ s, ¬ Codes ll b.word s) (hl : b.len < 1) :
    huffman ll dl (b.stream []) out = .truncated := by
  rw [huffman_eq, missing_short ha hc hl, bind_truncated]

theorem spec_value_short (h : LitTable ll tb T) (ha : b.Agree []) (hc : Codes ll b.word s) {base extra : Nat}
    (hl : b.len < ll.getD s 0 + extra) (hm : litLenMeaning s = .value base extra) :
    huffman ll dl (b.stream []) out = .truncated := by
  by_cases h1 : b.len < ll.getD s 0
  · exact spec_lit_short h ha hc h1
  · rw [huffman_eq, symbol_found h.h15 (lit_code h) hc (by omega)]
    simp only [bind_ok, hm]
    rw [bits_short (by rw [stream_len, drop_len, List.length_nil]; omega), bind_truncated]

theorem off_value (h : OffTable dl tb T) (hc : Codes dl b.word s) {base extra n : Nat} (hl : dl.getD s 0 + extra ≤ b.len)
    (hm : offsetMeaning s = .value base extra) : offsetPart ll dl out n (b.stream rest) =
      if out.length < base + b.word % 2 ^ (dl.getD s 0 + extra) / 2 ^ dl.getD s 0 then .invalid
      else huffman ll dl ((b.drop (dl.getD s 0 + extra)).stream rest)
        (out ++ copied out (base + b.word % 2 ^ (dl.getD s 0 + extra) / 2 ^ dl.getD s 0) n) := by
  rw [offsetPart, symbol_found h.h15 h.hcode hc (by omega)]
  simp only [bind_ok, hm]
  rw [bits_drop (by rw [drop_len]; omega), drop_drop]
  simp only [bind_ok, BitBuf.drop]
  rw [Nat.pow_add, Nat.mod_mul_right_div_self]

theorem off_value_short (h : OffTable dl tb T) (ha : b.Agree []) (hc : Codes dl b.word s) {base extra n : Nat}
    (hl : b.len < dl.getD s 0 + extra) (hm : offsetMeaning s = .value base extra) :
    offsetPart ll dl out n (b.stream []) = .truncated := by
  by_cases h1 : b.len < dl.getD s 0
  · rw [offsetPart, symbol_short h.h15 h.hcode ha hc h1, bind_truncated]
  · rw [offsetPart, symbol_found h.h15 h.hcode hc (by omega)]
    simp only [bind_ok, hm]
    rw [bits_short (by rw [stream_len, drop_len, List.length_nil]; omega), bind_truncated]

/-- Bits that stand for no offset stand for no offset in the stream either. -/
theorem off_never {n : Nat} {S : Stream} (h : ∀ d S1, symbol dl S = .ok (d, S1) → offsetMeaning d = .invalid)
    (o : List UInt8 × Stream) : offsetPart ll dl out n S ≠ .ok o := by
  rw [offsetPart]
  cases hs : symbol dl S with
  | ok d =>
    obtain ⟨d, S1⟩ := d
    simp only [bind_ok, h d S1 hs]
    simp
  | _ => simp

theorem code_fixed : ∀ s < 32, codeOf fixedOffset s = s ∧ fixedOffset.getD s 0 = 5 := by decide +kernel

theorem fixed_high : ∀ s < 32, (∀ i < 4, s.testBit (5 - 1 - i) = true) → 30 ≤ s := by decide +kernel
theorem fixed_high' : ∀ s < 32, 30 ≤ s → ∀ i < 4, s.testBit (5 - 1 - i) = true := by decide +kernel
theorem meaning_high {s : Nat} (h : 30 ≤ s) : offsetMeaning s = .invalid := by
  rw [offsetMeaning, if_neg (by omega), if_neg (by omega)]

/-- The same for bits that are in the buffer above its length. -/
theorem off_agree (hok : OffsetOk dl) (h : OffTable dl tb T) (ha : b.Agree rest)
    (hc : (∃ s, Codes dl b.word s ∧ offsetMeaning s = .invalid) ∨ ∀ s, ¬ Codes dl b.word s) :
    ∀ d S1, symbol dl (b.stream rest) = .ok (d, S1) → offsetMeaning d = .invalid := by
  intro d S1 hd
  obtain ⟨hd1, hd2, _⟩ := symbol_inv hd
  rcases hc with ⟨s, hs, hm⟩ | hn
  · have hb := offset_bounds s (off_codes h hs).1
    rw [hm] at hb
    simp only [offBound, decide_eq_true_eq] at hb
    rcases hok with hok | hok
    · subst hok
      apply meaning_high
      have hdl : d < 32 := (off_codes h hd1).1
      refine fixed_high d hdl fun i hi => ?_
      have h1 := hd1.2.2
      have h2 := hs.2.2
      rw [(code_fixed d hdl).1, (code_fixed d hdl).2] at h1
      rw [(code_fixed s (off_codes h hs).1).1, (code_fixed s (off_codes h hs).1).2] at h2
      rw [← h1 i (by omega)]
      exact ha i (by rw [h2 i (by omega)]; exact fixed_high' s (off_codes h hs).1 hb i hi)
    · exact absurd (hok s hb) hs.2.1
  · have hnc : ¬ Complete dl := by
      intro hc
      obtain ⟨s, hs⟩ := complete_codes h.h15 hc b.word
      exact hn s hs
    have hcode : Single dl ∨ Unused dl := by have := h.hcode; tauto
    rcases hcode with hs | hs
    · obtain ⟨s, s1, s2, s3, s4⟩ := single_split hs
      obtain rfl := s4 d hd1.2.1
      have h1 := hd1.2.2
      rw [s2, s3] at h1
      have h2 := h1 0 (by omega)
      simp only [Nat.zero_testBit] at h2
      refine absurd ⟨hd1.1, hd1.2.1, ?_⟩ (hn d)
      rw [s2, s3]
      intro i hi
      rw [show i = 0 by omega, Nat.zero_testBit]
      cases hw : b.word.testBit 0 with
      | false => rfl
      | true => rw [ha 0 hw] at h2; exact absurd h2 (by simp)
    · refine absurd (hs _ ?_) hd1.2.1
      rw [List.getD_eq_getElem?_getD, List.getElem?_eq_getElem hd1.1]
      exact List.getElem_mem hd1.1

end Blend2D.Deflate
