import Verif.Deflate.Tables

/-!
# C35: Huffman tables of the deflate decoder

The input of the decoder is arbitrary, and so are the code lengths it reads (up to 15, up to 288 literals and lengths, up to
32 offsets, and up to 7 for 19 precode symbols).  `none` is an access outside a table, so the theorems that give a result also
say that there is none.
-/

namespace Blend2D.Deflate
open Spec

/-! ## Building -/

/-- Building the literal/length table never leaves its arrays, whatever the lengths are: it either succeeds or rejects. -/
theorem C35_litlen_table_built (t : Tab) (g : Nat → Nat) (lens : List Nat) (h : lens.length ≤ 288) (h15 : ∀ l ∈ lens, l ≤ 15) :
    if Complete lens ∨ Single lens then ∃ info T, buildLitLen t g lens = some (some (info, T)) ∧ info.tableBits ≠ 0
    else buildLitLen t g lens = some none := by
  obtain ⟨h1, h2⟩ := litlen_cases t g h h15
  split
  · rename_i hc
    obtain ⟨info, T, e1, e2⟩ := h1 hc
    refine ⟨info, T, e1, ?_⟩
    have := tb_pos 11 (usedMaxLen lens 15)
    rw [e2.1]; omega
  · rename_i hc; exact h2 hc

/-- The same for offsets, which need no codewords at all. -/
theorem C35_offset_table_built (t : Tab) (g : Nat → Nat) (lens : List Nat) (h : lens.length ≤ 32) (h15 : ∀ l ∈ lens, l ≤ 15) :
    if Complete lens ∨ Single lens ∨ Unused lens then ∃ info T, buildOffset t g lens = some (some (info, T)) ∧ info.tableBits ≠ 0
    else buildOffset t g lens = some none := by
  obtain ⟨h1, h2⟩ := offset_cases t g h h15
  split
  · rename_i hc
    obtain ⟨info, T, e1, e2⟩ := h1 hc
    refine ⟨info, T, e1, ?_⟩
    have := tb_pos 9 (usedMaxLen lens 15)
    rw [e2.1]; omega
  · rename_i hc; exact h2 hc

/-- The same for the precode, which has to be complete. -/
theorem C35_precode_table_built (t : Tab) (g : Nat → Nat) (lens : List Nat) (h : lens.length ≤ 19) (h7 : ∀ l ∈ lens, l ≤ 7) :
    if Complete lens then ∃ info T, buildPrecode t g lens = some (some (info, T)) ∧ info.tableBits ≠ 0
    else buildPrecode t g lens = some none := by
  obtain ⟨h1, h2⟩ := precode_cases t g h h7
  split
  · rename_i hc
    obtain ⟨info, T, e1, e2⟩ := h1 hc
    refine ⟨info, T, e1, ?_⟩
    have := tb_pos 7 (usedMaxLen lens 7)
    rw [e2.1]; omega
  · rename_i hc; exact h2 hc

/-- The lengths of the static code. -/
def staticLitLen : List Nat := List.replicate 144 8 ++ List.replicate 112 9 ++ List.replicate 24 7 ++ List.replicate 8 8
@[inherit_doc staticLitLen] def staticOffset : List Nat := List.replicate 32 5

/-- Both static codes are complete, a code with subtables is, and a list of lengths can be rejected. -/
example : Complete staticLitLen ∧ Complete staticOffset ∧ staticLitLen.length = 288 ∧
    Complete ([1, 2, 3, 4, 5, 6, 7, 8, 9, 10, 11, 12, 13, 14, 15, 15] : List Nat) ∧
    Single [0, 0, 1, 0] ∧ Unused [0, 0] ∧ ¬ Complete [2, 2] ∧ ¬ Single [2, 2] := by
  decide +kernel

/-! ## Lookups -/

/-- A complete code is unambiguous: any input begins with exactly one codeword. -/
theorem C35_complete_code (lens : List Nat) (h15 : ∀ l ∈ lens, l ≤ 15) (hc : Complete lens) (bits : Nat) :
    ∃ s, Codes lens bits s ∧ ∀ s', Codes lens bits s' → s' = s := by
  obtain ⟨s, hs⟩ := complete_codes h15 hc bits
  exact ⟨s, hs, fun s' hs' => codes_unique h15 (Nat.le_of_eq hc) hs' hs⟩

/-- A literal/length table decodes every codeword to its symbol, consuming the codeword and the extra bits. -/
theorem C35_litlen_lookup (t : Tab) (g : Nat → Nat) (lens : List Nat) (h : lens.length ≤ 288) (h15 : ∀ l ∈ lens, l ≤ 15)
    (info : Info) (T : Tab) (hb : buildLitLen t g lens = some (some (info, T))) (bits s : Nat) (hs : Codes lens bits s) :
    ∃ r, lookupLitLen 2342 T info.tableBits bits = some r ∧ means r (lens.getD s 0) (litLenMeaning s) = true := by
  obtain ⟨h1, h2⟩ := litlen_cases t g h h15
  by_cases hc : Complete lens ∨ Single lens
  · obtain ⟨info', T', e1, e2⟩ := h1 hc
    rw [hb] at e1
    simp only [Option.some.injEq, Prod.mk.injEq] at e1
    obtain ⟨rfl, rfl⟩ := e1
    exact (litlen_lookup h h15 e2).1 bits s hs
  · rw [h2 hc] at hb
    simp at hb

/-- Input that begins with no codeword is recognised as invalid. -/
theorem C35_litlen_lookup_invalid (t : Tab) (g : Nat → Nat) (lens : List Nat) (h : lens.length ≤ 288) (h15 : ∀ l ∈ lens, l ≤ 15)
    (info : Info) (T : Tab) (hb : buildLitLen t g lens = some (some (info, T))) (bits : Nat) (hs : ∀ s, ¬ Codes lens bits s) :
    ∃ r, lookupLitLen 2342 T info.tableBits bits = some r ∧ means r 1 .invalid = true := by
  obtain ⟨h1, h2⟩ := litlen_cases t g h h15
  by_cases hc : Complete lens ∨ Single lens
  · obtain ⟨info', T', e1, e2⟩ := h1 hc
    rw [hb] at e1
    simp only [Option.some.injEq, Prod.mk.injEq] at e1
    obtain ⟨rfl, rfl⟩ := e1
    exact (litlen_lookup h h15 e2).2 bits hs
  · rw [h2 hc] at hb
    simp at hb

/-- An offset table decodes every codeword to its symbol. -/
theorem C35_offset_lookup (t : Tab) (g : Nat → Nat) (lens : List Nat) (h : lens.length ≤ 32) (h15 : ∀ l ∈ lens, l ≤ 15)
    (info : Info) (T : Tab) (hb : buildOffset t g lens = some (some (info, T))) (bits s : Nat) (hs : Codes lens bits s) :
    ∃ r, lookupOffset 594 T info.tableBits bits = some r ∧ means r (lens.getD s 0) (offsetMeaning s) = true := by
  obtain ⟨h1, h2⟩ := offset_cases t g h h15
  by_cases hc : Complete lens ∨ Single lens ∨ Unused lens
  · obtain ⟨info', T', e1, e2⟩ := h1 hc
    rw [hb] at e1
    simp only [Option.some.injEq, Prod.mk.injEq] at e1
    obtain ⟨rfl, rfl⟩ := e1
    exact (offset_lookup h h15 e2).1 bits s hs
  · rw [h2 hc] at hb
    simp at hb

/-- Input that begins with no codeword is recognised as invalid. -/
theorem C35_offset_lookup_invalid (t : Tab) (g : Nat → Nat) (lens : List Nat) (h : lens.length ≤ 32) (h15 : ∀ l ∈ lens, l ≤ 15)
    (info : Info) (T : Tab) (hb : buildOffset t g lens = some (some (info, T))) (bits : Nat) (hs : ∀ s, ¬ Codes lens bits s) :
    ∃ r, lookupOffset 594 T info.tableBits bits = some r ∧ means r 1 .invalid = true := by
  obtain ⟨h1, h2⟩ := offset_cases t g h h15
  by_cases hc : Complete lens ∨ Single lens ∨ Unused lens
  · obtain ⟨info', T', e1, e2⟩ := h1 hc
    rw [hb] at e1
    simp only [Option.some.injEq, Prod.mk.injEq] at e1
    obtain ⟨rfl, rfl⟩ := e1
    exact (offset_lookup h h15 e2).2 bits hs
  · rw [h2 hc] at hb
    simp at hb

/-- A precode table decodes every codeword to its symbol. -/
theorem C35_precode_lookup (t : Tab) (g : Nat → Nat) (lens : List Nat) (h : lens.length ≤ 19) (h7 : ∀ l ∈ lens, l ≤ 7)
    (info : Info) (T : Tab) (hb : buildPrecode t g lens = some (some (info, T))) (bits s : Nat) (hs : Codes lens bits s) :
    ∃ e, T.read 128 (bits % 2 ^ info.tableBits) = some e ∧ meansPrecode e (lens.getD s 0) s = true := by
  obtain ⟨h1, h2⟩ := precode_cases t g h h7
  by_cases hc : Complete lens
  · obtain ⟨info', T', e1, e2⟩ := h1 hc
    rw [hb] at e1
    simp only [Option.some.injEq, Prod.mk.injEq] at e1
    obtain ⟨rfl, rfl⟩ := e1
    exact precode_lookup h h7 hc e2 bits s hs
  · rw [h2 hc] at hb
    simp at hb

/-- The static literal/length code: symbol 256 is seven zeros, symbol 0 is `00110000`. -/
example : Codes staticLitLen 0 256 ∧ Codes staticLitLen 0b00001100 0 ∧ codeOf staticLitLen 0 = 0b00110000 ∧
    codeOf staticLitLen 144 = 0b110010000 ∧ codeOf staticLitLen 280 = 0b11000000 := by
  decide +kernel

/-! ## The fast loop -/

/-- The full claim, that the fast loop looks up offsets like the other loops do, is false (`C35_fast_offset_counterexample`).
It is true of valid offsets. -/
theorem C35_fast_offset_lookup_partial (t : Tab) (g : Nat → Nat) (lens : List Nat) (h : lens.length ≤ 32) (h15 : ∀ l ∈ lens, l ≤ 15)
    (info : Info) (T : Tab) (hb : buildOffset t g lens = some (some (info, T))) (bits s : Nat) (hs : Codes lens bits s) (h30 : s < 30) :
    ∃ r, lookupOffsetFast 594 T info.tableBits bits = some r.1 ∧ means r (lens.getD s 0) (offsetMeaning s) = true := by
  obtain ⟨h1, h2⟩ := offset_cases t g h h15
  by_cases hc : Complete lens ∨ Single lens ∨ Unused lens
  · obtain ⟨info', T', e1, e2⟩ := h1 hc
    rw [hb] at e1
    simp only [Option.some.injEq, Prod.mk.injEq] at e1
    obtain ⟨rfl, rfl⟩ := e1
    obtain ⟨r, r1, r2⟩ := (offset_lookup h h15 e2).1 bits s hs
    exact ⟨r, by rw [fast_valid h h15 e2 hs (Or.inl h30), r1]; rfl, r2⟩
  · rw [h2 hc] at hb
    simp at hb

/-- The fast loop reads outside the offset table where the input has the offset symbol 30 or 31 with a codeword that fits in
the main table, or no codeword. -/
theorem C35_fast_offset_counterexample (t : Tab) (g : Nat → Nat) (lens : List Nat) (h : lens.length ≤ 32) (h15 : ∀ l ∈ lens, l ≤ 15)
    (info : Info) (T : Tab) (hb : buildOffset t g lens = some (some (info, T))) (bits : Nat)
    (hcd : (∃ s, Codes lens bits s ∧ 30 ≤ s ∧ lens.getD s 0 ≤ info.tableBits) ∨ ∀ s, ¬ Codes lens bits s) :
    lookupOffsetFast 594 T info.tableBits bits = none := by
  obtain ⟨h1, h2⟩ := offset_cases t g h h15
  by_cases hc : Complete lens ∨ Single lens ∨ Unused lens
  · obtain ⟨info', T', e1, e2⟩ := h1 hc
    rw [hb] at e1
    simp only [Option.some.injEq, Prod.mk.injEq] at e1
    obtain ⟨rfl, rfl⟩ := e1
    exact fast_invalid h h15 e2 hcd
  · rw [h2 hc] at hb
    simp at hb

/-- The static code has such a symbol: the five bits `11110`. -/
theorem C35_fast_static_offset_counterexample (t : Tab) (g : Nat → Nat) :
    ∃ info T, buildOffset t g staticOffset = some (some (info, T)) ∧ lookupOffsetFast 594 T info.tableBits 0b01111 = none := by
  have h15 : ∀ l ∈ staticOffset, l ≤ 15 := by decide
  have hc : Complete staticOffset := by decide +kernel
  obtain ⟨info, T, e1, e2⟩ := (offset_cases t g (lens := staticOffset) (by decide) h15).1 (Or.inl hc)
  refine ⟨info, T, e1, fast_invalid (lens := staticOffset) (by decide) h15 e2 (Or.inl ⟨30, ?_, by omega, ?_⟩)⟩
  · decide +kernel
  · rw [e2.1]; decide +kernel

end Blend2D.Deflate
