import Verif.Deflate.Tables

/-!
# What the loops of the decoder find in the tables
-/

namespace Blend2D.Deflate
open Spec

/-- The entry that is found with the bits `W` of the input: in the main table, or in a subtable it links to. -/
def Shape (cap : Nat) (T : Tab) (tb W l : Nat) (m : Meaning) : Prop :=
  ∃ e, T.read cap (W % 2 ^ tb) = some e ∧
    ((isLiteral e = true ∧ means (e, baseLength e) l m = true) ∨
     (isLiteral e = false ∧ isOffOrLen e = true ∧ fullLength e = (e &&& 63).toNat ∧ means (e, fullLength e) l m = true) ∨
     (isLiteral e = false ∧ isOffOrLen e = false ∧ fullLength e = (e &&& 63).toNat ∧
       ∃ e2, T.read cap (payloadField e + W % 2 ^ fullLength e / 2 ^ baseLength e) = some e2 ∧
         fullLength e2 = (e2 &&& 63).toNat ∧ means (e2, fullLength e2) l m = true))

theorem means_full {e : Entry} {l : Nat} {m : Meaning} (h : means (e, fullLength e) l m = true) (h1 : isOffOrLen e = true)
    (h2 : isLiteral e = false) : fullLength e = (e &&& 63).toNat := by
  cases m <;> simp_all [means]

theorem top_shape {e : Entry} {cap tb l N : Nat} {T : Tab} {m : Meaning} (hcap2 : 2 ^ tb ≤ cap) (hl : l ≤ tb)
    (hT1 : T (N % 2 ^ tb) = e) (hT2 : T (N % 2 ^ l) = e) (htop : topOk e l m = true) : Shape cap T tb N l m := by
  have hi : N % 2 ^ tb < 2 ^ tb := Nat.mod_lt _ (Nat.two_pow_pos _)
  have hi2 : N % 2 ^ l < 2 ^ tb := Nat.lt_of_lt_of_le (Nat.mod_lt _ (Nat.two_pow_pos _)) (Nat.pow_le_pow_right (by omega) hl)
  simp only [topOk] at htop
  refine ⟨e, by rw [Tab.read, if_pos (show N % 2 ^ tb < cap by omega), hT1], ?_⟩
  by_cases c1 : isLiteral e = true
  · rw [if_pos c1] at htop
    exact Or.inl ⟨c1, htop⟩
  · rw [if_neg c1] at htop
    have c1' : isLiteral e = false := by simpa using c1
    by_cases c2 : isOffOrLen e = true
    · rw [if_pos c2] at htop
      exact Or.inr (Or.inl ⟨c1', c2, means_full htop c2 c1', htop⟩)
    · rw [if_neg c2] at htop
      simp only [Bool.and_eq_true, beq_iff_eq] at htop
      obtain ⟨⟨⟨⟨d1, d2⟩, d3⟩, d4⟩, d5⟩ := htop
      refine Or.inr (Or.inr ⟨c1', by simpa using c2, by omega, e, ?_, by omega, d5⟩)
      rw [d1, d2, d3, Nat.pow_zero, Nat.div_one, Nat.zero_add, Tab.read, if_pos (show N % 2 ^ l < cap by omega), hT2]

theorem good_shape {results : List Entry} {lens : List Nat} {tb cap s N : Nat} {T : Tab} {e : Entry} {m : Meaning}
    (hcap : cap ≤ 2 ^ 15) (htb : tb ≤ 15) (hcap2 : 2 ^ tb ≤ cap) (h15 : lens.getD s 0 ≤ 15)
    (hg : Good results tb cap T (s, lens.getD s 0, codeOf lens s * wt (lens.getD s 0)))
    (he : results[s]? = some e) (htop : topOk (makeTop e (lens.getD s 0)) (lens.getD s 0) m = true)
    (hsub : means (makeSub e (lens.getD s 0), fullLength (makeSub e (lens.getD s 0))) (lens.getD s 0) m = true)
    (hsub63 : fullLength (makeSub e (lens.getD s 0)) = (makeSub e (lens.getD s 0) &&& 63).toNat)
    (hN : StartsWith N (lens.getD s 0) (codeOf lens s)) :
    Shape cap T tb N (lens.getD s 0) m := by
  rw [startsWith_iff] at hN
  generalize lens.getD s 0 = l at *
  have hrev : rev 15 (codeOf lens s * wt l) = N % 2 ^ l := by
    rw [hN]; exact rev15_code h15
  have hi : N % 2 ^ tb < 2 ^ tb := Nat.mod_lt _ (Nat.two_pow_pos _)
  by_cases hl : l ≤ tb
  · have hT : ∀ i < 2 ^ tb, i % 2 ^ l = N % 2 ^ l → T i = makeTop e l := by
      intro i hi h
      exact hg.1 hl e he i hi (by simp only []; rw [hrev]; exact h)
    exact top_shape hcap2 hl (hT (N % 2 ^ tb) hi (Nat.mod_mod_of_dvd _ (Nat.pow_dvd_pow 2 hl)))
      (hT (N % 2 ^ l) (Nat.lt_of_lt_of_le (Nat.mod_lt _ (Nat.two_pow_pos _)) (Nat.pow_le_pow_right (by omega) hl))
      (Nat.mod_mod _ _)) htop
  · obtain ⟨st, b, g1, g2, g3, g4, g5, g6⟩ := hg.2 (by simp only []; omega)
    simp only [] at g1 g5 g6
    rw [hrev] at g5 g6
    rw [Nat.mod_mod_of_dvd _ (Nat.pow_dvd_pow 2 (show tb ≤ l by omega))] at g5
    have hb := Nat.two_pow_pos b
    obtain ⟨f1, f2, f3, _, f5, f6, f7⟩ := link_fields (st := st) (tb := tb) (f := tb + b) (by omega) (by omega) (by omega)
    have hj : N % 2 ^ (tb + b) / 2 ^ tb < 2 ^ b := by
      rw [Nat.div_lt_iff_lt_mul (Nat.two_pow_pos _), ← Nat.pow_add, Nat.add_comm b tb]
      exact Nat.mod_lt _ (Nat.two_pow_pos _)
    have hT := g6 e he _ hj (sub_index (by omega) g1)
    refine ⟨_, by rw [Tab.read, if_pos (show N % 2 ^ tb < cap by omega), g5], Or.inr (Or.inr ⟨f1, f2, by omega, makeSub e l, ?_, hsub63, hsub⟩)⟩
    rw [f3, f5, f6, Tab.read, if_pos (show st + N % 2 ^ (tb + b) / 2 ^ tb < cap by omega), hT]

theorem litLen_sub63 : ∀ s < 288, ∀ l < 16,
    fullLength (makeSub (litLenResults.getD s 0) l) = (makeSub (litLenResults.getD s 0) l &&& 63).toNat := by
  decide +kernel

theorem offset_sub63 : ∀ s < 32, ∀ l < 16,
    fullLength (makeSub (offsetResults.getD s 0) l) = (makeSub (offsetResults.getD s 0) l &&& 63).toNat := by
  decide +kernel

/-- A literal/length table that belongs to a code. -/
structure LitTable (lens : List Nat) (tb : Nat) (T : Tab) : Prop where
  hlen : lens.length ≤ 288
  h15 : ∀ l ∈ lens, l ≤ 15
  htb : tb ≤ 11
  hcode : Complete lens ∨ Single lens
  found : ∀ W s, Codes lens W s → Shape 2342 T tb W (lens.getD s 0) (litLenMeaning s)
  missing : ∀ W, (∀ s, ¬ Codes lens W s) → Shape 2342 T tb W 1 .invalid

/-- An offset table that belongs to a code. -/
structure OffTable (lens : List Nat) (tb : Nat) (T : Tab) : Prop where
  hlen : lens.length ≤ 32
  h15 : ∀ l ∈ lens, l ≤ 15
  htb : tb ≤ 9
  hcode : Complete lens ∨ Single lens ∨ Unused lens
  found : ∀ W s, Codes lens W s → Shape 594 T tb W (lens.getD s 0) (offsetMeaning s)
  missing : ∀ W, (∀ s, ¬ Codes lens W s) → Shape 594 T tb W 1 .invalid

theorem litTable {lens : List Nat} {info : Info} {T : Tab} (h : lens.length ≤ 288) (h15 : ∀ l ∈ lens, l ≤ 15)
    (hcode : Complete lens ∨ Single lens) (hb : Built 2342 11 15 lens litLenResults info T) : LitTable lens info.tableBits T := by
  have hS := setup_litlen h h15
  have htb : info.tableBits ≤ 11 := by rw [hb.1]; simp only [tableBitsOf]; omega
  have htb1 : 1 ≤ info.tableBits := by rw [hb.1]; exact tb_pos _ _
  have hcap : 2 ^ info.tableBits ≤ 2342 := by rw [hb.1]; exact hS.hcap
  refine ⟨h, h15, htb, hcode, ?_, ?_⟩
  · by_cases hc : Complete lens
    · have hg := built_complete hb hc
      intro N s hcd
      have h1 := hcd.2.1
      have hl := getD_le hcd.1 h15
      have hsl := hcd.1
      exact good_shape (by omega) (by omega) hcap hl (hg s hcd.1 (by omega))
        (getD_some (d := 0) (by rw [show litLenResults.length = 288 by decide +kernel]; omega))
        (litLen_top s (by omega) _ (by omega) (by omega)) (litLen_sub s (by omega) _ (by omega) (by omega))
        (litLen_sub63 s (by omega) _ (by omega)) hcd.2.2
    · obtain ⟨p1, p2⟩ := built_partial hb hS hc
      intro N s hcd
      have hsl := hcd.1
      obtain ⟨q1, q2, q3⟩ := p1 N s _ hcd (getD_some (d := 0) (by rw [show litLenResults.length = 288 by decide +kernel]; omega))
      rw [q1]
      exact top_shape hcap htb1 q2 q3 (litLen_top s (by omega) 1 (by omega) (by omega))
  · intro N hno
    by_cases hc : Complete lens
    · obtain ⟨s, hs⟩ := complete_codes h15 hc N
      exact absurd hs (hno s)
    · obtain ⟨p1, p2⟩ := built_partial hb hS hc
      obtain ⟨q2, q3⟩ := p2 N hno
      exact top_shape hcap htb1 q2 q3 invalid_top

theorem offTable {lens : List Nat} {info : Info} {T : Tab} (h : lens.length ≤ 32) (h15 : ∀ l ∈ lens, l ≤ 15)
    (hcode : Complete lens ∨ Single lens ∨ Unused lens) (hb : Built 594 9 15 lens offsetResults info T) :
    OffTable lens info.tableBits T := by
  have hS := setup_offset h h15
  have htb : info.tableBits ≤ 9 := by rw [hb.1]; simp only [tableBitsOf]; omega
  have htb1 : 1 ≤ info.tableBits := by rw [hb.1]; exact tb_pos _ _
  have hcap : 2 ^ info.tableBits ≤ 594 := by rw [hb.1]; exact hS.hcap
  refine ⟨h, h15, htb, hcode, ?_, ?_⟩
  · by_cases hc : Complete lens
    · have hg := built_complete hb hc
      intro N s hcd
      have h1 := hcd.2.1
      have hl := getD_le hcd.1 h15
      have hsl := hcd.1
      exact good_shape (by omega) (by omega) hcap hl (hg s hcd.1 (by omega))
        (getD_some (d := 0) (by rw [show offsetResults.length = 32 by decide +kernel]; omega))
        (offset_top s (by omega) _ (by omega) (by omega)) (offset_sub s (by omega) _ (by omega) (by omega))
        (offset_sub63 s (by omega) _ (by omega)) hcd.2.2
    · obtain ⟨p1, p2⟩ := built_partial hb hS hc
      intro N s hcd
      have hsl := hcd.1
      obtain ⟨q1, q2, q3⟩ := p1 N s _ hcd (getD_some (d := 0) (by rw [show offsetResults.length = 32 by decide +kernel]; omega))
      rw [q1]
      exact top_shape hcap htb1 q2 q3 (offset_top s (by omega) 1 (by omega) (by omega))
  · intro N hno
    by_cases hc : Complete lens
    · obtain ⟨s, hs⟩ := complete_codes h15 hc N
      exact absurd hs (hno s)
    · obtain ⟨p1, p2⟩ := built_partial hb hS hc
      obtain ⟨q2, q3⟩ := p2 N hno
      exact top_shape hcap htb1 q2 q3 invalid_top

/-- A precode table that belongs to a code. -/
structure PreTable (lens : List Nat) (tb : Nat) (T : Tab) : Prop where
  hlen : lens.length ≤ 19
  h7 : ∀ l ∈ lens, l ≤ 7
  htb : tb ≤ 7
  hcode : Complete lens
  found : ∀ W s, Codes lens W s → ∃ e, T.read 128 (W % 2 ^ tb) = some e ∧ meansPrecode e (lens.getD s 0) s = true

theorem preTable {lens : List Nat} {info : Info} {T : Tab} (h : lens.length ≤ 19) (h7 : ∀ l ∈ lens, l ≤ 7)
    (hc : Complete lens) (hb : Built 128 7 7 lens precodeResults info T) : PreTable lens info.tableBits T :=
  ⟨h, h7, by rw [hb.1]; simp only [tableBitsOf]; omega, hc, precode_lookup h h7 hc hb⟩

end Blend2D.Deflate
