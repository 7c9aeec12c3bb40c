import Verif.Deflate.Incomplete

/-!
# The three tables of the decoder
-/

namespace Blend2D.Deflate
open Spec

/-- Codewords are unambiguous. -/
theorem codes_unique {lens : List Nat} (h15 : ∀ l ∈ lens, l ≤ 15) (hk : kraft lens ≤ 2 ^ 15) {N s s' : Nat}
    (h : Codes lens N s) (h' : Codes lens N s') : s = s' := by
  have hsum : wsum (canon lens) ≤ 2 ^ 15 := by rw [kraft_eq h15]; exact hk
  have key : ∀ s, Codes lens N s → ∃ A B, canon lens = A ++ (s, lens.getD s 0) :: B ∧ wsum A ≤ rev 15 N ∧
      rev 15 N < wsum A + wt (lens.getD s 0) := by
    intro s hs
    obtain ⟨h1, h2, h3⟩ := hs
    have hl : lens.getD s 0 ≤ 15 := by
      rw [List.getD_eq_getElem?_getD, List.getElem?_eq_getElem h1]
      exact h15 _ (List.getElem_mem h1)
    obtain ⟨A, B, e1, e2⟩ := canon_split h1 (by omega) hl
    have hle : wsum A + wt (lens.getD s 0) ≤ 2 ^ 15 := by
      rw [e1, wsum_append] at hsum
      simp only [wsum, List.map_cons, List.sum_cons] at *
      omega
    rw [startsWith_iff] at h3
    generalize lens.getD s 0 = l at *
    have hc : codeOf lens s < 2 ^ l := by
      rw [e2, pow_split hl, ← Nat.succ_mul] at hle
      exact Nat.lt_of_succ_le (Nat.le_of_mul_le_mul_right hle (wt_pos l))
    have h5 : rev 15 N / wt l = codeOf lens s := by
      have h6 : rev l (rev 15 N / 2 ^ (15 - l)) = rev l (codeOf lens s) := by
        rw [← h3, ← rev15_cut hl]
        have h3 : rev 15 (rev 15 N) = N % 2 ^ 15 := by
          apply Nat.eq_of_testBit_eq
          intro i
          rw [rev_testBit, rev_testBit, Nat.testBit_mod_two_pow]
          by_cases hi : i < 15
          · simp [hi, show 15 - 1 - i < 15 by omega, show 15 - 1 - (15 - 1 - i) = i by omega]
          · simp [hi]
        rw [h3, Nat.mod_mod_of_dvd _ (Nat.pow_dvd_pow 2 hl)]
      refine rev_inj ?_ hc h6
      show rev 15 N / wt l < 2 ^ l
      rw [Nat.div_lt_iff_lt_mul (wt_pos l)]
      have := rev_lt 15 N
      have h8 : 2 ^ 15 = 2 ^ l * wt l := pow_split hl
      omega
    refine ⟨A, B, e1, ?_, ?_⟩
    · rw [e2, ← h5]; exact Nat.div_mul_le_self _ _
    · rw [e2, ← h5]
      exact Nat.lt_div_mul_add (wt_pos l)
  obtain ⟨A, B, a1, a2, a3⟩ := key s h
  obtain ⟨A', B', b1, b2, b3⟩ := key s' h'
  rw [a1] at b1
  rcases List.append_eq_append_iff.1 b1 with ⟨C, c1, c2⟩ | ⟨C, c1, c2⟩
  · cases C with
    | nil => simp only [List.nil_append, List.cons.injEq, Prod.mk.injEq] at c2; exact c2.1.1
    | cons c C =>
      simp only [List.cons_append, List.cons.injEq] at c2
      rw [c1, wsum_append, ← c2.1] at b2
      simp only [wsum, List.map_cons, List.sum_cons] at *
      omega
  · cases C with
    | nil => simp only [List.nil_append, List.cons.injEq, Prod.mk.injEq] at c2; exact c2.1.1.symm
    | cons c C =>
      simp only [List.cons_append, List.cons.injEq] at c2
      rw [c1, wsum_append, ← c2.1] at a2
      simp only [wsum, List.map_cons, List.sum_cons] at *
      omega

theorem setup_litlen {lens : List Nat} (h : lens.length ≤ 288) (h15 : ∀ l ∈ lens, l ≤ 15) : Setup 2342 11 15 lens litLenResults := by
  refine ⟨h, by omega, by omega, h15, by rw [show litLenResults.length = 288 by decide +kernel]; exact h, by omega, ?_⟩
  have : tableBitsOf 11 (usedMaxLen lens 15) ≤ 11 := by simp only [tableBitsOf]; omega
  have := Nat.pow_le_pow_right (show 0 < 2 by omega) this
  omega

theorem setup_offset {lens : List Nat} (h : lens.length ≤ 32) (h15 : ∀ l ∈ lens, l ≤ 15) : Setup 594 9 15 lens offsetResults := by
  refine ⟨by omega, by omega, by omega, h15, by rw [show offsetResults.length = 32 by decide +kernel]; exact h, by omega, ?_⟩
  have : tableBitsOf 9 (usedMaxLen lens 15) ≤ 9 := by simp only [tableBitsOf]; omega
  have := Nat.pow_le_pow_right (show 0 < 2 by omega) this
  omega

theorem setup_precode {lens : List Nat} (h : lens.length ≤ 19) (h7 : ∀ l ∈ lens, l ≤ 7) : Setup 128 7 7 lens precodeResults := by
  refine ⟨by omega, by omega, by omega, h7, by rw [show precodeResults.length = 19 by decide +kernel]; exact h, by omega, ?_⟩
  have : tableBitsOf 7 (usedMaxLen lens 7) ≤ 7 := by simp only [tableBitsOf]; omega
  have := Nat.pow_le_pow_right (show 0 < 2 by omega) this
  omega

/-- Codewords longer than the main table exist only if it has its maximum size. -/
theorem long_tb {lens : List Nat} {maxTb maxCw : Nat} (hmt : 1 ≤ maxTb) (h : ∀ l ∈ lens, l ≤ maxCw)
    (hl : (canon lens).any (fun r => decide (tableBitsOf maxTb (usedMaxLen lens maxCw) < r.2)) = true) :
    tableBitsOf maxTb (usedMaxLen lens maxCw) = maxTb ∧ maxTb < maxCw := by
  rw [List.any_eq_true] at hl
  obtain ⟨r, h1, h2⟩ := hl
  simp only [decide_eq_true_eq] at h2
  obtain ⟨m1, m2, m3, m4⟩ := mem_canonTo.1 h1
  have : r.2 ∈ lens := by
    rw [← m4, List.getD_eq_getElem?_getD, List.getElem?_eq_getElem m3]
    exact List.getElem_mem m3
  have h3 := usedMaxLen_ge h _ this
  have h4 := usedMaxLen_le (lens := lens) (maxCw := maxCw)
  simp only [tableBitsOf] at *
  omega

/-- What is known about a finished table. -/
def Built (cap maxTb maxCw : Nat) (lens : List Nat) (results : List Entry) (info : Info) (T : Tab) : Prop :=
  info.tableBits = tableBitsOf maxTb (usedMaxLen lens maxCw) ∧ info.literalMask = literalMask lens ∧
  ((Complete lens ∧ ∀ s < lens.length, 1 ≤ lens.getD s 0 →
      Good results info.tableBits cap T (s, lens.getD s 0, codeOf lens s * wt (lens.getD s 0))) ∨
   (Single lens ∧ ∀ s e, lens.getD s 0 ≠ 0 → results[s]? = some e → ∀ i < 2 ^ info.tableBits,
      T i = if i % 2 = 0 then makeTop e 1 else invalidEntry) ∨
   (Unused lens ∧ ∀ i < 2 ^ info.tableBits, T i = invalidEntry))

theorem Setup.room {cap maxTb maxCw : Nat} {lens : List Nat} {results : List Entry} {table : Tab} {garbage : Nat → Nat}
    {type : TableType} (h : Setup cap maxTb maxCw lens results)
    (hroom : Complete lens → (canon lens).any (fun r => decide (tableBitsOf maxTb (usedMaxLen lens maxCw) < r.2)) = true → 2 ∣ cap ∧
      2 ^ tableBitsOf maxTb (usedMaxLen lens maxCw) +
        ((canon lens).filter (fun r => decide (tableBitsOf maxTb (usedMaxLen lens maxCw) < r.2))).length +
        2 ^ (15 - tableBitsOf maxTb (usedMaxLen lens maxCw)) ≤ cap + 2 + (15 - tableBitsOf maxTb (usedMaxLen lens maxCw))) :
    (Complete lens ∨ (Single lens ∧ type ≠ .precode) ∨ (Unused lens ∧ type = .offset) →
      ∃ info T, buildDecodeTable cap table garbage lens results maxTb maxCw type = some (some (info, T)) ∧
        Built cap maxTb maxCw lens results info T) ∧
    (¬ (Complete lens ∨ (Single lens ∧ type ≠ .precode) ∨ (Unused lens ∧ type = .offset)) →
      buildDecodeTable cap table garbage lens results maxTb maxCw type = some none) := by
  constructor
  · rintro (hc | ⟨hs, ht⟩ | ⟨hu, ht⟩)
    · obtain ⟨T, h1, h2⟩ := build_complete (table := table) (garbage := garbage) (type := type) h.h288 h.hcw h.hcw1 h.hlens h.hres h.hmt
        h.hcap (hroom hc) hc
      exact ⟨_, T, h1, rfl, rfl, Or.inl ⟨hc, h2⟩⟩
    · obtain ⟨T, h1, h2⟩ := h.single (table := table) (garbage := garbage) hs ht
      exact ⟨_, T, h1, rfl, rfl, Or.inr (Or.inl ⟨hs, h2⟩)⟩
    · obtain ⟨T, h1, h2⟩ := (h.unused (table := table) (garbage := garbage) (type := type) hu).2 ht
      exact ⟨_, T, h1, rfl, rfl, Or.inr (Or.inr ⟨hu, h2⟩)⟩
  · intro hn
    rcases Nat.lt_trichotomy (kraft lens) (2 ^ 15) with hk | hk | hk
    · by_cases hu : Unused lens
      · exact (h.unused hu).1 (fun ht => hn (Or.inr (Or.inr ⟨hu, ht⟩)))
      · apply h.reject hk hu
        by_cases hp : type = .precode
        · exact Or.inl hp
        · exact Or.inr (fun hs => hn (Or.inr (Or.inl ⟨hs, hp⟩)))
    · exact absurd (Or.inl hk) hn
    · exact h.over hk

theorem litlen_room {lens : List Nat} (h : lens.length ≤ 288) (h15 : ∀ l ∈ lens, l ≤ 15) :
    Complete lens → (canon lens).any (fun r => decide (tableBitsOf 11 (usedMaxLen lens 15) < r.2)) = true → 2 ∣ 2342 ∧
      2 ^ tableBitsOf 11 (usedMaxLen lens 15) +
        ((canon lens).filter (fun r => decide (tableBitsOf 11 (usedMaxLen lens 15) < r.2))).length +
        2 ^ (15 - tableBitsOf 11 (usedMaxLen lens 15)) ≤ 2342 + 2 + (15 - tableBitsOf 11 (usedMaxLen lens 15)) := by
  intro hc hl
  obtain ⟨h1, h2⟩ := long_tb (by omega) h15 hl
  rw [h1] at hl ⊢
  refine ⟨by decide, room_litlen ?_ ?_ hl⟩
  · rw [kraft_eq h15]; exact hc
  · exact Nat.le_trans (canon_length lens) h

theorem offset_room {lens : List Nat} (h : lens.length ≤ 32) (h15 : ∀ l ∈ lens, l ≤ 15) :
    Complete lens → (canon lens).any (fun r => decide (tableBitsOf 9 (usedMaxLen lens 15) < r.2)) = true → 2 ∣ 594 ∧
      2 ^ tableBitsOf 9 (usedMaxLen lens 15) +
        ((canon lens).filter (fun r => decide (tableBitsOf 9 (usedMaxLen lens 15) < r.2))).length +
        2 ^ (15 - tableBitsOf 9 (usedMaxLen lens 15)) ≤ 594 + 2 + (15 - tableBitsOf 9 (usedMaxLen lens 15)) := by
  intro hc hl
  obtain ⟨h1, h2⟩ := long_tb (by omega) h15 hl
  rw [h1] at hl ⊢
  refine ⟨by decide, room_offset ?_ ?_ hl⟩
  · rw [kraft_eq h15]; exact hc
  · exact Nat.le_trans (canon_length lens) h

theorem precode_room {lens : List Nat} (h7 : ∀ l ∈ lens, l ≤ 7) :
    Complete lens → (canon lens).any (fun r => decide (tableBitsOf 7 (usedMaxLen lens 7) < r.2)) = true → 2 ∣ 128 ∧
      2 ^ tableBitsOf 7 (usedMaxLen lens 7) +
        ((canon lens).filter (fun r => decide (tableBitsOf 7 (usedMaxLen lens 7) < r.2))).length +
        2 ^ (15 - tableBitsOf 7 (usedMaxLen lens 7)) ≤ 128 + 2 + (15 - tableBitsOf 7 (usedMaxLen lens 7)) := by
  intro hc hl
  obtain ⟨h1, h2⟩ := long_tb (by omega) h7 hl
  omega

/-- The literal/length table. -/
theorem litlen_cases {lens : List Nat} (t : Tab) (g : Nat → Nat) (h : lens.length ≤ 288) (h15 : ∀ l ∈ lens, l ≤ 15) :
    (Complete lens ∨ Single lens → ∃ info T, buildLitLen t g lens = some (some (info, T)) ∧
      Built 2342 11 15 lens litLenResults info T) ∧
    (¬ (Complete lens ∨ Single lens) → buildLitLen t g lens = some none) := by
  have := (setup_litlen h h15).room (table := t) (garbage := g) (type := .litLen) (litlen_room h h15)
  simpa [buildLitLen] using this

/-- The offset table. -/
theorem offset_cases {lens : List Nat} (t : Tab) (g : Nat → Nat) (h : lens.length ≤ 32) (h15 : ∀ l ∈ lens, l ≤ 15) :
    (Complete lens ∨ Single lens ∨ Unused lens → ∃ info T, buildOffset t g lens = some (some (info, T)) ∧
      Built 594 9 15 lens offsetResults info T) ∧
    (¬ (Complete lens ∨ Single lens ∨ Unused lens) → buildOffset t g lens = some none) := by
  have := (setup_offset h h15).room (table := t) (garbage := g) (type := .offset) (offset_room h h15)
  simpa [buildOffset] using this

/-- The precode table. -/
theorem precode_cases {lens : List Nat} (t : Tab) (g : Nat → Nat) (h : lens.length ≤ 19) (h7 : ∀ l ∈ lens, l ≤ 7) :
    (Complete lens → ∃ info T, buildPrecode t g lens = some (some (info, T)) ∧ Built 128 7 7 lens precodeResults info T) ∧
    (¬ Complete lens → buildPrecode t g lens = some none) := by
  have := (setup_precode h h7).room (table := t) (garbage := g) (type := .precode) (precode_room h7)
  simpa [buildPrecode] using this

theorem getD_le {lens : List Nat} {s m : Nat} (hs : s < lens.length) (h : ∀ l ∈ lens, l ≤ m) : lens.getD s 0 ≤ m := by
  rw [List.getD_eq_getElem?_getD, List.getElem?_eq_getElem hs]
  exact h _ (List.getElem_mem hs)

theorem getD_some {α : Type} {L : List α} {s : Nat} {d : α} (h : s < L.length) : L[s]? = some (L.getD s d) := by
  rw [List.getD_eq_getElem?_getD, List.getElem?_eq_getElem h]; rfl

theorem top_read {e : Entry} {cap tb l N : Nat} {T : Tab} {m : Meaning} (hcap2 : 2 ^ tb ≤ cap) (hl : l ≤ tb)
    (hT1 : T (N % 2 ^ tb) = e) (hT2 : T (N % 2 ^ l) = e) (htop : topOk e l m = true) :
    (∃ r, lookupLitLen cap T tb N = some r ∧ means r l m = true) ∧
    (isLiteral e = false → ∃ r, lookupOffset cap T tb N = some r ∧ means r l m = true) := by
  have hi : N % 2 ^ tb < 2 ^ tb := Nat.mod_lt _ (Nat.two_pow_pos _)
  have hi2 : N % 2 ^ l < 2 ^ tb := Nat.lt_of_lt_of_le (Nat.mod_lt _ (Nat.two_pow_pos _)) (Nat.pow_le_pow_right (by omega) hl)
  simp only [topOk] at htop
  constructor
  · simp only [lookupLitLen, Tab.read, if_pos (show N % 2 ^ tb < cap by omega), hT1]
    by_cases c1 : isLiteral e = true
    · rw [if_pos c1] at htop ⊢
      exact ⟨_, rfl, htop⟩
    · rw [if_neg c1] at htop ⊢
      by_cases c2 : isOffOrLen e = true
      · rw [if_pos c2] at htop ⊢
        exact ⟨_, rfl, htop⟩
      · rw [if_neg c2] at htop ⊢
        simp only [Bool.and_eq_true, beq_iff_eq] at htop
        obtain ⟨⟨⟨⟨d1, d2⟩, d3⟩, d4⟩, d5⟩ := htop
        rw [d1, d2, d3, Nat.pow_zero, Nat.div_one, Nat.zero_add, hT2, if_pos (show N % 2 ^ l < cap by omega)]
        exact ⟨_, rfl, d5⟩
  · intro hlit
    simp only [lookupOffset, Tab.read, if_pos (show N % 2 ^ tb < cap by omega), hT1]
    rw [hlit] at htop
    simp only [Bool.false_eq_true, if_false] at htop
    by_cases c2 : isOffOrLen e = true
    · rw [if_pos c2] at htop ⊢
      exact ⟨_, rfl, htop⟩
    · rw [if_neg c2] at htop ⊢
      simp only [Bool.and_eq_true, beq_iff_eq] at htop
      obtain ⟨⟨⟨⟨d1, d2⟩, d3⟩, d4⟩, d5⟩ := htop
      rw [d1, extractExtra, d2, d4, Nat.pow_zero, Nat.div_one, Nat.zero_add, hT2, if_pos (show N % 2 ^ l < cap by omega)]
      exact ⟨_, rfl, d5⟩

theorem tb_pos (maxTb M : Nat) : 1 ≤ tableBitsOf maxTb M := by simp only [tableBitsOf]; omega

theorem even_mod {N tb : Nat} (h : 1 ≤ tb) : N % 2 ^ tb % 2 = N % 2 :=
  Nat.mod_mod_of_dvd _ (by obtain ⟨k, rfl⟩ : ∃ k, tb = k + 1 := ⟨tb - 1, by omega⟩; rw [Nat.pow_succ]; exact Nat.dvd_mul_left _ _)

theorem startsWith_zero {N : Nat} : StartsWith N 1 0 ↔ N % 2 = 0 := by
  rw [startsWith_iff]; simp [rev]

/-- A codeword is found in a table of an incomplete code. -/
theorem built_partial {cap maxTb maxCw : Nat} {lens : List Nat} {results : List Entry} {info : Info} {T : Tab}
    (hb : Built cap maxTb maxCw lens results info T) (hs : Setup cap maxTb maxCw lens results) (hn : ¬ Complete lens) :
    (∀ N s e, Codes lens N s → results[s]? = some e →
      lens.getD s 0 = 1 ∧ T (N % 2 ^ info.tableBits) = makeTop e 1 ∧ T (N % 2 ^ 1) = makeTop e 1) ∧
    (∀ N, (∀ s, ¬ Codes lens N s) → T (N % 2 ^ info.tableBits) = invalidEntry ∧ T (N % 2 ^ 1) = invalidEntry) := by
  obtain ⟨b1, _, b⟩ := hb
  have htb : 1 ≤ info.tableBits := by rw [b1]; exact tb_pos _ _
  have h2 : 2 ≤ 2 ^ info.tableBits := Nat.pow_le_pow_right (show 0 < 2 by omega) htb
  have hlt : ∀ N, N % 2 ^ info.tableBits < 2 ^ info.tableBits := fun N => Nat.mod_lt _ (Nat.two_pow_pos _)
  rcases b with ⟨hc, _⟩ | ⟨hsg, hT⟩ | ⟨hu, hT⟩
  · exact absurd hc hn
  · obtain ⟨s0, s1, s2, s3, s4⟩ := single_split hsg
    constructor
    · intro N s e hcd he
      have hss := s4 s hcd.2.1
      subst hss
      have hz := hcd.2.2
      rw [s2, s3, startsWith_zero] at hz
      refine ⟨s2, ?_, ?_⟩
      · rw [hT s e hcd.2.1 he _ (hlt N), even_mod htb, if_pos hz]
      · rw [hT s e hcd.2.1 he _ (by simp only [Nat.pow_one]; omega)]
        simp [hz]
    · intro N hno
      have hz : ¬ N % 2 = 0 := by
        intro hz
        apply hno s0
        refine ⟨s1, by omega, ?_⟩
        rw [s2, s3, startsWith_zero]; exact hz
      obtain ⟨e, he⟩ : ∃ e, results[s0]? = some e := by
        have := hs.hres
        exact ⟨_, List.getElem?_eq_getElem (show s0 < results.length by omega)⟩
      refine ⟨?_, ?_⟩
      · rw [hT s0 e (by omega) he _ (hlt N), even_mod htb, if_neg hz]
      · rw [hT s0 e (by omega) he _ (by simp only [Nat.pow_one]; omega)]
        simp [hz]
  · constructor
    · intro N s e hcd _
      exfalso
      apply hcd.2.1
      rw [List.getD_eq_getElem?_getD, List.getElem?_eq_getElem hcd.1]
      exact hu _ (List.getElem_mem hcd.1)
    · intro N _
      exact ⟨hT _ (hlt N), hT _ (by simp only [Nat.pow_one]; omega)⟩

theorem built_complete {cap maxTb maxCw : Nat} {lens : List Nat} {results : List Entry} {info : Info} {T : Tab}
    (hb : Built cap maxTb maxCw lens results info T) (hc : Complete lens) :
    ∀ s < lens.length, 1 ≤ lens.getD s 0 →
      Good results info.tableBits cap T (s, lens.getD s 0, codeOf lens s * wt (lens.getD s 0)) := by
  obtain ⟨_, _, b⟩ := hb
  rcases b with ⟨_, h⟩ | ⟨hs, _⟩ | ⟨hu, _⟩
  · exact h
  · have := (single_iff.1 hs).1
    rw [Complete] at hc
    omega
  · have := kraft_zero.2 hu
    rw [Complete] at hc
    omega

theorem litlen_lookup {lens : List Nat} {info : Info} {T : Tab} (h : lens.length ≤ 288) (h15 : ∀ l ∈ lens, l ≤ 15)
    (hb : Built 2342 11 15 lens litLenResults info T) :
    (∀ N s, Codes lens N s → ∃ r, lookupLitLen 2342 T info.tableBits N = some r ∧ means r (lens.getD s 0) (litLenMeaning s) = true) ∧
    (∀ N, (∀ s, ¬ Codes lens N s) → ∃ r, lookupLitLen 2342 T info.tableBits N = some r ∧ means r 1 .invalid = true) := by
  have hS := setup_litlen h h15
  have htb : info.tableBits ≤ 11 := by rw [hb.1]; simp only [tableBitsOf]; omega
  have htb1 : 1 ≤ info.tableBits := by rw [hb.1]; exact tb_pos _ _
  have hcap : 2 ^ info.tableBits ≤ 2342 := by rw [hb.1]; exact hS.hcap
  by_cases hc : Complete lens
  · have hg := built_complete hb hc
    constructor
    · intro N s hcd
      have h1 := hcd.2.1
      have hl := getD_le hcd.1 h15
      exact lookupLitLen_good (by omega) (by omega) hcap (by omega) hl (hg s hcd.1 (by omega))
        (getD_some (d := 0) (by rw [show litLenResults.length = 288 by decide +kernel]; have := hcd.1; omega))
        (litLen_top s (by have := hcd.1; omega) _ (by omega) (by omega)) (litLen_sub s (by have := hcd.1; omega) _ (by omega) (by omega)) hcd.2.2
    · intro N hno
      obtain ⟨s, hs⟩ := complete_codes h15 hc N
      exact absurd hs (hno s)
  · obtain ⟨p1, p2⟩ := built_partial hb hS hc
    constructor
    · intro N s hcd
      have hsl := hcd.1
      obtain ⟨q1, q2, q3⟩ := p1 N s _ hcd (getD_some (d := 0) (by rw [show litLenResults.length = 288 by decide +kernel]; omega))
      rw [q1]
      exact (top_read hcap htb1 q2 q3 (litLen_top s (by omega) 1 (by omega) (by omega))).1
    · intro N hno
      obtain ⟨q2, q3⟩ := p2 N hno
      exact (top_read hcap htb1 q2 q3 invalid_top).1

theorem offset_lookup {lens : List Nat} {info : Info} {T : Tab} (h : lens.length ≤ 32) (h15 : ∀ l ∈ lens, l ≤ 15)
    (hb : Built 594 9 15 lens offsetResults info T) :
    (∀ N s, Codes lens N s → ∃ r, lookupOffset 594 T info.tableBits N = some r ∧ means r (lens.getD s 0) (offsetMeaning s) = true) ∧
    (∀ N, (∀ s, ¬ Codes lens N s) → ∃ r, lookupOffset 594 T info.tableBits N = some r ∧ means r 1 .invalid = true) := by
  have hS := setup_offset h h15
  have htb : info.tableBits ≤ 9 := by rw [hb.1]; simp only [tableBitsOf]; omega
  have htb1 : 1 ≤ info.tableBits := by rw [hb.1]; exact tb_pos _ _
  have hcap : 2 ^ info.tableBits ≤ 594 := by rw [hb.1]; exact hS.hcap
  by_cases hc : Complete lens
  · have hg := built_complete hb hc
    constructor
    · intro N s hcd
      have h1 := hcd.2.1
      have hl := getD_le hcd.1 h15
      have hsl := hcd.1
      exact lookupOffset_good (by omega) (by omega) hcap (by omega) hl (hg s hcd.1 (by omega))
        (getD_some (d := 0) (by rw [show offsetResults.length = 32 by decide +kernel]; omega))
        (offset_top s (by omega) _ (by omega) (by omega)) (offset_not_literal s (by omega) _ (by omega) (by omega))
        (offset_sub s (by omega) _ (by omega) (by omega)) hcd.2.2
    · intro N hno
      obtain ⟨s, hs⟩ := complete_codes h15 hc N
      exact absurd hs (hno s)
  · obtain ⟨p1, p2⟩ := built_partial hb hS hc
    constructor
    · intro N s hcd
      have hsl := hcd.1
      obtain ⟨q1, q2, q3⟩ := p1 N s _ hcd (getD_some (d := 0) (by rw [show offsetResults.length = 32 by decide +kernel]; omega))
      rw [q1]
      exact (top_read hcap htb1 q2 q3 (offset_top s (by omega) 1 (by omega) (by omega))).2 (offset_not_literal s (by omega) 1 (by omega) (by omega))
    · intro N hno
      obtain ⟨q2, q3⟩ := p2 N hno
      exact (top_read hcap htb1 q2 q3 invalid_top).2 (by decide +kernel)

/-- An entry of the precode table stands for a symbol. -/
def meansPrecode (e : Entry) (len sym : Nat) : Bool :=
  precodeValue e == sym && baseLength e == len && fullLength e == len + (precodeMeaning sym).2 && precodeRepeat e == (precodeMeaning sym).1

theorem precode_top : ∀ s < 19, ∀ l < 8, 1 ≤ l → meansPrecode (makeTop (precodeResults.getD s 0) l) l s = true := by
  decide +kernel

theorem precode_lookup {lens : List Nat} {info : Info} {T : Tab} (h : lens.length ≤ 19) (h7 : ∀ l ∈ lens, l ≤ 7)
    (hc : Complete lens) (hb : Built 128 7 7 lens precodeResults info T) :
    ∀ N s, Codes lens N s → ∃ e, T.read 128 (N % 2 ^ info.tableBits) = some e ∧ meansPrecode e (lens.getD s 0) s = true := by
  intro N s hcd
  have hS := setup_precode h h7
  have hsl := hcd.1
  have h1 := hcd.2.1
  have hl := getD_le hcd.1 h7
  have hM := usedMaxLen_le (lens := lens) (maxCw := 7)
  have hcap : 2 ^ info.tableBits ≤ 128 := by rw [hb.1]; exact hS.hcap
  have hi : N % 2 ^ info.tableBits < 2 ^ info.tableBits := Nat.mod_lt _ (Nat.two_pow_pos _)
  have hmem : lens.getD s 0 ∈ lens := by
    rw [List.getD_eq_getElem?_getD, List.getElem?_eq_getElem hsl]
    exact List.getElem_mem hsl
  have hle : lens.getD s 0 ≤ info.tableBits := by
    have := usedMaxLen_ge h7 _ hmem
    rw [hb.1]; simp only [tableBitsOf]; omega
  have hg := (built_complete hb hc s hsl (by omega)).1 hle _ (getD_some (d := 0) (by rw [show precodeResults.length = 19 by decide +kernel]; omega))
    (N % 2 ^ info.tableBits) hi (by
      simp only []
      rw [Nat.mod_mod_of_dvd _ (Nat.pow_dvd_pow 2 hle), startsWith_iff.1 hcd.2.2]
      exact (rev15_code (show lens.getD s 0 ≤ 15 by omega)).symm)
  refine ⟨_, by rw [Tab.read, if_pos (by omega)], ?_⟩
  rw [hg]
  exact precode_top s (by omega) (lens.getD s 0) (by omega) (by omega)

/-! ## The lookup of the fast loop -/

theorem offset_top_valid : ∀ s < 30, ∀ l < 16, 1 ≤ l → isOffOrLen (makeTop (offsetResults.getD s 0) l) = true := by decide +kernel

theorem offset_top_invalid : ∀ s < 32, 30 ≤ s → ∀ l < 16, 1 ≤ l →
    isOffOrLen (makeTop (offsetResults.getD s 0) l) = false ∧ rawPayload (makeTop (offsetResults.getD s 0) l) = 32768 := by
  decide +kernel

/-- Valid offsets are found by the fast loop. -/
theorem fast_valid {lens : List Nat} {info : Info} {T : Tab} (h : lens.length ≤ 32) (h15 : ∀ l ∈ lens, l ≤ 15)
    (hb : Built 594 9 15 lens offsetResults info T) {N s : Nat} (hcd : Codes lens N s) (hs : s < 30 ∨ info.tableBits < lens.getD s 0) :
    lookupOffsetFast 594 T info.tableBits N = (lookupOffset 594 T info.tableBits N).map Prod.fst := by
  have hS := setup_offset h h15
  have htb : info.tableBits ≤ 9 := by rw [hb.1]; simp only [tableBitsOf]; omega
  have htb1 : 1 ≤ info.tableBits := by rw [hb.1]; exact tb_pos _ _
  have hcap : 2 ^ info.tableBits ≤ 594 := by rw [hb.1]; exact hS.hcap
  have hi : N % 2 ^ info.tableBits < 2 ^ info.tableBits := Nat.mod_lt _ (Nat.two_pow_pos _)
  have hsl := hcd.1
  have h1 := hcd.2.1
  have hl := getD_le hcd.1 h15
  have he := getD_some (L := offsetResults) (s := s) (d := 0) (by rw [show offsetResults.length = 32 by decide +kernel]; omega)
  -- The entry of the main table is an offset or a link.
  have key : isOffOrLen (T (N % 2 ^ info.tableBits)) = true ∨ rawPayload (T (N % 2 ^ info.tableBits)) = payloadField (T (N % 2 ^ info.tableBits)) := by
    by_cases hc : Complete lens
    · have hg := built_complete hb hc s hsl (by omega)
      have hrev : rev 15 (codeOf lens s * wt (lens.getD s 0)) = N % 2 ^ lens.getD s 0 := by
        rw [startsWith_iff.1 hcd.2.2]; exact rev15_code hl
      by_cases hle : lens.getD s 0 ≤ info.tableBits
      · have := hg.1 hle _ he (N % 2 ^ info.tableBits) hi (by
          simp only []
          rw [hrev, Nat.mod_mod_of_dvd _ (Nat.pow_dvd_pow 2 hle)])
        rw [this]
        exact Or.inl (offset_top_valid s (by omega) (lens.getD s 0) (by omega) (by omega))
      · obtain ⟨st, b, g1, g2, g3, g4, g5, g6⟩ := hg.2 (by simp only []; omega)
        simp only [] at g5
        rw [hrev, Nat.mod_mod_of_dvd _ (Nat.pow_dvd_pow 2 (show info.tableBits ≤ lens.getD s 0 by omega))] at g5
        have hb := Nat.two_pow_pos b
        obtain ⟨f1, f2, f3, f4, f5, f6, f7⟩ := link_fields (st := st) (tb := info.tableBits) (f := info.tableBits + b) (by omega) (by omega) (by omega)
        rw [g5, f3, f4]
        exact Or.inr rfl
    · obtain ⟨q1, q2, q3⟩ := (built_partial hb hS hc).1 N s _ hcd he
      rw [q2]
      exact Or.inl (offset_top_valid s (by omega) 1 (by omega) (by omega))
  simp only [lookupOffsetFast, lookupOffset, Tab.read, if_pos (show N % 2 ^ info.tableBits < 594 by omega)]
  rcases key with hk | hk
  · rw [if_pos hk, if_pos hk]; rfl
  · by_cases hk2 : isOffOrLen (T (N % 2 ^ info.tableBits)) = true
    · rw [if_pos hk2, if_pos hk2]; rfl
    · rw [if_neg hk2, if_neg hk2, hk]
      split <;> rfl

/-- Invalid offsets of the main table make the fast loop read far behind the table. -/
theorem fast_invalid {lens : List Nat} {info : Info} {T : Tab} (h : lens.length ≤ 32) (h15 : ∀ l ∈ lens, l ≤ 15)
    (hb : Built 594 9 15 lens offsetResults info T) {N : Nat}
    (hcd : (∃ s, Codes lens N s ∧ 30 ≤ s ∧ lens.getD s 0 ≤ info.tableBits) ∨ ∀ s, ¬ Codes lens N s) :
    lookupOffsetFast 594 T info.tableBits N = none := by
  have hS := setup_offset h h15
  have hcap : 2 ^ info.tableBits ≤ 594 := by rw [hb.1]; exact hS.hcap
  have hi : N % 2 ^ info.tableBits < 2 ^ info.tableBits := Nat.mod_lt _ (Nat.two_pow_pos _)
  have key : isOffOrLen (T (N % 2 ^ info.tableBits)) = false ∧ rawPayload (T (N % 2 ^ info.tableBits)) = 32768 := by
    rcases hcd with ⟨s, hcd, h30, hle⟩ | hno
    · have hsl := hcd.1
      have h1 := hcd.2.1
      have hl := getD_le hcd.1 h15
      have he := getD_some (L := offsetResults) (s := s) (d := 0) (by rw [show offsetResults.length = 32 by decide +kernel]; omega)
      by_cases hc : Complete lens
      · have hg := built_complete hb hc s hsl (by omega)
        have hrev : rev 15 (codeOf lens s * wt (lens.getD s 0)) = N % 2 ^ lens.getD s 0 := by
          rw [startsWith_iff.1 hcd.2.2]; exact rev15_code hl
        have := hg.1 hle _ he (N % 2 ^ info.tableBits) hi (by
          simp only []
          rw [hrev, Nat.mod_mod_of_dvd _ (Nat.pow_dvd_pow 2 hle)])
        rw [this]
        exact offset_top_invalid s (by omega) h30 (lens.getD s 0) (by omega) (by omega)
      · obtain ⟨q1, q2, q3⟩ := (built_partial hb hS hc).1 N s _ hcd he
        rw [q2]
        exact offset_top_invalid s (by omega) h30 1 (by omega) (by omega)
    · by_cases hc : Complete lens
      · obtain ⟨s, hs⟩ := complete_codes h15 hc N
        exact absurd hs (hno s)
      · obtain ⟨q2, q3⟩ := (built_partial hb hS hc).2 N hno
        rw [q2]
        decide +kernel
  simp only [lookupOffsetFast, Tab.read, if_pos (show N % 2 ^ info.tableBits < 594 by omega), key.1, key.2]
  rw [if_neg (by simp), if_neg (by omega)]

end Blend2D.Deflate
