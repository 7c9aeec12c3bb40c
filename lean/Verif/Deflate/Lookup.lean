import Verif.Deflate.Enough
import Verif.Deflate.Results
import Mathlib.Data.Nat.Bitwise
import Mathlib.Data.List.Nodup

/-!
# Lookups in finished tables
-/

namespace Blend2D.Deflate
open Spec

/-- An entry, found with the bits of the input and consuming `n` of them, stands for a symbol with a codeword of length `len`. -/
def means (r : Entry × Nat) (len : Nat) : Meaning → Bool
  | .literal b => isLiteral r.1 && payloadField r.1 % 256 == b && r.2 == len
  | .endOfBlock => !isLiteral r.1 && !isOffOrLen r.1 && isEob r.1 && !isEobInvalid r.1 && r.2 == len
  | .value base extra => !isLiteral r.1 && isOffOrLen r.1 && !isEob r.1 && payloadField r.1 == base && baseLength r.1 == len &&
      r.2 == len + extra && (r.1 &&& 63).toNat == len + extra
  | .invalid => !isLiteral r.1 && !isOffOrLen r.1 && isEob r.1 && isEobInvalid r.1 && r.2 == len

/-- What a lookup does with an entry of the main table. -/
def topOk (e : Entry) (l : Nat) (m : Meaning) : Bool :=
  (if isLiteral e then means (e, baseLength e) l m
   else if isOffOrLen e then means (e, fullLength e) l m
   else payloadField e == 0 && baseLength e == 0 && fullLength e == l && (e &&& 63).toNat == l && means (e, fullLength e) l m)

theorem litLen_top : ∀ s < 288, ∀ l < 16, 1 ≤ l → topOk (makeTop (litLenResults.getD s 0) l) l (litLenMeaning s) = true := by
  decide +kernel

theorem litLen_sub : ∀ s < 288, ∀ l < 16, 1 ≤ l →
    means (makeSub (litLenResults.getD s 0) l, fullLength (makeSub (litLenResults.getD s 0) l)) l (litLenMeaning s) = true := by
  decide +kernel

theorem offset_top : ∀ s < 32, ∀ l < 16, 1 ≤ l → topOk (makeTop (offsetResults.getD s 0) l) l (offsetMeaning s) = true := by
  decide +kernel

theorem offset_sub : ∀ s < 32, ∀ l < 16, 1 ≤ l →
    means (makeSub (offsetResults.getD s 0) l, fullLength (makeSub (offsetResults.getD s 0) l)) l (offsetMeaning s) = true := by
  decide +kernel

theorem offset_not_literal : ∀ s < 32, ∀ l < 16, 1 ≤ l → isLiteral (makeTop (offsetResults.getD s 0) l) = false := by
  decide +kernel

theorem invalid_top : topOk invalidEntry 1 .invalid = true := by decide +kernel

theorem link_toNat {st tb f : Nat} (h1 : st < 2 ^ 15) (h2 : tb < 16) (h3 : f < 64) :
    (makeSubLink st tb f).toNat = tb * 2 ^ 28 + st * 2 ^ 8 + f := by
  have a1 : (UInt32.ofNat tb <<< (28 : UInt32)).toNat = tb * 2 ^ 28 := by
    rw [UInt32.toNat_shiftLeft, UInt32.toNat_ofNat', Nat.mod_eq_of_lt (show tb < 2 ^ 32 by omega), Nat.shiftLeft_eq]
    simp only [UInt32.toNat_ofNat, Nat.reduceMod, Nat.reducePow]
    omega
  have a2 : (UInt32.ofNat st <<< (8 : UInt32)).toNat = st * 2 ^ 8 := by
    rw [UInt32.toNat_shiftLeft, UInt32.toNat_ofNat', Nat.mod_eq_of_lt (show st < 2 ^ 32 by omega), Nat.shiftLeft_eq]
    simp only [UInt32.toNat_ofNat, Nat.reduceMod, Nat.reducePow]
    omega
  have a3 : (UInt32.ofNat f).toNat = f := by
    rw [UInt32.toNat_ofNat', Nat.mod_eq_of_lt (by omega)]
  rw [makeSubLink, UInt32.toNat_or, UInt32.toNat_or, a1, a2, a3]
  rw [Nat.or_assoc, Nat.or_comm f, ← Nat.shiftLeft_eq st 8, ← Nat.shiftLeft_add_eq_or_of_lt (show f < 2 ^ 8 by omega), ← Nat.shiftLeft_eq tb 28]
  rw [← Nat.shiftLeft_add_eq_or_of_lt (by rw [Nat.shiftLeft_eq]; omega)]
  rw [Nat.shiftLeft_eq, Nat.shiftLeft_eq]
  omega

theorem and_bit (e : UInt32) (k : Nat) (hk : k < 32) (c : UInt32) (hc : c.toNat = 2 ^ k) :
    (e &&& c != 0) = decide (e.toNat / 2 ^ k % 2 = 1) := by
  have h : (e &&& c).toNat = (e.toNat.testBit k).toNat * 2 ^ k := by
    rw [UInt32.toNat_and, hc, Nat.and_comm, Nat.two_pow_and, Nat.mul_comm]
  have h2 : (e &&& c = 0) ↔ (e &&& c).toNat = 0 := by
    rw [← UInt32.toNat_inj]; rfl
  have h3 : e.toNat.testBit k = decide (e.toNat / 2 ^ k % 2 = 1) := by
    rw [Nat.testBit_eq_decide_div_mod_eq]
  rw [h3] at h
  by_cases hd : e.toNat / 2 ^ k % 2 = 1
  · have := Nat.two_pow_pos k
    have : ¬ (e &&& c = 0) := by rw [h2, h]; simp [hd]
    simp [hd, this]
  · have : (e &&& c = 0) := by rw [h2, h]; simp [hd]
    simp [hd, this]

theorem link_fields {st tb f : Nat} (h1 : st < 2 ^ 15) (h2 : tb < 16) (h3 : f < 64) :
    isLiteral (makeSubLink st tb f) = false ∧ isOffOrLen (makeSubLink st tb f) = false ∧ payloadField (makeSubLink st tb f) = st ∧
      rawPayload (makeSubLink st tb f) = st ∧
      baseLength (makeSubLink st tb f) = tb ∧ fullLength (makeSubLink st tb f) = f ∧ (makeSubLink st tb f &&& 63).toNat = f := by
  have h := link_toNat h1 h2 h3
  have m15 : ∀ x : Nat, x &&& 15 = x % 16 := fun x => Nat.and_two_pow_sub_one_eq_mod x 4
  have m255 : ∀ x : Nat, x &&& 255 = x % 256 := fun x => Nat.and_two_pow_sub_one_eq_mod x 8
  have m63 : ∀ x : Nat, x &&& 63 = x % 64 := fun x => Nat.and_two_pow_sub_one_eq_mod x 6
  have m32767 : ∀ x : Nat, x &&& 32767 = x % 32768 := fun x => Nat.and_two_pow_sub_one_eq_mod x 15
  have m65535 : ∀ x : Nat, x &&& 65535 = x % 65536 := fun x => Nat.and_two_pow_sub_one_eq_mod x 16
  refine ⟨?_, ?_, ?_, ?_, ?_, ?_, ?_⟩
  · rw [isLiteral, and_bit _ 27 (by omega) _ rfl, h]; simp; omega
  · rw [isOffOrLen, and_bit _ 25 (by omega) _ rfl, h]; simp; omega
  · rw [payloadField, UInt32.toNat_and, UInt32.toNat_shiftRight, h]
    simp only [UInt32.toNat_ofNat, Nat.reduceMod, Nat.reducePow, Nat.shiftRight_eq_div_pow, m32767]; omega
  · rw [rawPayload, UInt32.toNat_and, UInt32.toNat_shiftRight, h]
    simp only [UInt32.toNat_ofNat, Nat.reduceMod, Nat.reducePow, Nat.shiftRight_eq_div_pow, m65535]; omega
  · rw [baseLength, UInt32.toNat_and, UInt32.toNat_shiftRight, h]
    simp only [UInt32.toNat_ofNat, Nat.reduceMod, Nat.reducePow, Nat.shiftRight_eq_div_pow, m15]; omega
  · rw [fullLength, UInt32.toNat_and, h]
    simp only [UInt32.toNat_ofNat, Nat.reduceMod, Nat.reducePow, m255]; omega
  · rw [UInt32.toNat_and, h]
    simp only [UInt32.toNat_ofNat, Nat.reduceMod, Nat.reducePow, m63]; omega

theorem means_not_offOrLen {r : Entry × Nat} {l : Nat} {m : Meaning} (h : means r l m = true) (h1 : isLiteral r.1 = false) :
    ∀ b, m ≠ .literal b := by
  rintro b rfl
  simp [means, h1] at h

/-- A codeword is found. -/
theorem lookupLitLen_good {results : List Entry} {lens : List Nat} {tb cap s N : Nat} {T : Tab} {e : Entry} {m : Meaning}
    (hcap : cap ≤ 2 ^ 15) (htb : tb ≤ 15) (hcap2 : 2 ^ tb ≤ cap) (h1 : 1 ≤ lens.getD s 0) (h15 : lens.getD s 0 ≤ 15)
    (hg : Good results tb cap T (s, lens.getD s 0, codeOf lens s * wt (lens.getD s 0)))
    (he : results[s]? = some e) (htop : topOk (makeTop e (lens.getD s 0)) (lens.getD s 0) m = true)
    (hsub : means (makeSub e (lens.getD s 0), fullLength (makeSub e (lens.getD s 0))) (lens.getD s 0) m = true)
    (hN : StartsWith N (lens.getD s 0) (codeOf lens s)) :
    ∃ r, lookupLitLen cap T tb N = some r ∧ means r (lens.getD s 0) m = true := by
  rw [startsWith_iff] at hN
  generalize lens.getD s 0 = l at *
  have hrev : rev 15 (codeOf lens s * wt l) = N % 2 ^ l := by
    rw [hN]; exact rev15_code h15
  have hi : N % 2 ^ tb < 2 ^ tb := Nat.mod_lt _ (Nat.two_pow_pos _)
  by_cases hl : l ≤ tb
  · have hT : ∀ i < 2 ^ tb, i % 2 ^ l = N % 2 ^ l → T i = makeTop e l := by
      intro i hi h
      exact hg.1 hl e he i hi (by simp only []; rw [hrev]; exact h)
    have hT1 := hT (N % 2 ^ tb) hi (Nat.mod_mod_of_dvd _ (Nat.pow_dvd_pow 2 hl))
    have hT2 := hT (N % 2 ^ l) (Nat.lt_of_lt_of_le (Nat.mod_lt _ (Nat.two_pow_pos _)) (Nat.pow_le_pow_right (by omega) hl))
      (Nat.mod_mod _ _)
    simp only [lookupLitLen, Tab.read, if_pos (show N % 2 ^ tb < cap by omega), hT1]
    simp only [topOk] at htop
    by_cases c1 : isLiteral (makeTop e l) = true
    · rw [if_pos c1] at htop ⊢
      exact ⟨_, rfl, htop⟩
    · rw [if_neg c1] at htop ⊢
      by_cases c2 : isOffOrLen (makeTop e l) = true
      · rw [if_pos c2] at htop ⊢
        exact ⟨_, rfl, htop⟩
      · rw [if_neg c2] at htop ⊢
        simp only [Bool.and_eq_true, beq_iff_eq] at htop
        obtain ⟨⟨⟨⟨d1, d2⟩, d3⟩, d4⟩, d5⟩ := htop
        rw [d1, d2, d3, Nat.pow_zero, Nat.div_one, Nat.zero_add, hT2]
        have : N % 2 ^ l < 2 ^ tb := Nat.lt_of_lt_of_le (Nat.mod_lt _ (Nat.two_pow_pos _)) (Nat.pow_le_pow_right (by omega) hl)
        rw [if_pos (show N % 2 ^ l < cap by omega)]
        exact ⟨_, rfl, d5⟩
  · obtain ⟨st, b, g1, g2, g3, g4, g5, g6⟩ := hg.2 (by simp only []; omega)
    simp only [] at g1 g5 g6
    rw [hrev] at g5 g6
    rw [Nat.mod_mod_of_dvd _ (Nat.pow_dvd_pow 2 (show tb ≤ l by omega))] at g5
    have hb := Nat.two_pow_pos b
    obtain ⟨f1, f2, f3, _, f5, f6, f7⟩ := link_fields (st := st) (tb := tb) (f := tb + b) (by omega) (by omega) (by omega)
    have hj : N % 2 ^ (tb + b) / 2 ^ tb < 2 ^ b := by
      rw [Nat.div_lt_iff_lt_mul (Nat.two_pow_pos _), ← Nat.pow_add, Nat.add_comm b tb]
      exact Nat.mod_lt _ (Nat.two_pow_pos _)
    have hT := g6 e he _ hj (sub_index (by omega) g1)
    simp only [lookupLitLen, Tab.read, if_pos (show N % 2 ^ tb < cap by omega), g5, f1, f2, f3, f5, f6]
    rw [if_pos (show st + N % 2 ^ (tb + b) / 2 ^ tb < cap by omega), hT]
    exact ⟨_, rfl, hsub⟩

@[inherit_doc lookupLitLen_good]
theorem lookupOffset_good {results : List Entry} {lens : List Nat} {tb cap s N : Nat} {T : Tab} {e : Entry} {m : Meaning}
    (hcap : cap ≤ 2 ^ 15) (htb : tb ≤ 15) (hcap2 : 2 ^ tb ≤ cap) (h1 : 1 ≤ lens.getD s 0) (h15 : lens.getD s 0 ≤ 15)
    (hg : Good results tb cap T (s, lens.getD s 0, codeOf lens s * wt (lens.getD s 0)))
    (he : results[s]? = some e) (htop : topOk (makeTop e (lens.getD s 0)) (lens.getD s 0) m = true)
    (hlit : isLiteral (makeTop e (lens.getD s 0)) = false)
    (hsub : means (makeSub e (lens.getD s 0), fullLength (makeSub e (lens.getD s 0))) (lens.getD s 0) m = true)
    (hN : StartsWith N (lens.getD s 0) (codeOf lens s)) :
    ∃ r, lookupOffset cap T tb N = some r ∧ means r (lens.getD s 0) m = true := by
  rw [startsWith_iff] at hN
  generalize lens.getD s 0 = l at *
  have hrev : rev 15 (codeOf lens s * wt l) = N % 2 ^ l := by
    rw [hN]; exact rev15_code h15
  have hi : N % 2 ^ tb < 2 ^ tb := Nat.mod_lt _ (Nat.two_pow_pos _)
  by_cases hl : l ≤ tb
  · have hT : ∀ i < 2 ^ tb, i % 2 ^ l = N % 2 ^ l → T i = makeTop e l := by
      intro i hi h
      exact hg.1 hl e he i hi (by simp only []; rw [hrev]; exact h)
    have hT1 := hT (N % 2 ^ tb) hi (Nat.mod_mod_of_dvd _ (Nat.pow_dvd_pow 2 hl))
    have hT2 := hT (N % 2 ^ l) (Nat.lt_of_lt_of_le (Nat.mod_lt _ (Nat.two_pow_pos _)) (Nat.pow_le_pow_right (by omega) hl))
      (Nat.mod_mod _ _)
    simp only [lookupOffset, Tab.read, if_pos (show N % 2 ^ tb < cap by omega), hT1]
    simp only [topOk, hlit, Bool.false_eq_true, if_false] at htop
    by_cases c2 : isOffOrLen (makeTop e l) = true
    · rw [if_pos c2] at htop ⊢
      exact ⟨_, rfl, htop⟩
    · rw [if_neg c2] at htop ⊢
      simp only [Bool.and_eq_true, beq_iff_eq] at htop
      obtain ⟨⟨⟨⟨d1, d2⟩, d3⟩, d4⟩, d5⟩ := htop
      rw [d1, extractExtra, d2, d4, Nat.pow_zero, Nat.div_one, Nat.zero_add, hT2]
      have : N % 2 ^ l < 2 ^ tb := Nat.lt_of_lt_of_le (Nat.mod_lt _ (Nat.two_pow_pos _)) (Nat.pow_le_pow_right (by omega) hl)
      rw [if_pos (show N % 2 ^ l < cap by omega)]
      exact ⟨_, rfl, d5⟩
  · obtain ⟨st, b, g1, g2, g3, g4, g5, g6⟩ := hg.2 (by simp only []; omega)
    simp only [] at g1 g5 g6
    rw [hrev] at g5 g6
    rw [Nat.mod_mod_of_dvd _ (Nat.pow_dvd_pow 2 (show tb ≤ l by omega))] at g5
    have hb := Nat.two_pow_pos b
    obtain ⟨f1, f2, f3, _, f5, f6, f7⟩ := link_fields (st := st) (tb := tb) (f := tb + b) (by omega) (by omega) (by omega)
    have hj : N % 2 ^ (tb + b) / 2 ^ tb < 2 ^ b := by
      rw [Nat.div_lt_iff_lt_mul (Nat.two_pow_pos _), ← Nat.pow_add, Nat.add_comm b tb]
      exact Nat.mod_lt _ (Nat.two_pow_pos _)
    have hT := g6 e he _ hj (sub_index (by omega) g1)
    simp only [lookupOffset, Tab.read, if_pos (show N % 2 ^ tb < cap by omega), g5, f2, f3, extractExtra, f5, f7]
    rw [if_neg (by simp), if_pos (show st + N % 2 ^ (tb + b) / 2 ^ tb < cap by omega), hT]
    exact ⟨_, rfl, hsub⟩

theorem split_unique {α : Type} {x : α} {B B' : List α} : ∀ A A' : List α, A ++ x :: B = A' ++ x :: B' →
    (A ++ x :: B).Nodup → A = A'
  | [], [], _, _ => rfl
  | [], y :: A', h, hn => by
    simp only [List.nil_append, List.cons_append, List.cons.injEq] at h hn
    obtain ⟨rfl, h⟩ := h
    rw [h, List.nodup_cons] at hn
    exact absurd (by simp) hn.1
  | y :: A, [], h, hn => by
    simp only [List.nil_append, List.cons_append, List.cons.injEq] at h hn
    obtain ⟨rfl, h⟩ := h
    rw [List.nodup_cons] at hn
    exact absurd (by simp) hn.1
  | y :: A, z :: A', h, hn => by
    simp only [List.cons_append, List.cons.injEq] at h hn
    obtain ⟨rfl, h⟩ := h
    rw [split_unique A A' h (List.nodup_cons.1 hn).2]

/-- The input always begins with a codeword of a complete code. -/
theorem complete_codes {lens : List Nat} (h15 : ∀ l ∈ lens, l ≤ 15) (hc : Complete lens) (N : Nat) : ∃ s, Codes lens N s := by
  have hsum : wsum (canon lens) = 2 ^ 15 := by rw [kraft_eq h15]; exact hc
  have hmem : ∀ r ∈ canon lens, 1 ≤ r.2 ∧ r.2 ≤ 15 ∧ r.1 < lens.length ∧ lens.getD r.1 0 = r.2 := fun r hr => mem_canonTo.1 hr
  have hX : rev 15 N < 2 ^ 15 := rev_lt _ _
  have key : ∀ (A B : List (Nat × Nat)), canon lens = A ++ B → wsum A ≤ rev 15 N →
      ∃ A' r B', canon lens = A' ++ r :: B' ∧ wsum A' ≤ rev 15 N ∧ rev 15 N < wsum A' + wt r.2 := by
    intro A B
    induction B generalizing A with
    | nil =>
      intro h1 h2
      rw [List.append_nil] at h1
      rw [h1] at hsum
      omega
    | cons r B ih =>
      intro h1 h2
      by_cases h : rev 15 N < wsum A + wt r.2
      · exact ⟨A, r, B, h1, h2, h⟩
      · apply ih (A ++ [r])
        · rw [h1, List.append_assoc]; rfl
        · rw [wsum_append]; simp only [wsum, List.map_cons, List.map_nil, List.sum_cons, List.sum_nil] at *; omega
  obtain ⟨A, r, B, k1, k2, k3⟩ := key [] (canon lens) rfl (by simp [wsum])
  obtain ⟨m1, m2, m3, m4⟩ := hmem r (by rw [k1]; simp)
  obtain ⟨s, l⟩ := r
  simp only at m1 m2 m3 m4 k3
  obtain ⟨A', B', e1, e2⟩ := canon_split m3 (by rw [m4]; exact m1) (by rw [m4]; exact m2)
  rw [m4] at e1 e2
  have hAA : A = A' := by
    have hnd : (canon lens).Nodup := by
      rw [canon_eq]
      have : ∀ m, (canonTo lens m).Nodup := by
        intro m
        induction m with
        | zero => simp [canonTo]
        | succ m ih =>
          rw [canonTo_succ, List.nodup_append]
          refine ⟨ih, ?_, ?_⟩
          · apply List.Nodup.map (fun a b h => by simpa using h)
            exact (List.nodup_range).filter _
          · intro a ha b hb hab
            rw [mem_canonTo] at ha
            simp only [List.mem_map] at hb
            obtain ⟨x, _, rfl⟩ := hb
            rw [hab] at ha
            simp only at ha
            omega
      exact this 15
    rw [k1] at e1 hnd
    exact split_unique _ _ e1 hnd
  refine ⟨s, m3, by omega, ?_⟩
  rw [m4, startsWith_iff]
  rw [hAA, e2] at k2 k3
  have hq : rev 15 N / wt l = codeOf lens s := by
    apply Nat.div_eq_of_lt_le
    · exact k2
    · rw [Nat.succ_mul]; exact k3
  have h2 : rev 15 (rev 15 N) % 2 ^ l = rev l (rev 15 N / 2 ^ (15 - l)) := rev15_cut m2
  have h3 : rev 15 (rev 15 N) = N % 2 ^ 15 := by
    apply Nat.eq_of_testBit_eq
    intro i
    rw [rev_testBit, rev_testBit, Nat.testBit_mod_two_pow]
    by_cases hi : i < 15
    · simp [hi, show 15 - 1 - i < 15 by omega, show 15 - 1 - (15 - 1 - i) = i by omega]
    · simp [hi]
  rw [h3, Nat.mod_mod_of_dvd _ (Nat.pow_dvd_pow 2 m2)] at h2
  rw [h2]
  have : 2 ^ (15 - l) = wt l := rfl
  rw [this, hq]

/-- The table of an incomplete code. -/
theorem fillPairs_spec {cap : Nat} {e0 e1 : Entry} : ∀ (n i : Nat) (t : Tab), i + 2 * n ≤ cap →
    ∃ t', fillPairs cap e0 e1 n i t = some t' ∧ (∀ k < n, t' (i + 2 * k) = e0 ∧ t' (i + 2 * k + 1) = e1) ∧ ∀ k < i, t' k = t k
  | 0, i, t, _ => ⟨t, rfl, fun k hk => by omega, fun _ _ => rfl⟩
  | n + 1, i, t, h => by
    obtain ⟨t', h1, h2, h3⟩ := fillPairs_spec (cap := cap) (e0 := e0) (e1 := e1) n (i + 2)
      (Function.update (Function.update t i e0) (i + 1) e1) (by omega)
    refine ⟨t', ?_, ?_, ?_⟩
    · simp only [fillPairs, Tab.write, if_pos (show i < cap by omega), if_pos (show i + 1 < cap by omega), h1]
    · intro k hk
      cases k with
      | zero =>
        rw [Nat.mul_zero, Nat.add_zero, h3 i (by omega), h3 (i + 1) (by omega)]
        simp
      | succ k =>
        have := h2 k (by omega)
        rw [show i + 2 * (k + 1) = i + 2 + 2 * k by omega]
        exact this
    · intro k hk
      rw [h3 k (by omega), Function.update_apply, Function.update_apply, if_neg (by omega), if_neg (by omega)]

end Blend2D.Deflate
