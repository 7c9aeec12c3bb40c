import Verif.Deflate.Shape
import Verif.Deflate.BitStream

/-!
# Equations of the specification
-/

namespace Blend2D.Deflate
open Spec

@[simp] theorem bind_ok {α β : Type} (a : α) (f : α → Result β) : Result.bind (.ok a) f = f a := rfl
@[simp] theorem bind_invalid {α β : Type} (f : α → Result β) : Result.bind .invalid f = .invalid := rfl
@[simp] theorem bind_truncated {α β : Type} (f : α → Result β) : Result.bind .truncated f = .truncated := rfl
@[simp] theorem bind_refused {α β : Type} (f : α → Result β) : Result.bind .refused f = .refused := rfl
@[simp] theorem bind_eq {α β : Type} (x : Result α) (f : α → Result β) : (x >>= f) = x.bind f := rfl
@[simp] theorem pure_eq {α : Type} (a : α) : (pure a : Result α) = .ok a := rfl
theorem bind_assoc {α β γ : Type} (x : Result α) (f : α → Result β) (g : β → Result γ) :
    (x.bind f).bind g = x.bind fun a => (f a).bind g := by cases x <;> rfl

theorem kraft_le {lens : List Nat} (h : Complete lens ∨ Single lens ∨ Unused lens) : kraft lens ≤ 2 ^ 15 := by
  rcases h with h | h | h
  · exact Nat.le_of_eq h
  · rw [(single_iff.1 h).1]; decide
  · rw [kraft_zero.2 h]; exact Nat.zero_le _

theorem symbol_ok {lens : List Nat} {s : Nat} {S : Stream} (h15 : ∀ l ∈ lens, l ≤ 15) (hk : kraft lens ≤ 2 ^ 15)
    (hc : Codes lens S.val s) (hl : lens.getD s 0 ≤ S.len) : symbol lens S = .ok (s, S.skip (lens.getD s 0)) := by
  rw [symbol, find_unique (s := s) hc.1 (by simpa using ⟨hc, hl⟩)]
  intro t ht
  simp only [decide_eq_true_eq] at ht
  exact codes_unique h15 hk ht.1 hc

theorem symbol_none {lens : List Nat} {S : Stream} (h : ∀ s, Codes lens S.val s → S.len < lens.getD s 0) :
    symbol lens S = if S.len = 0 ∨ Complete lens then .truncated else .invalid := by
  have : (List.range lens.length).find? (fun sym => decide (Codes lens S.val sym ∧ lens.getD sym 0 ≤ S.len)) = none := by
    rw [List.find?_eq_none]
    intro s _ hs
    simp only [decide_eq_true_eq] at hs
    have := h s hs.1
    omega
  rw [symbol, this]

theorem symbol_inv {lens : List Nat} {S S1 : Stream} {s : Nat} (h : symbol lens S = .ok (s, S1)) :
    Codes lens S.val s ∧ lens.getD s 0 ≤ S.len ∧ S1 = S.skip (lens.getD s 0) := by
  rw [symbol] at h
  split at h
  · rename_i sym hf
    have := List.find?_some hf
    simp only [decide_eq_true_eq] at this
    simp only [Result.ok.injEq, Prod.mk.injEq] at h
    obtain ⟨rfl, rfl⟩ := h
    exact ⟨this.1, this.2, rfl⟩
  · split at h <;> simp at h

theorem symbol_lt {lens : List Nat} {S S1 : Stream} {s : Nat} (h : symbol lens S = .ok (s, S1)) : S1.len < S.len := by
  obtain ⟨h1, h2, rfl⟩ := symbol_inv h
  have := h1.2.1
  rw [skip_len]; omega

theorem bits_le {n v : Nat} {S S1 : Stream} (h : bits n S = .ok (v, S1)) : S1.len ≤ S.len := by
  rw [bits] at h
  split at h
  · simp only [Result.ok.injEq, Prod.mk.injEq] at h
    obtain ⟨_, rfl⟩ := h
    rw [skip_len]; omega
  · simp at h

/-- `huffman` without the test that makes it terminate. -/
theorem huffman_eq (ll dl : List Nat) (S : Stream) (out : List UInt8) : huffman ll dl S out =
    (symbol ll S).bind fun p =>
      match litLenMeaning p.1 with
      | .literal x => huffman ll dl p.2 (out ++ [UInt8.ofNat x])
      | .endOfBlock => .ok (out, p.2)
      | .invalid => .invalid
      | .value base extra =>
        (bits extra p.2).bind fun q =>
        (symbol dl q.2).bind fun d =>
          match offsetMeaning d.1 with
          | .value obase oextra =>
            (bits oextra d.2).bind fun w =>
            if out.length < obase + w.1 then .invalid
            else huffman ll dl w.2 (out ++ copied out (obase + w.1) (base + q.1))
          | _ => .invalid := by
  rw [huffman]
  simp only [bind_eq, pure_eq]
  cases h1 : symbol ll S with
  | ok p =>
    have l1 := symbol_lt h1
    simp only [bind_ok]
    cases hm : litLenMeaning p.1 with
    | literal x => simp only [if_pos l1]
    | endOfBlock => rfl
    | invalid => rfl
    | value base extra =>
      simp only []
      cases h2 : bits extra p.2 with
      | ok q =>
        have l2 := bits_le h2
        simp only [bind_ok]
        cases h3 : symbol dl q.2 with
        | ok d =>
          have l3 := symbol_lt h3
          simp only [bind_ok]
          cases hm2 : offsetMeaning d.1 with
          | value ob oe =>
            simp only []
            cases h4 : bits oe d.2 with
            | ok w =>
              have l4 := bits_le h4
              simp only [bind_ok]
              split
              · rfl
              · rw [if_pos (by omega)]
            | _ => rfl
          | _ => rfl
        | _ => rfl
      | _ => rfl
  | _ => rfl

/-- `codeLengths` without the test that makes it terminate. -/
theorem codeLengths_eq (pl : List Nat) (n : Nat) (S : Stream) (acc : List Nat) : codeLengths pl n S acc =
    if n ≤ acc.length then if acc.length = n then .ok (acc, S) else .invalid
    else
      (symbol pl S).bind fun p =>
        if p.1 < 16 then codeLengths pl n p.2 (acc ++ [p.1])
        else
          (bits (precodeMeaning p.1).2 p.2).bind fun q =>
            if p.1 = 16 ∧ acc = [] then .invalid
            else codeLengths pl n q.2 (acc ++ List.replicate ((precodeMeaning p.1).1 + q.1) (if p.1 = 16 then acc.getLastD 0 else 0)) := by
  rw [codeLengths]
  simp only [bind_eq, pure_eq]
  split
  · rfl
  · cases h1 : symbol pl S with
    | ok p =>
      have l1 := symbol_lt h1
      simp only [bind_ok]
      split
      · rfl
      · cases h2 : bits (precodeMeaning p.1).2 p.2 with
        | ok q =>
          have l2 := bits_le h2
          simp only [bind_ok]
          split
          · rfl
          · rw [if_pos (by omega)]
        | _ => rfl
    | _ => rfl

theorem huffman_le {ll dl : List Nat} : ∀ (n : Nat) {S S1 : Stream} {out o : List UInt8}, S.len ≤ n →
    huffman ll dl S out = .ok (o, S1) → S1.len ≤ S.len := by
  intro n
  induction n with
  | zero =>
    intro S S1 out o hn h
    rw [huffman_eq] at h
    cases h1 : symbol ll S with
    | ok p => have := symbol_lt h1; omega
    | _ => rw [h1] at h; simp at h
  | succ n ih =>
    intro S S1 out o hn h
    rw [huffman_eq] at h
    cases h1 : symbol ll S with
    | ok p =>
      have l1 := symbol_lt h1
      rw [h1] at h
      simp only [bind_ok] at h
      split at h
      · have := ih (by omega) h; omega
      · simp only [Result.ok.injEq, Prod.mk.injEq] at h; obtain ⟨_, rfl⟩ := h; omega
      · simp at h
      · rename_i base extra hm
        cases h2 : bits extra p.2 with
        | ok q =>
          have l2 := bits_le h2
          rw [h2] at h
          simp only [bind_ok] at h
          cases h3 : symbol dl q.2 with
          | ok d =>
            have l3 := symbol_lt h3
            rw [h3] at h
            simp only [bind_ok] at h
            split at h
            · rename_i ob oe hm2
              cases h4 : bits oe d.2 with
              | ok w =>
                have l4 := bits_le h4
                rw [h4] at h
                simp only [bind_ok] at h
                split at h
                · simp at h
                · have := ih (by omega) h; omega
              | _ => rw [h4] at h; simp at h
            · simp at h
          | _ => rw [h3] at h; simp at h
        | _ => rw [h2] at h; simp at h
    | _ => rw [h1] at h; simp at h

theorem codeLengths_le {pl : List Nat} {N : Nat} : ∀ (n : Nat) {S S1 : Stream} {acc o : List Nat}, S.len ≤ n →
    codeLengths pl N S acc = .ok (o, S1) → S1.len ≤ S.len := by
  intro n
  induction n with
  | zero =>
    intro S S1 out o hn h
    rw [codeLengths_eq] at h
    split at h
    · split at h
      · simp only [Result.ok.injEq, Prod.mk.injEq] at h; obtain ⟨_, rfl⟩ := h; omega
      · simp at h
    · cases h1 : symbol pl S with
      | ok p => have := symbol_lt h1; omega
      | _ => rw [h1] at h; simp at h
  | succ n ih =>
    intro S S1 out o hn h
    rw [codeLengths_eq] at h
    split at h
    · split at h
      · simp only [Result.ok.injEq, Prod.mk.injEq] at h; obtain ⟨_, rfl⟩ := h; omega
      · simp at h
    · cases h1 : symbol pl S with
      | ok p =>
        have l1 := symbol_lt h1
        rw [h1] at h
        simp only [bind_ok] at h
        split at h
        · have := ih (by omega) h; omega
        · cases h2 : bits (precodeMeaning p.1).2 p.2 with
          | ok q =>
            have l2 := bits_le h2
            rw [h2] at h
            simp only [bind_ok] at h
            split at h
            · simp at h
            · have := ih (by omega) h; omega
          | _ => rw [h2] at h; simp at h
      | _ => rw [h1] at h; simp at h

theorem many_le {n : Nat} : ∀ (k : Nat) {S S1 : Stream} {o : List Nat}, many n k S = .ok (o, S1) → S1.len ≤ S.len
  | 0, S, S1, o, h => by
    simp only [many, pure_eq, Result.ok.injEq, Prod.mk.injEq] at h
    rw [h.2]
  | k + 1, S, S1, o, h => by
    simp only [many, bind_eq] at h
    cases h1 : bits n S with
    | ok p =>
      have l1 := bits_le h1
      rw [h1] at h
      simp only [bind_ok] at h
      cases h2 : many n k p.2 with
      | ok q =>
        have l2 := many_le k h2
        rw [h2] at h
        simp only [bind_ok, pure_eq, Result.ok.injEq, Prod.mk.injEq] at h
        rw [← h.2]; omega
      | _ => rw [h2] at h; simp at h
    | _ => rw [h1] at h; simp at h

/-- The part of the header of a dynamic block after the lengths of the precode. -/
def dynRest (hlit hdist : Nat) (stored : List Nat) (S : Stream) : Result (List Nat × List Nat × Stream) :=
  if Complete (precodeOf stored) then
    (codeLengths (precodeOf stored) (hlit + 257 + (hdist + 1)) S []).bind fun p => twoCodes hlit p.1 p.2
  else .invalid

theorem dynamicCodes_eq (S : Stream) : dynamicCodes S =
    (bits 5 S).bind fun a => (bits 5 a.2).bind fun b => (bits 4 b.2).bind fun c => (many 3 (c.1 + 4) c.2).bind fun d =>
      dynRest a.1 b.1 d.1 d.2 := by
  simp only [dynamicCodes, bind_eq, dynRest]

theorem twoCodes_inv {h : Nat} {lens a b : List Nat} {S S1 : Stream} (e : twoCodes h lens S = .ok (a, b, S1)) : S1 = S := by
  simp only [twoCodes] at e
  split at e
  · simp only [pure_eq, Result.ok.injEq, Prod.mk.injEq] at e; exact e.2.2.symm
  · simp at e

theorem dynamicCodes_le {S S1 : Stream} {a b : List Nat} (h : dynamicCodes S = .ok (a, b, S1)) : S1.len ≤ S.len := by
  rw [dynamicCodes_eq] at h
  cases h1 : bits 5 S with
  | ok p1 =>
    have l1 := bits_le h1
    rw [h1] at h; simp only [bind_ok] at h
    cases h2 : bits 5 p1.2 with
    | ok p2 =>
      have l2 := bits_le h2
      rw [h2] at h; simp only [bind_ok] at h
      cases h3 : bits 4 p2.2 with
      | ok p3 =>
        have l3 := bits_le h3
        rw [h3] at h; simp only [bind_ok] at h
        cases h4 : many 3 (p3.1 + 4) p3.2 with
        | ok p4 =>
          have l4 := many_le _ h4
          rw [h4] at h; simp only [bind_ok, dynRest] at h
          split at h
          · cases h5 : codeLengths (precodeOf p4.1) (p1.1 + 257 + (p2.1 + 1)) p4.2 [] with
            | ok p5 =>
              have l5 := codeLengths_le _ (Nat.le_refl _) h5
              rw [h5] at h; simp only [bind_ok] at h
              have := twoCodes_inv h
              rw [this]; omega
            | _ => rw [h5] at h; simp at h
          · simp at h
        | _ => rw [h4] at h; simp at h
      | _ => rw [h3] at h; simp at h
    | _ => rw [h2] at h; simp at h
  | _ => rw [h1] at h; simp at h

theorem stored_le {S S1 : Stream} {out o : List UInt8} (h : Spec.stored S out = .ok (o, S1)) : S1.len ≤ S.len := by
  simp only [Spec.stored, bind_eq] at h
  cases h1 : bits 16 S with
  | ok p1 =>
    have l1 := bits_le h1
    rw [h1] at h; simp only [bind_ok] at h
    cases h2 : bits 16 p1.2 with
    | ok p2 =>
      have l2 := bits_le h2
      rw [h2] at h; simp only [bind_ok] at h
      split at h
      · rw [storedBytes] at h
        split at h
        · simp only [pure_eq, Result.ok.injEq, Prod.mk.injEq] at h
          rw [← h.2, skip_len]; omega
        · simp at h
      · simp at h
    | _ => rw [h2] at h; simp at h
  | _ => rw [h1] at h; simp at h

theorem block_le {allow : Bool → Kind → Bool} {seen : Bool} {ty : Nat} {S S1 : Stream} {out o : List UInt8}
    (h : block allow seen ty S out = .ok (o, S1)) : S1.len ≤ S.len := by
  rw [block.eq_def] at h
  split at h
  · split at h
    · have := stored_le h
      rw [skip_len] at this; omega
    · simp at h
  · split at h
    · exact huffman_le _ (Nat.le_refl _) h
    · simp at h
  · simp only [bind_eq] at h
    cases h1 : dynamicCodes S with
    | ok p =>
      obtain ⟨a, b, S2⟩ := p
      have l1 := dynamicCodes_le h1
      rw [h1] at h; simp only [bind_ok] at h
      split at h
      · have := huffman_le _ (Nat.le_refl _) h; omega
      · simp at h
    | _ => rw [h1] at h; simp at h
  · simp at h

/-- `blocks` without the test that makes it terminate. -/
theorem blocks_eq (allow : Bool → Kind → Bool) (seen : Bool) (S : Stream) (out : List UInt8) : blocks allow seen S out =
    (bits 1 S).bind fun a => (bits 2 a.2).bind fun b => (block allow seen b.1 b.2 out).bind fun p =>
      if a.1 = 1 then .ok p.1 else blocks allow (seen || b.1 != 0) p.2 p.1 := by
  rw [blocks]
  simp only [bind_eq, pure_eq]
  cases h1 : bits 1 S with
  | ok a =>
    have l1 := bits_le h1
    simp only [bind_ok]
    cases h2 : bits 2 a.2 with
    | ok b =>
      have l2 : b.2.len < a.2.len := by
        rw [bits] at h2
        split at h2
        · simp only [Result.ok.injEq] at h2; rw [← h2]; simp only [skip_len]; omega
        · simp at h2
      simp only [bind_ok]
      cases h3 : block allow seen b.1 b.2 out with
      | ok p =>
        have l3 := block_le h3
        simp only [bind_ok]
        split
        · rfl
        · rw [if_pos (by omega)]
      | _ => rfl
    | _ => rfl
  | _ => rfl

theorem many_succ (n k : Nat) (S : Stream) : many n (k + 1) S =
    (bits n S).bind fun a => (many n k a.2).bind fun b => .ok (a.1 :: b.1, b.2) := by
  simp only [many, bind_eq, pure_eq]

/-! ## Copies -/

theorem copied_succ {out : List UInt8} {d : Nat} (h0 : 1 ≤ d) (h : d ≤ out.length) (n : Nat) :
    copied out d (n + 1) = out.getD (out.length - d) 0 :: copied (out ++ [out.getD (out.length - d) 0]) d n := by
  rw [copied, List.range_succ_eq_map, List.map_cons, copied, List.map_map]
  congr 1
  apply List.map_congr_left
  intro i _
  simp only [Function.comp, List.length_append, List.length_singleton, List.getD_eq_getElem?_getD]
  have hi := Nat.mod_lt i (show 0 < d by omega)
  by_cases hc : i % d + 1 < d
  · rw [show i.succ % d = i % d + 1 by rw [Nat.succ_eq_add_one, Nat.add_mod, Nat.mod_eq_of_lt (show 1 < d by omega), Nat.mod_eq_of_lt hc]]
    rw [List.getElem?_append_left (by omega)]
    congr 2; omega
  · have h1 : i % d + 1 = d := by omega
    have h2 : i.succ % d = 0 := by
      rw [Nat.succ_eq_add_one]
      by_cases hd : d = 1
      · subst hd; omega
      · rw [Nat.add_mod, Nat.mod_eq_of_lt (show 1 < d by omega), h1, Nat.mod_self]
    rw [h2, Nat.add_zero, show out.length + 1 - d + i % d = out.length by omega, List.getElem?_append_right (Nat.le_refl _)]
    simp

theorem copyLoop_eq {d : Nat} (h0 : 1 ≤ d) : ∀ (n : Nat) (out : List UInt8), d ≤ out.length → copyLoop d n out = out ++ copied out d n
  | 0, out, _ => by simp [copyLoop, copied]
  | n + 1, out, h => by
    rw [copyLoop, copyLoop_eq h0 n _ (by simp; omega), copied_succ h0 h]
    simp

theorem copied_length (out : List UInt8) (d n : Nat) : (copied out d n).length = n := by simp [copied]

end Blend2D.Deflate
