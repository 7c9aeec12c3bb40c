import Verif.Draw.Model
import Verif.BitOps.Props

/-! # `bit_fill` -/

namespace Blend2D.Draw
open BitOps

theorem onesLoop_spec (o : Order) : ∀ (n : Nat) (buf : List (BitVec 64)) (i : Nat), i + n ≤ buf.length →
    ∃ b, onesLoop buf i n = some b ∧ b.length = buf.length ∧
      ∀ k, bitAt o b k = if i ≤ k / 64 ∧ k / 64 < i + n then true else bitAt o buf k := by
  intro n
  induction n with
  | zero =>
    intro buf i _
    refine ⟨buf, rfl, rfl, fun k => ?_⟩
    rw [if_neg (by omega)]
  | succ n ih =>
    intro buf i h
    obtain ⟨b, h1, h2, h3⟩ := ih (buf.set i (BitVec.allOnes 64)) (i + 1) (by simp; omega)
    refine ⟨b, ?_, by simpa using h2, ?_⟩
    · simp only [onesLoop, List.getElem?_eq_getElem (show i < buf.length by omega), Option.bind_eq_bind, Option.bind_some]
      exact h1
    · intro k
      rw [h3, bitAt_set o buf (by omega)]
      by_cases c : k / 64 = i
      · rw [if_neg (by omega), if_pos c, if_pos (by omega)]
        exact hasBit_ones o (by omega)
      · rw [if_neg c]
        by_cases d : i + 1 ≤ k / 64 ∧ k / 64 < i + 1 + n
        · rw [if_pos d, if_pos (by omega)]
        · rw [if_neg d, if_neg (by omega)]

theorem bitFillEnd_spec (o : Order) (buf : List (BitVec 64)) (last : Nat) (mask : BitVec 64) (f : Nat) (hf : f ≤ last % 64)
    (hm : ∀ i, i < 64 → hasBit o mask i = decide (f ≤ i)) (hl : last / 64 < buf.length) :
    ∃ b, bitFillEnd o buf last mask = some b ∧ b.length = buf.length ∧
      ∀ k, bitAt o b k = if k / 64 = last / 64 ∧ f ≤ k % 64 ∧ k % 64 ≤ last % 64 then true else bitAt o buf k := by
  obtain ⟨z, hz, hz'⟩ := hasBit_indexMask (N := 64) o (k := 0) (by omega)
  obtain ⟨t, ht, ht'⟩ := hasBit_shiftToEnd (N := 64) o (BitVec.allOnes 64 ^^^ z) (k := last % 64) (by omega)
  have hw := List.getElem?_eq_getElem hl
  refine ⟨buf.set (last / 64) (buf[last / 64] ||| (mask ^^^ t)), ?_, by simp, ?_⟩
  · simp only [bitFillEnd, hz, ht, hw, Option.bind_eq_bind, Option.bind_some]
  · intro k
    rw [bitAt_set o buf hl]
    have hk : k % 64 < 64 := by omega
    by_cases c : k / 64 = last / 64
    · rw [if_pos c, hasBit_or, hasBit_xor, hm _ hk, ht' _ hk, hasBit_xor, hasBit_ones o (by omega), hz' _ (by omega)]
      have e : bitAt o buf k = hasBit o buf[last / 64] (k % 64) := by
        unfold bitAt
        rw [c, hw]
      rw [e]
      by_cases a : f ≤ k % 64
      · by_cases b : k % 64 ≤ last % 64
        · rw [if_pos ⟨c, a, b⟩]
          by_cases b' : last % 64 ≤ k % 64
          · have : k % 64 - last % 64 = 0 := by omega
            simp [a, b', this]
          · simp [a, b']
        · rw [if_neg (fun h => b h.2.2)]
          have h1 : last % 64 ≤ k % 64 := by omega
          have h2 : ¬ (k % 64 - last % 64 = 0) := by omega
          simp [a, h1, h2]
      · rw [if_neg (fun h => a h.2.1)]
        have h1 : ¬ last % 64 ≤ k % 64 := by omega
        simp [a, h1]
    · rw [if_neg c, if_neg (fun h => c h.1)]

/-- `bit_fill` stays inside the words if the last bit does, and sets exactly the bits from `first` to `last`. -/
theorem bitFill_spec (o : Order) (buf : List (BitVec 64)) {first last : Nat} (h : first ≤ last) (hl : last / 64 < buf.length) :
    ∃ b, bitFill o buf first last = some b ∧ b.length = buf.length ∧
      ∀ k, bitAt o b k = if first ≤ k ∧ k ≤ last then true else bitAt o buf k := by
  obtain ⟨m, hm, hm'⟩ := hasBit_shiftToEnd (N := 64) o (BitVec.allOnes 64) (k := first % 64) (by omega)
  have hm2 : ∀ i, i < 64 → hasBit o m i = decide (first % 64 ≤ i) := by
    intro i hi
    rw [hm' i hi, hasBit_ones o (by omega), Bool.and_true]
  by_cases c : first / 64 = last / 64
  · obtain ⟨b, h1, h2, h3⟩ := bitFillEnd_spec o buf last m (first % 64) (by omega) hm2 hl
    refine ⟨b, ?_, h2, ?_⟩
    · simp only [bitFill, hm, Option.bind_eq_bind, Option.bind_some, ne_eq, c, not_true, if_false]
      exact h1
    · intro k
      rw [h3]
      by_cases d : first ≤ k ∧ k ≤ last
      · rw [if_pos d, if_pos (by omega)]
      · rw [if_neg d, if_neg (by omega)]
  · have hf : first / 64 < buf.length := by omega
    obtain ⟨b1, a1, a2, a3⟩ := onesLoop_spec o (last / 64 - first / 64 - 1) (buf.set (first / 64) (buf[first / 64] ||| m))
      (first / 64 + 1) (by simp; omega)
    obtain ⟨b, h1, h2, h3⟩ := bitFillEnd_spec o b1 last (BitVec.allOnes 64) 0 (by omega)
      (fun i hi => by rw [hasBit_ones o hi]; simp) (by rw [a2]; simpa using hl)
    refine ⟨b, ?_, by rw [h2, a2]; simp, ?_⟩
    · simp only [bitFill, hm, Option.bind_eq_bind, Option.bind_some, ne_eq, c, not_false_iff, if_true,
        List.getElem?_eq_getElem hf, a1]
      exact h1
    · intro k
      rw [h3, a3, bitAt_set o buf hf]
      have hk : k % 64 < 64 := by omega
      by_cases d : k / 64 = first / 64
      · rw [if_neg (by omega), if_neg (by omega), if_pos d, hasBit_or, hm2 _ hk]
        have e : bitAt o buf k = hasBit o buf[first / 64] (k % 64) := by
          unfold bitAt
          rw [d, List.getElem?_eq_getElem hf]
        by_cases a : first ≤ k
        · rw [if_pos (by omega)]
          simp [show first % 64 ≤ k % 64 by omega]
        · rw [if_neg (by omega), e]
          simp [show ¬ first % 64 ≤ k % 64 by omega]
      · rw [if_neg d]
        by_cases x : first ≤ k ∧ k ≤ last
        · rw [if_pos x]
          by_cases y : k / 64 = last / 64
          · rw [if_pos (by omega)]
          · rw [if_neg (by omega), if_pos (by omega)]
        · rw [if_neg x, if_neg (by omega), if_neg (by omega)]

end Blend2D.Draw
