import Verif.Fill.Lemmas
namespace Blend2D.Fill
open BitOps (Order countZerosFromStart shiftToEnd hasBit bitAt bitAt_word hasBit_xor hasBit_ones hasBit_shiftToEnd
  countZeros_spec zero_of_no_bit exists_bit hasBit_zero hasBit_ge)
open Spec

variable {P : Type} {o : Order} {A : Args} {C : Comp P}

theorem word_bit (o : Order) (B : List (BitVec 64)) {k : Nat} (hk : k < B.length) {j : Nat} (hj : j < 64) :
    hasBit o B[k] j = bitAt o B (64 * k + j) := by
  rw [Nat.mul_comm, bitAt_word o B hj, List.getElem?_eq_getElem hk]

/-- All bits from `j` on. -/
theorem shift_ones (o : Order) {j : Nat} (hj : j < 64) :
    ∃ t, shiftToEnd o (BitVec.allOnes 64) j = some t ∧ ∀ i, i < 64 → hasBit o t i = decide (j ≤ i) := by
  obtain ⟨t, h1, h2⟩ := hasBit_shiftToEnd o (BitVec.allOnes 64) hj
  refine ⟨t, h1, fun i hi => ?_⟩
  rw [h2 i hi, hasBit_ones o (by omega), Bool.and_true]

/-- The word that `v` looks at is number `v.p - 1`, and `v.w` has the marks from `lo` on, inverted or not. -/
structure At (o : Order) (B : List (BitVec 64)) (inv : Bool) (lo : Nat) (v : Vars) : Prop where
  pos : 1 ≤ v.p
  le : v.p ≤ B.length
  off : v.xOff = 256 * (v.p - 1)
  w : ∀ j, j < 64 → hasBit o v.w j = (decide (lo ≤ j) && (bitAt o B (64 * (v.p - 1) + j) ^^ inv))

theorem next_ok {B : List (BitVec 64)} (hlast : bitAt o B (64 * B.length - 1) = false) {G : Nat} :
    ∀ (n : Nat) (r : Row P) (v : Vars), B.length ≤ n + v.p → 1 ≤ v.p → v.p < B.length → v.xOff = 256 * (v.p - 1) →
      Is v.p zap B r.bits → (∀ g, G ≤ g → g < 64 * v.p → bitAt o B g = true) →
    ∃ bits' v', next n r v = some (true, { r with bits := bits' }, v') ∧ At o B true 0 v' ∧ v'.w ≠ 0 ∧ v'.x0 = v.x0 ∧
      v'.cov = v.cov ∧ Is v'.p zap B bits' ∧ v.p < v'.p ∧ ∀ g, G ≤ g → g < 64 * (v'.p - 1) → bitAt o B g = true := by
  intro n
  induction n with
  | zero => intro r v h1 h2 h3; omega
  | succ n ih =>
    intro r v hn h1 h2 hoff hb hG
    have hg := hb.get (Nat.le_refl _) h2
    have hs := hb.set h2
    simp only [next, hg, Option.bind_eq_bind, Option.bind_some]
    have hw : ∀ j, j < 64 → hasBit o (BitVec.allOnes 64 ^^^ B[v.p]) j = !bitAt o B (64 * v.p + j) := by
      intro j hj
      rw [hasBit_xor, hasBit_ones o hj, word_bit o B h2 hj]; simp
    by_cases hz : BitVec.allOnes 64 ^^^ B[v.p] ≠ 0
    · rw [if_pos hz]
      refine ⟨_, _, rfl, ⟨by simp, by simp only []; omega, by simp only []; omega, ?_⟩, hz, rfl, rfl, hs, by simp, ?_⟩
      · intro j hj
        rw [hw j hj]; simp
      · simpa using hG
    · rw [if_neg hz]
      have hz : BitVec.allOnes 64 ^^^ B[v.p] = 0 := by simpa using hz
      have hall : ∀ j, j < 64 → bitAt o B (64 * v.p + j) = true := by
        intro j hj
        have := hw j hj
        rw [hz, hasBit_zero] at this
        simpa using this.symm
      have hne : v.p + 1 ≠ B.length := by
        intro e
        have := hall 63 (by omega)
        rw [← e, show 64 * (v.p + 1) - 1 = 64 * v.p + 63 by omega, this] at hlast
        simp at hlast
      rw [if_neg (by rw [List.length_set, hb.1]; exact hne)]
      obtain ⟨bits', v', e1, e2, e3, e4, e5, e6, e7, e8⟩ := ih { r with bits := r.bits.set v.p 0 }
        { v with w := BitVec.allOnes 64 ^^^ B[v.p], p := v.p + 1, xOff := v.xOff + 256 } (by simp only []; omega) (by simp)
        (by simp only []; omega) (by simp only []; omega) hs (by
          intro g g1 g2
          simp only [] at g2
          by_cases h : g < 64 * v.p
          · exact hG g g1 h
          · have := hall (g - 64 * v.p) (by omega)
            rwa [show 64 * v.p + (g - 64 * v.p) = g by omega] at this)
      refine ⟨bits', v', e1, e2, e3, e4, e5, e6, ?_, e8⟩
      simp only [] at e7; omega

theorem gap_ok {B : List (BitVec 64)} :
    ∀ (n : Nat) (r : Row P) (v : Vars) (lo : Nat), lo ≤ 64 → B.length < n + v.p → At o B false lo v →
      (r.bits.length = B.length ∧ ∀ k, v.p ≤ k → r.bits[k]? = B[k]?) →
    (∃ v', gap n r v = some (false, v') ∧ ∀ g, 64 * (v.p - 1) + lo ≤ g → bitAt o B g = false) ∨
    (∃ v' lo', gap n r v = some (true, v') ∧ v'.w ≠ 0 ∧ At o B false lo' v' ∧ v'.x0 = v.x0 ∧ v'.cov = v.cov ∧ v.p ≤ v'.p ∧
      64 * (v.p - 1) + lo ≤ 64 * (v'.p - 1) + lo' ∧ lo' < 64 ∧
      ∀ g, 64 * (v.p - 1) + lo ≤ g → g < 64 * (v'.p - 1) + lo' → bitAt o B g = false) := by
  intro n
  induction n with
  | zero => intro r v lo _ h1 h2; have := h2.le; omega
  | succ n ih =>
    intro r v lo hlo hn hv hb
    simp only [gap]
    by_cases hw : v.w ≠ 0
    · rw [if_pos hw]
      refine .inr ⟨v, lo, rfl, hw, hv, rfl, rfl, Nat.le_refl _, Nat.le_refl _, ?_, fun g a b => by omega⟩
      obtain ⟨j, j1, j2⟩ := exists_bit o hw
      rw [hv.w j j1, Bool.and_eq_true, decide_eq_true_eq] at j2
      omega
    · rw [if_neg hw]
      have hw : v.w = 0 := by simpa using hw
      have hp := hv.pos
      have hnone : ∀ g, 64 * (v.p - 1) + lo ≤ g → g < 64 * v.p → bitAt o B g = false := by
        intro g g1 g2
        have := hv.w (g - 64 * (v.p - 1)) (by omega)
        rw [hw, hasBit_zero, show 64 * (v.p - 1) + (g - 64 * (v.p - 1)) = g by omega, decide_eq_true (by omega)] at this
        simpa using this.symm
      by_cases he : v.p = r.bits.length
      · rw [if_pos he]
        rw [hb.1] at he
        refine .inl ⟨_, rfl, fun g hg => ?_⟩
        by_cases h : g < 64 * v.p
        · exact hnone g hg h
        · exact BitOps.bitAt_ge o B (by omega) (by omega)
      · rw [if_neg he]
        rw [hb.1] at he
        have hlt : v.p < B.length := by have := hv.le; omega
        rw [hb.2 _ (Nat.le_refl _), List.getElem?_eq_getElem hlt]
        simp only [Option.bind_eq_bind, Option.bind_some]
        have := ih r { v with xOff := v.xOff + 256, w := B[v.p], p := v.p + 1 } 0 (by omega) (by simp only []; omega)
          ⟨by simp, by simp only []; omega, by have := hv.off; simp only []; omega, fun j hj => by
            simp only [Nat.add_sub_cancel, word_bit o B hlt hj]; simp⟩ ⟨hb.1, fun k hk => hb.2 k (by simp only [] at hk; omega)⟩
        simp only [Nat.add_sub_cancel, Nat.add_zero] at this
        rcases this with ⟨v', h1, h2⟩ | ⟨v', lo', h1, h2, h3, h4, h5, h6, h7, h8, h9⟩
        · refine .inl ⟨v', h1, fun g hg => ?_⟩
          by_cases h : g < 64 * v.p
          · exact hnone g hg h
          · exact h2 g (by omega)
        · refine .inr ⟨v', lo', h1, h2, h3, h4, h5, by omega, by omega, h8, fun g a b => ?_⟩
          by_cases h : g < 64 * v.p
          · exact hnone g a h
          · exact h9 g (by omega) b

end Blend2D.Fill
