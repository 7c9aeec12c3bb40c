import Verif.Fill.Spans
namespace Blend2D.Fill
open BitOps (Order countZerosFromStart shiftToEnd hasBit bitAt bitAt_word hasBit_xor hasBit_ones hasBit_shiftToEnd
  countZeros_spec zero_of_no_bit exists_bit hasBit_zero hasBit_ge)
open Spec

variable {P : Type} {o : Order} {A : Args} {C : Comp P}

theorem sum_zero {c : List (BitVec 32)} {n : Nat} (h : ∀ k, k < n → (c[k]?).getD 0 = 0) : sum c n = 0 := by
  induction n with
  | zero => rfl
  | succ n ih => rw [sum, ih (fun k hk => h k (by omega)), h n (by omega)]; rfl

/-- Before the first mark. -/
theorem before {xEnd : Nat} {bits : List (BitVec 64)} {cells : List (BitVec 32)} (H : Ready o xEnd bits cells) {g : Nat}
    (hz : ∀ i, i < g → bitAt o bits i = false) (k : Nat) (h2 : k < 4 * g) : (cells[k]?).getD 0 = 0 := by
  apply Classical.byContradiction
  intro hne
  rcases H.marks k hne with h | ⟨h3, _, h⟩
  · rw [marked, hz _ (by omega)] at h; simp at h
  · rw [marked, hz _ (by omega)] at h; simp at h

theorem paint_before (hC : Good C) (hr : A.rule = BitVec.allOnes 32 ∨ A.rule = 0x1FF#32) {cells : List (BitVec 32)} {n : Nat}
    (h : ∀ k, k < n → (cells[k]?).getD 0 = 0) (k : Nat) (hk : k < n) (d : P) : paint A C cells k d = d := by
  have : pre cells (k + 1) = 256#32 <<< 9 := by
    rw [pre, sum_zero (fun j hj => h j (by omega))]; simp
  rw [paint, this, calcMask_zero _ hr, hC.zero]

theorem start_ok (hC : Good C) (hr : A.rule = BitVec.allOnes 32 ∨ A.rule = 0x1FF#32) {r0 : Row P}
    (H : Ready o A.xEnd r0.bits r0.cells) (hd : A.xEnd ≤ r0.dst.length) (p : Nat) (hp : p < r0.bits.length)
    (hz : ∀ g, g < 64 * p → bitAt o r0.bits g = false) (hne : r0.bits[p] ≠ 0) :
    ∃ r', start o A C r0 (p + 1) (256 * p) r0.bits[p] = some r' ∧ Done A C r0 r' := by
  obtain ⟨d1, d2, d3⟩ := countZeros_spec o hne
  simp only [start]
  generalize hcz : countZerosFromStart o r0.bits[p] = z at d1 d2 d3
  obtain ⟨t, ht1, ht2⟩ := shift_ones o d1
  rw [word_bit o _ hp d1] at d2
  have hunm : ∀ g, g < 64 * p + z → bitAt o r0.bits g = false := by
    intro g h
    by_cases h1 : g < 64 * p
    · exact hz g h1
    · have := d3 (g - 64 * p) (by omega)
      rw [word_bit o _ hp (by omega), show 64 * p + (g - 64 * p) = g by omega] at this
      exact this
  generalize hg : 64 * p + z = g at d2 hunm
  have hgx := H.right _ d2
  have hx0 : z * 4 + 256 * p = 4 * g := by omega
  rw [ht1]
  simp only [Option.bind_eq_bind, Option.bind_some, hx0, Nat.add_sub_cancel]
  have hc0 : ∀ k, k < 4 * g → (r0.cells[k]?).getD 0 = 0 := before H hunm
  have hbits : Is (p + 1) zap r0.bits (r0.bits.set p 0) :=
    (bits_skip (o := o) (Is.refl zap r0.bits) (Nat.zero_le p) (fun g _ h => hz g (by omega))).set hp
  have hcells : Is (4 * g) zap r0.cells r0.cells :=
    cells_skip (Is.refl zap r0.cells) (Nat.zero_le _) (fun k _ h => hc0 k h)
  have hdst : Is (4 * g) (paint A C r0.cells) r0.dst r0.dst :=
    (Is.refl _ r0.dst).skip (Nat.zero_le _) (fun k _ h x _ => paint_before hC hr hc0 k h x)
  by_cases hend : 4 * g ≥ A.xEnd
  · rw [if_pos hend]
    have hx : 4 * g = A.xEnd := by omega
    have hroom := H.room
    rw [hx] at hc0 hcells hdst ⊢
    rw [List.getElem?_eq_getElem hroom]
    refine ⟨_, rfl, ?_, ?_, hdst⟩
    · refine bits_skip (o := o) hbits hp ?_
      intro q a b
      cases hb : bitAt o r0.bits q with
      | false => rfl
      | true => have := H.right _ hb; omega
    · refine cells_skip (hcells.set hroom) hroom ?_
      intro k k1 _
      exact H.cellsRight k (by omega)
  · rw [if_neg hend]
    have hup : Upto A C r0 (p + 1) (4 * g) (4 * g) { bits := r0.bits.set p 0, cells := r0.cells, dst := r0.dst, pos := 4 * g } :=
      ⟨hbits, hcells, hdst, rfl⟩
    have hw : ∀ j, j < 64 → hasBit o (r0.bits[p] ^^^ t) j = (decide (z ≤ j) && (bitAt o r0.bits (64 * p + j) ^^ true)) := by
      intro j hj
      rw [hasBit_xor, ht2 j hj, word_bit o _ hp hj]
      by_cases h : z ≤ j
      · rw [decide_eq_true h]; simp
      · rw [decide_eq_false h, hunm _ (by omega)]; rfl
    have hcov : (256#32 <<< 9 : BitVec 32) = pre r0.cells (4 * g) := by
      rw [pre, sum_zero hc0]; simp
    by_cases hwz : r0.bits[p] ^^^ t ≠ 0
    · rw [if_pos hwz]
      refine spans_ok hC hr H hd _ _ _ g (by omega)
        ⟨⟨z, ⟨by simp only []; omega, hp, by simp only []; omega, ?_⟩, by simp only []; omega, ?_⟩, hwz, rfl, d2⟩ hcov hup
      · intro j hj
        simp only [Nat.add_sub_cancel]
        exact hw j hj
      · intro q a b
        simp only [Nat.add_sub_cancel] at b
        omega
    · rw [if_neg hwz]
      have hwz : r0.bits[p] ^^^ t = 0 := by simpa using hwz
      have hall : ∀ q, g ≤ q → q < 64 * (p + 1) → bitAt o r0.bits q = true := by
        intro q a b
        have := hw (q - 64 * p) (by omega)
        rw [hwz, hasBit_zero, show 64 * p + (q - 64 * p) = q by omega, decide_eq_true (by omega)] at this
        simpa using this.symm
      have hlast := last_unmarked H
      have hplt : p + 1 < r0.bits.length := by
        rcases Nat.lt_or_ge (p + 1) r0.bits.length with h | h
        · exact h
        · have : p + 1 = r0.bits.length := by omega
          rw [← this, hall (64 * (p + 1) - 1) (by omega) (by omega)] at hlast
          simp at hlast
      rw [if_neg (by rw [List.length_set]; omega)]
      obtain ⟨bits3, v3, n1, n2, n3, n4, n5, n6, n7, n8⟩ := next_ok (o := o) hlast (G := g) ((r0.bits.set p 0).length + 1)
        { bits := r0.bits.set p 0, cells := r0.cells, dst := r0.dst, pos := 4 * g }
        { p := p + 1, xOff := 256 * p, w := r0.bits[p] ^^^ t, x0 := 4 * g, i := 64, cov := 256#32 <<< 9 }
        (by rw [List.length_set]; simp only []; omega) (by simp only []; omega) hplt (by simp only []; omega) hbits hall
      rw [n1]
      simp only [Option.bind_some]
      simp only [] at n7
      refine spans_ok hC hr H hd _ _ v3 g (by omega) ⟨⟨0, n2, ?_, ?_⟩, n3, n4, d2⟩ (by rw [n5]; exact hcov) ⟨n6, hcells, hdst, rfl⟩
      · omega
      · intro q a b; exact n8 q a (by omega)

theorem scan_ok (hC : Good C) (hr : A.rule = BitVec.allOnes 32 ∨ A.rule = 0x1FF#32) {r0 : Row P}
    (H : Ready o A.xEnd r0.bits r0.cells) (hd : A.xEnd ≤ r0.dst.length) :
    ∀ n p, p + n = r0.bits.length → (∀ g, g < 64 * p → bitAt o r0.bits g = false) →
      ∃ r', scan o A C r0 n p (256 * p) = some r' ∧ Done A C r0 r' := by
  intro n
  induction n with
  | zero =>
    intro p hp hz
    have hb : ∀ g, bitAt o r0.bits g = false := by
      intro g
      by_cases h : g < 64 * p
      · exact hz g h
      · exact BitOps.bitAt_ge o _ (by omega) (by omega)
    have hc : ∀ k : Nat, (r0.cells[k]?).getD 0 = 0 := fun k => before H (g := k + 1) (fun i _ => hb i) k (by omega)
    refine ⟨r0, rfl, ?_, ?_, ?_⟩
    · exact bits_skip (o := o) (Is.refl zap _) (Nat.zero_le _) (fun g _ _ => hb g)
    · exact cells_skip (Is.refl zap _) (Nat.zero_le _) (fun k _ _ => hc k)
    · exact (Is.refl _ _).skip (Nat.zero_le _) (fun k _ h x _ => paint_before hC hr (n := A.xEnd) (fun k _ => hc k) k h x)
  | succ n ih =>
    intro p hp hz
    have hlt : p < r0.bits.length := by omega
    simp only [scan, List.getElem?_eq_getElem hlt, Option.bind_eq_bind, Option.bind_some]
    by_cases hw : r0.bits[p] ≠ 0
    · rw [if_pos hw]
      exact start_ok hC hr H hd p hlt hz hw
    · rw [if_neg hw]
      have hw : r0.bits[p] = 0 := by simpa using hw
      rw [show 256 * p + 256 = 256 * (p + 1) by omega]
      refine ih (p + 1) (by omega) ?_
      intro g h
      by_cases h1 : g < 64 * p
      · exact hz g h1
      · have := word_bit o r0.bits hlt (j := g - 64 * p) (by omega)
        rw [hw, hasBit_zero, show 64 * p + (g - 64 * p) = g by omega] at this
        exact this.symm

end Blend2D.Fill
