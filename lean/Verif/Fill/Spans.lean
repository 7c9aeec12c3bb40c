import Verif.Fill.Scan
namespace Blend2D.Fill
open BitOps (Order countZerosFromStart shiftToEnd hasBit bitAt bitAt_word hasBit_xor hasBit_ones hasBit_shiftToEnd
  countZeros_spec zero_of_no_bit exists_bit hasBit_zero hasBit_ge)
open Spec

variable {P : Type} {o : Order} {A : Args} {C : Comp P}

/-- A finished row: bits and cells are cleared, the pixels before `xEnd` are painted. -/
structure Done (A : Args) (C : Comp P) (r0 r : Row P) : Prop where
  bits : Is r0.bits.length zap r0.bits r.bits
  cells : Is r0.cells.length zap r0.cells r.cells
  dst : Is A.xEnd (paint A C r0.cells) r0.dst r.dst

theorem last_unmarked {xEnd : Nat} {bits : List (BitVec 64)} {cells : List (BitVec 32)} (H : Ready o xEnd bits cells) :
    bitAt o bits (64 * bits.length - 1) = false := by
  cases h : bitAt o bits (64 * bits.length - 1) with
  | false => rfl
  | true => have h1 := H.right _ h; have h2 := H.words; omega

/-- Unmarked groups: words are zero. -/
theorem word_zero {B : List (BitVec 64)} {k : Nat} {x : BitVec 64} (hk : B[k]? = some x)
    (h : ∀ g, 64 * k ≤ g → g < 64 * (k + 1) → bitAt o B g = false) : x = 0 := by
  obtain ⟨hlt, e⟩ := List.getElem?_eq_some_iff.1 hk
  subst e
  apply zero_of_no_bit o
  intro j hj
  rw [word_bit o B hlt hj]
  exact h _ (by omega) (by omega)

theorem bits_skip {B bits : List (BitVec 64)} {p q : Nat} (h : Is p zap B bits) (hpq : p ≤ q)
    (hz : ∀ g, 64 * p ≤ g → g < 64 * q → bitAt o B g = false) : Is q zap B bits :=
  h.skip hpq fun k h1 h2 x hx => by
    rw [zap, word_zero (o := o) hx (fun g a b => hz g (by omega) (by omega))]

theorem cells_skip {c cells : List (BitVec 32)} {p q : Nat} (h : Is p zap c cells) (hpq : p ≤ q)
    (hz : ∀ k, p ≤ k → k < q → (c[k]?).getD 0 = 0) : Is q zap c cells :=
  h.skip hpq fun k h1 h2 x hx => by
    have := hz k h1 h2
    rw [hx] at this
    rw [zap]; exact this.symm

/-- The coverage does not change over cells that are zero. -/
theorem pre_const {c : List (BitVec 32)} {a : Nat} : ∀ n, (∀ k, a ≤ k → k < a + n → (c[k]?).getD 0 = 0) → pre c (a + n) = pre c a := by
  intro n
  induction n with
  | zero => intro _; rfl
  | succ n ih =>
    intro h
    rw [show a + (n + 1) = a + n + 1 by omega, pre_succ, ih (fun k h1 h2 => h k h1 (by omega)), h (a + n) (by omega) (by omega)]
    simp

theorem pre_eq {c : List (BitVec 32)} {a b : Nat} (hab : a ≤ b) (h : ∀ k, a ≤ k → k < b → (c[k]?).getD 0 = 0) : pre c b = pre c a := by
  have := pre_const (c := c) (a := a) (b - a) (fun k h1 h2 => h k h1 (by omega))
  rwa [show a + (b - a) = b by omega] at this

theorem calcMask_zero (rule : BitVec 32) (hr : rule = BitVec.allOnes 32 ∨ rule = 0x1FF#32) (alpha : Nat) :
    calcMask (256#32 <<< 9) rule alpha = 0 := by
  rcases hr with rfl | rfl
  · simp [calcMask]
  · simp [calcMask]

/-- Cells behind the first one after a run that ends at the group `e` are zero as long as no group is marked. -/
theorem cells_zero {xEnd : Nat} {bits : List (BitVec 64)} {cells : List (BitVec 32)} (H : Ready o xEnd bits cells) {e g : Nat}
    (hz : ∀ i, e ≤ i → i < g → bitAt o bits i = false) (k : Nat) (h1 : 4 * e < k) (h2 : k < 4 * g) : (cells[k]?).getD 0 = 0 := by
  apply Classical.byContradiction
  intro hne
  rcases H.marks k hne with h | ⟨h3, _, h⟩
  · rw [marked, hz _ (by omega) (by omega)] at h; simp at h
  · rw [marked, hz _ (by omega) (by omega)] at h; simp at h

/-- The run that begins at the group `G` and is known to reach the bit `j0` of the word that `v` looks at. -/
structure Run (o : Order) (B : List (BitVec 64)) (G : Nat) (v : Vars) : Prop where
  inv : ∃ j0, At o B true j0 v ∧ G ≤ 64 * (v.p - 1) + j0 ∧ ∀ g, G ≤ g → g < 64 * (v.p - 1) + j0 → bitAt o B g = true
  ne : v.w ≠ 0
  x0 : v.x0 = 4 * G
  mark : bitAt o B G = true

theorem spans_ok (hC : Good C) (hr : A.rule = BitVec.allOnes 32 ∨ A.rule = 0x1FF#32) {r0 : Row P}
    (H : Ready o A.xEnd r0.bits r0.cells) (hd : A.xEnd ≤ r0.dst.length) :
    ∀ (fuel : Nat) (r : Row P) (v : Vars) (G : Nat), A.xEnd < fuel + 4 * G → Run o r0.bits G v → v.cov = pre r0.cells (4 * G) →
      Upto A C r0 v.p (4 * G) (4 * G) r → ∃ r', spans o A C fuel true r v = some r' ∧ Done A C r0 r' := by
  intro fuel
  induction fuel with
  | zero => intro r v G h1 h2; have := H.right _ h2.mark; omega
  | succ fuel ih =>
    intro r v G hf hrun hcov hup
    obtain ⟨⟨j0, hat, hG0, hmk⟩, hne, hx0, hGm⟩ := hrun
    have hGx := H.right _ hGm
    have hpos := hat.pos
    obtain ⟨cz1, cz2, cz3⟩ := countZeros_spec o hne
    simp only [spans, if_true]
    generalize hcz : countZerosFromStart o v.w = z at cz1 cz2 cz3
    obtain ⟨t, ht1, ht2⟩ := shift_ones o cz1
    rw [hat.w z cz1, Bool.and_eq_true, decide_eq_true_eq] at cz2
    obtain ⟨hj0, hez⟩ := cz2
    have hez : bitAt o r0.bits (64 * (v.p - 1) + z) = false := by simpa using hez
    have hrunm : ∀ g, G ≤ g → g < 64 * (v.p - 1) + z → bitAt o r0.bits g = true := by
      intro g g1 g2
      by_cases h : g < 64 * (v.p - 1) + j0
      · exact hmk g g1 h
      · have := cz3 (g - 64 * (v.p - 1)) (by omega)
        rw [hat.w _ (by omega), show 64 * (v.p - 1) + (g - 64 * (v.p - 1)) = g by omega, decide_eq_true (by omega)] at this
        simpa using this
    have hGe : G < 64 * (v.p - 1) + z := by
      rcases Nat.lt_or_ge G (64 * (v.p - 1) + z) with h | h
      · exact h
      · have : G = 64 * (v.p - 1) + z := by omega
        rw [this, hez] at hGm; simp at hGm
    generalize he : 64 * (v.p - 1) + z = e at hez hrunm hGe
    have hoff : z * 4 + v.xOff = 4 * e := by have := hat.off; omega
    rw [ht1]
    simp only [Option.bind_eq_bind, Option.bind_some, hoff, hx0]
    have hnl : ¬ (if 4 * e > A.xEnd then A.xEnd else 4 * e) < 4 * G := by
      split <;> omega
    rw [if_neg hnl]
    obtain ⟨i, hi⟩ : ∃ i, (if 4 * e > A.xEnd then A.xEnd else 4 * e) - 4 * G = i := ⟨_, rfl⟩
    have hi2 : 4 * G + i = if 4 * e > A.xEnd then A.xEnd else 4 * e := by omega
    have hile : 4 * G + i ≤ A.xEnd := by rw [hi2]; split <;> omega
    rw [hi, hcov]
    obtain ⟨r1, e1, h1⟩ := vloop_ok i hup (by have := H.room; omega) (by omega)
    rw [e1]
    simp only [Option.bind_some]
    by_cases hend : 4 * G + i ≥ A.xEnd
    · rw [if_pos hend]
      have hx : 4 * G + i = A.xEnd := by omega
      have hex : A.xEnd ≤ 4 * e := by
        rw [hi2] at hx
        split at hx <;> omega
      refine ⟨r1, rfl, ?_, ?_, ?_⟩
      · refine bits_skip (o := o) h1.bits hat.le ?_
        intro g g1 g2
        cases hb : bitAt o r0.bits g with
        | false => rfl
        | true => have := H.right _ hb; omega
      · rw [hx] at h1
        refine cells_skip h1.cells (by have := H.room; omega) ?_
        intro k k1 _
        exact H.cellsRight k (by omega)
      · rw [hx] at h1; exact h1.dst
    · rw [if_neg hend]
      have hie : 4 * G + i = 4 * e := by
        by_cases h : 4 * e > A.xEnd
        · rw [if_pos h] at hi2; omega
        · rw [if_neg h] at hi2; exact hi2
      have hex : 4 * e < A.xEnd := by omega
      rw [hie] at h1 ⊢
      have hat1 : At o r0.bits false z { v with w := v.w ^^^ t, x0 := 4 * e, cov := pre r0.cells (4 * e + 1) } := by
        refine ⟨hat.pos, hat.le, hat.off, ?_⟩
        intro j hj
        simp only []
        rw [hasBit_xor, hat.w j hj, ht2 j hj]
        by_cases h : z ≤ j
        · rw [decide_eq_true h, decide_eq_true (by omega)]; simp
        · rw [decide_eq_false h]
          have := cz3 j (by omega)
          rw [hat.w j hj] at this
          rw [this]; rfl
      have hlen1 : r1.bits.length = r0.bits.length := h1.bits.1
      have hb1 : ∀ k, v.p ≤ k → r1.bits[k]? = r0.bits[k]? := fun k hk => by rw [h1.bits.2 k, if_neg (by omega)]
      rcases gap_ok (o := o) (B := r0.bits) (r1.bits.length + 1) r1 _ z (by omega) (by rw [hlen1]; simp only []; omega) hat1 ⟨hlen1, hb1⟩ with
        ⟨v', g1, g2⟩ | ⟨v', lo, g1, g2, g3, g4, g5, g6, g7, g8, g9⟩
      · rw [g1]
        simp only [Option.bind_some, Bool.not_false, if_true, he] at g2 ⊢
        have hcz : ∀ k, 4 * e < k → (r0.cells[k]?).getD 0 = 0 := fun k hk =>
          cells_zero H (g := k + 1) (fun i a _ => g2 i a) k hk (by omega)
        refine ⟨r1, rfl, ?_, ?_, ?_⟩
        · exact bits_skip (o := o) h1.bits hat.le (fun g a _ => g2 g (by omega))
        · exact cells_skip h1.cells (by have := H.room; omega) (fun k a _ => hcz k (by omega))
        · refine h1.dst.skip (by omega) ?_
          intro k k1 k2 x _
          have hp : pre r0.cells (k + 1) = pre r0.cells (4 * e + 1) :=
            pre_eq (by omega) (fun j a b => hcz j (by omega))
          have hq : pre r0.cells (A.xEnd + 1) = pre r0.cells (4 * e + 1) :=
            pre_eq (by omega) (fun j a b => hcz j (by omega))
          have hs : pre r0.cells (A.xEnd + 1) = 256#32 <<< 9 := by rw [pre, H.closed]; simp
          rw [paint, hp, ← hq, hs, calcMask_zero _ hr, hC.zero]
      · rw [g1]
        simp only [he] at g7 g9
        simp only [Option.bind_some, Bool.not_true, Bool.false_eq_true, if_false]
        obtain ⟨d1, d2, d3⟩ := countZeros_spec o g2
        generalize hcz' : countZerosFromStart o v'.w = z' at d1 d2 d3
        obtain ⟨t', ht1', ht2'⟩ := shift_ones o d1
        rw [g3.w z' d1, Bool.and_eq_true, decide_eq_true_eq] at d2
        obtain ⟨hlo, hgm⟩ := d2
        have hgm : bitAt o r0.bits (64 * (v'.p - 1) + z') = true := by simpa using hgm
        have hpos' := g3.pos
        have hunm : ∀ g, e ≤ g → g < 64 * (v'.p - 1) + z' → bitAt o r0.bits g = false := by
          intro g a b
          by_cases h : g < 64 * (v'.p - 1) + lo
          · exact g9 g a h
          · have := d3 (g - 64 * (v'.p - 1)) (by omega)
            rw [g3.w _ (by omega), show 64 * (v'.p - 1) + (g - 64 * (v'.p - 1)) = g by omega, decide_eq_true (by omega)] at this
            simpa using this
        have heg : e < 64 * (v'.p - 1) + z' := by
          rcases Nat.lt_or_ge e (64 * (v'.p - 1) + z') with h | h
          · exact h
          · have : e = 64 * (v'.p - 1) + z' := by omega
            rw [← this, hez] at hgm; simp at hgm
        generalize hg : 64 * (v'.p - 1) + z' = g at hgm hunm heg
        have hgx := H.right _ hgm
        have hoff' : z' * 4 + v'.xOff = 4 * g := by have := g3.off; omega
        have hcz0 : ∀ k, 4 * e < k → k < 4 * g → (r0.cells[k]?).getD 0 = 0 := fun k a b => cells_zero H hunm k a b
        rw [ht1']
        have hle' := g3.le
        simp only [Option.bind_some, hoff', g4]
        rw [if_neg (by rw [hlen1]; omega), if_neg (by omega)]
        -- clearing the word
        have hbits2 : Is v'.p zap r0.bits (r1.bits.set (v'.p - 1) 0) := by
          simp only [] at g6
          have hs : Is (v'.p - 1) zap r0.bits r1.bits ∨ v'.p = v.p := by
            by_cases h : v'.p = v.p
            · exact .inr h
            · refine .inl (bits_skip (o := o) h1.bits (by omega) ?_)
              intro q a b
              exact hunm q (by omega) (by omega)
          rcases hs with hs | hs
          · have := hs.set (show v'.p - 1 < r0.bits.length by omega)
            rw [show v'.p - 1 + 1 = v'.p by omega] at this
            exact this
          · have h0 : r1.bits[v'.p - 1]? = some 0 := by
              rw [h1.bits.2, if_pos (by omega), List.getElem?_eq_getElem (by omega)]; rfl
            have : r1.bits.set (v'.p - 1) 0 = r1.bits := by
              obtain ⟨hl, hv⟩ := List.getElem?_eq_some_iff.1 h0
              rw [← hv, List.set_getElem_self]
            rw [this, hs]; exact h1.bits
        have hcells2 : Is (4 * g) zap r0.cells r1.cells := cells_skip h1.cells (by omega) (fun k a b => hcz0 k (by omega) b)
        have hpk : ∀ k, 4 * e ≤ k → k < 4 * g → pre r0.cells (k + 1) = pre r0.cells (4 * e + 1) := fun k a b =>
          pre_eq (by omega) (fun j c d => hcz0 j (by omega) (by omega))
        -- the gap
        have hgap : ∃ r2, (if calcMask (pre r0.cells (4 * e + 1)) A.rule A.alpha = 0
              then some { bits := r1.bits.set (v'.p - 1) 0, cells := r1.cells, dst := r1.dst, pos := r1.pos + (4 * g - 4 * e) }
              else span C (calcMask (pre r0.cells (4 * e + 1)) A.rule A.alpha) (4 * g - 4 * e)
                { bits := r1.bits.set (v'.p - 1) 0, cells := r1.cells, dst := r1.dst, pos := r1.pos } (4 * e)) = some r2 ∧
            Upto A C r0 v'.p (4 * g) (4 * g) r2 := by
          have hup2 : Upto A C r0 v'.p (4 * g) (4 * e)
              { bits := r1.bits.set (v'.p - 1) 0, cells := r1.cells, dst := r1.dst, pos := r1.pos } :=
            ⟨hbits2, hcells2, h1.dst, h1.pos⟩
          by_cases hm : calcMask (pre r0.cells (4 * e + 1)) A.rule A.alpha = 0
          · rw [if_pos hm]
            refine ⟨_, rfl, hbits2, hcells2, ?_, by have := h1.pos; simp only []; omega⟩
            refine h1.dst.skip (by omega) ?_
            intro k a b x _
            rw [paint, hpk k a b, hm, hC.zero]
          · rw [if_neg hm]
            obtain ⟨r2, s1, s2⟩ := span_ok hC (m := calcMask (pre r0.cells (4 * e + 1)) A.rule A.alpha) (w := 4 * g - 4 * e)
              (by omega) hup2 (by omega) (fun k a b => by rw [hpk k a (by omega)])
            rw [show 4 * e + (4 * g - 4 * e) = 4 * g by omega] at s2
            exact ⟨r2, s1, s2⟩
        have hw2 : ∀ j, j < 64 → hasBit o (v'.w ^^^ t') j = (decide (z' ≤ j) && (bitAt o r0.bits (64 * (v'.p - 1) + j) ^^ true)) := by
          intro j hj
          rw [hasBit_xor, g3.w j hj, ht2' j hj]
          by_cases h : z' ≤ j
          · rw [decide_eq_true h, decide_eq_true (by omega)]; simp
          · rw [decide_eq_false h]
            have := d3 j (by omega)
            rw [g3.w j hj] at this
            rw [this]; rfl
        have hcov2 : v'.cov = pre r0.cells (4 * g) := by
          rw [g5]
          simp only []
          rw [show 4 * g = 4 * g - 1 + 1 by omega, hpk (4 * g - 1) (by omega) (by omega)]
        have hcont : ∀ r2, Upto A C r0 v'.p (4 * g) (4 * g) r2 → ∃ r',
            (if v'.w ^^^ t' ≠ 0 then
              spans o A C fuel true r2 { p := v'.p, xOff := v'.xOff, w := v'.w ^^^ t', x0 := 4 * g, i := 4 * g - 4 * e, cov := v'.cov }
            else
              (next (r2.bits.length + 1) r2
                { p := v'.p, xOff := v'.xOff, w := v'.w ^^^ t', x0 := 4 * g, i := 4 * g - 4 * e, cov := v'.cov }).bind
                fun x => spans o A C fuel x.fst x.2.fst x.2.snd) = some r' ∧ Done A C r0 r' := by
         intro r2 s2
         by_cases hwz : v'.w ^^^ t' ≠ 0
         · rw [if_pos hwz]
           refine ih r2 _ g (by omega) ⟨⟨z', ⟨g3.pos, g3.le, g3.off, hw2⟩, by simp only []; omega, ?_⟩, hwz, rfl, hgm⟩ hcov2 s2
           intro q a b
           simp only [] at b
           omega
         · rw [if_neg hwz]
           have hwz : v'.w ^^^ t' = 0 := by simpa using hwz
           have hall : ∀ q, g ≤ q → q < 64 * v'.p → bitAt o r0.bits q = true := by
             intro q a b
             have := hw2 (q - 64 * (v'.p - 1)) (by omega)
             rw [hwz, hasBit_zero, show 64 * (v'.p - 1) + (q - 64 * (v'.p - 1)) = q by omega, decide_eq_true (by omega)] at this
             simpa using this.symm
           have hlast := last_unmarked H
           have hplt : v'.p < r0.bits.length := by
             rcases Nat.lt_or_ge v'.p r0.bits.length with h | h
             · exact h
             · have : v'.p = r0.bits.length := by omega
               rw [← this, hall (64 * v'.p - 1) (by omega) (by omega)] at hlast
               simp at hlast
           have hlen2 : r2.bits.length = r0.bits.length := s2.bits.1
           obtain ⟨bits3, v3, n1, n2, n3, n4, n5, n6, n7, n8⟩ := next_ok (o := o) hlast (G := g) (r2.bits.length + 1) r2
             { v' with w := v'.w ^^^ t', x0 := 4 * g, i := 4 * g - 4 * e } (by rw [hlen2]; simp only []; omega) g3.pos hplt g3.off
             s2.bits hall
           rw [n1]
           simp only [Option.bind_some]
           refine ih _ v3 g (by omega) ⟨⟨0, n2, ?_, ?_⟩, n3, n4, hgm⟩ (by rw [n5]; exact hcov2) ⟨n6, s2.cells, s2.dst, s2.pos⟩
           · simp only [] at n7; omega
           · intro q a b; exact n8 q a (by omega)
        obtain ⟨r2, s1, s2⟩ := hgap
        simp only [show 4 * e + (4 * g - 4 * e) = 4 * g by omega]
        by_cases hm : calcMask (pre r0.cells (4 * e + 1)) A.rule A.alpha = 0
        · rw [if_pos hm] at s1 ⊢
          cases s1
          exact hcont _ s2
        · rw [if_neg hm] at s1 ⊢
          rw [s1]
          exact hcont _ s2

end Blend2D.Fill
