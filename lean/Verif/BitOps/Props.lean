import Verif.BitOps.Model

/-!
# Bit vector operations act on exactly the requested bits (C41)
-/

namespace Blend2D.BitOps

variable {N : Nat}

/-! ## Specification -/

/-- Bit `i` of a bit vector: bit `i % N` (in the given bit order) of word `i / N`. -/
def bitAt (o : Order) (buf : List (BitVec N)) (i : Nat) : Bool :=
  match buf[i / N]? with
  | none => false
  | some w => hasBit o w (i % N)

/-! ## Words -/

theorem hasBit_ge (o : Order) (x : BitVec N) {i : Nat} (h : N ≤ i) : hasBit o x i = false := by
  cases o
  · exact BitVec.getLsbD_of_ge _ _ h
  · simp [hasBit, BitVec.getMsbD, Nat.not_lt.2 h]

theorem hasBit_ext (o : Order) {x y : BitVec N} (h : ∀ i, i < N → hasBit o x i = hasBit o y i) : x = y := by
  cases o
  · exact BitVec.eq_of_getLsbD_eq h
  · exact BitVec.eq_of_getMsbD_eq h

theorem hasBit_zero (o : Order) (i : Nat) : hasBit o (0 : BitVec N) i = false := by
  cases o <;> simp [hasBit]

theorem hasBit_and (o : Order) (x y : BitVec N) (i : Nat) :
    hasBit o (x &&& y) i = (hasBit o x i && hasBit o y i) := by
  cases o <;> simp [hasBit]

theorem hasBit_or (o : Order) (x y : BitVec N) (i : Nat) :
    hasBit o (x ||| y) i = (hasBit o x i || hasBit o y i) := by
  cases o <;> simp [hasBit]

theorem hasBit_xor (o : Order) (x y : BitVec N) (i : Nat) :
    hasBit o (x ^^^ y) i = (hasBit o x i ^^ hasBit o y i) := by
  cases o <;> simp [hasBit]

theorem hasBit_not (o : Order) (x : BitVec N) {i : Nat} (h : i < N) :
    hasBit o (~~~x) i = !hasBit o x i := by
  cases o <;> simp [hasBit, h]

theorem hasBit_ones (o : Order) {i : Nat} (h : i < N) : hasBit o (BitVec.allOnes N) i = true := by
  cases o <;> simp [hasBit, BitVec.getMsbD, h]
  omega

theorem hasBit_shiftToEnd (o : Order) (x : BitVec N) {k : Nat} (hk : k < N) :
    ∃ y, shiftToEnd o x k = some y ∧ ∀ i, i < N → hasBit o y i = (decide (k ≤ i) && hasBit o x (i - k)) := by
  cases o with
  | lsb =>
    refine ⟨x <<< k, by simp only [shiftToEnd, if_pos hk], ?_⟩
    intro i hi
    simp only [hasBit, BitVec.getLsbD_shiftLeft, hi, decide_true, Bool.true_and]
    by_cases h : k ≤ i
    · simp [h, Nat.not_lt.2 h]
    · simp [h, Nat.lt_of_not_le h]
  | msb =>
    refine ⟨x >>> k, by simp only [shiftToEnd, if_pos hk], ?_⟩
    intro i hi
    simp only [hasBit, BitVec.getMsbD_ushiftRight]
    by_cases h : k ≤ i
    · simp [h, Nat.not_lt.2 h, hi]
    · simp [h, Nat.lt_of_not_le h]

theorem hasBit_startMask (o : Order) {c : Nat} (h0 : 0 < c) (hc : c ≤ N) :
    ∃ y, startMask o N c = some y ∧ ∀ i, i < N → hasBit o y i = decide (i < c) := by
  cases o with
  | lsb =>
    refine ⟨BitVec.allOnes N >>> (N - c), by simp only [startMask, if_pos (And.intro h0 hc)], ?_⟩
    intro i hi
    simp only [hasBit, BitVec.getLsbD_ushiftRight, BitVec.getLsbD_allOnes]
    congr 1
    simp only [eq_iff_iff]
    omega
  | msb =>
    refine ⟨(1#N <<< (N - 1)).sshiftRight (c - 1), by simp only [startMask, if_pos (And.intro h0 hc)], ?_⟩
    intro i hi
    have hN : 0 < N := by omega
    simp only [hasBit, BitVec.getMsbD_sshiftRight, BitVec.getMsbD_shiftLeft, BitVec.msb_shiftLeft, hi,
      decide_true, Bool.true_and]
    have hone : ∀ j, (1#N).getMsbD j = decide (j = N - 1) := by
      intro j
      rw [BitVec.getMsbD, BitVec.getLsbD_one]
      by_cases hj : j = N - 1
      · subst hj; simp; omega
      · simp only [hj, decide_false]
        by_cases hj2 : j < N
        · have : ¬ (N - 1 - j = 0) := by omega
          simp [this, Nat.zero_lt_of_lt hj2]
        · simp [hj2]
    rw [hone, hone]
    by_cases h : i < c - 1
    · have : i < c := by omega
      simp [h, this]
    · rw [if_neg h]
      by_cases h' : i < c
      · have : i - (c - 1) = 0 := by omega
        simp [h', this]
      · have : ¬ (i - (c - 1) = 0) := by omega
        simp [h', this]

theorem hasBit_indexMask (o : Order) {k : Nat} (hk : k < N) :
    ∃ y, indexMask o N k = some y ∧ ∀ i, i < N → hasBit o y i = decide (i = k) := by
  cases o with
  | lsb =>
    refine ⟨1#N <<< k, by simp only [indexMask, if_pos hk], ?_⟩
    intro i hi
    simp only [hasBit, BitVec.getLsbD_shiftLeft, BitVec.getLsbD_one, hi, decide_true, Bool.true_and]
    by_cases h : i < k
    · simp [h]; omega
    · simp only [h, decide_false, Bool.not_false, Bool.true_and]
      have : 0 < N := by omega
      simp only [this, decide_true, Bool.true_and]
      congr 1
      simp only [eq_iff_iff]
      omega
  | msb =>
    refine ⟨(1#N <<< (N - 1)) >>> k, by simp only [indexMask, if_pos hk], ?_⟩
    intro i hi
    simp only [hasBit, BitVec.getMsbD_ushiftRight, BitVec.getMsbD_shiftLeft, BitVec.getMsbD_one, hi,
      decide_true, Bool.true_and]
    have : 0 < N := by omega
    by_cases h : i < k
    · simp [h]; omega
    · simp only [h, decide_false, this, decide_true, Bool.and_true, Bool.not_false, Bool.true_and]
      by_cases h2 : i = k
      · subst h2; simp
      · have : ¬ (i - k = 0) := by omega
        simp [h2, this]

theorem exists_bit (o : Order) {x : BitVec N} (h : x ≠ 0) : ∃ i, i < N ∧ hasBit o x i = true := by
  apply Classical.byContradiction
  intro hn
  apply h
  apply hasBit_ext o
  intro i hi
  rw [hasBit_zero]
  cases hb : hasBit o x i with
  | false => rfl
  | true => exact absurd ⟨i, hi, hb⟩ hn

theorem zero_of_no_bit (o : Order) {x : BitVec N} (h : ∀ i, i < N → hasBit o x i = false) : x = 0 := by
  apply hasBit_ext o
  intro i hi
  rw [hasBit_zero, h i hi]

theorem firstFrom_spec (o : Order) (x : BitVec N) : ∀ fuel i, i + fuel = N →
    (∃ j, i ≤ j ∧ j < N ∧ hasBit o x j = true) →
    i ≤ firstFrom o x i fuel ∧ firstFrom o x i fuel < N ∧ hasBit o x (firstFrom o x i fuel) = true ∧
      ∀ k, i ≤ k → k < firstFrom o x i fuel → hasBit o x k = false := by
  intro fuel
  induction fuel with
  | zero => intro i hi ⟨j, h1, h2, _⟩; omega
  | succ fuel ih =>
    intro i hi ⟨j, h1, h2, h3⟩
    rw [firstFrom]
    by_cases hb : hasBit o x i = true
    · rw [if_pos hb]
      exact ⟨Nat.le_refl _, by omega, hb, fun k h1 h2 => by omega⟩
    · rw [if_neg hb]
      have hij : i ≠ j := fun h => hb (h ▸ h3)
      obtain ⟨e1, e2, e3, e4⟩ := ih (i + 1) (by omega) ⟨j, by omega, h2, h3⟩
      refine ⟨by omega, e2, e3, ?_⟩
      intro k hk1 hk2
      by_cases hki : k = i
      · subst hki; simpa using hb
      · exact e4 k (by omega) hk2

theorem countZeros_spec (o : Order) {x : BitVec N} (h : x ≠ 0) :
    countZerosFromStart o x < N ∧ hasBit o x (countZerosFromStart o x) = true ∧
      ∀ k, k < countZerosFromStart o x → hasBit o x k = false := by
  obtain ⟨i, hi, hb⟩ := exists_bit o h
  obtain ⟨_, e2, e3, e4⟩ := firstFrom_spec o x N 0 (by omega) ⟨i, Nat.zero_le _, hi, hb⟩
  exact ⟨e2, e3, fun k hk => e4 k (Nat.zero_le _) hk⟩

theorem zerosFromEnd_spec (o : Order) (x : BitVec N) : ∀ n, n ≤ N →
    (∃ j, j < n ∧ hasBit o x j = true) →
    zerosFromEnd o x n < n ∧ hasBit o x (n - 1 - zerosFromEnd o x n) = true ∧
      ∀ k, n - 1 - zerosFromEnd o x n < k → k < n → hasBit o x k = false := by
  intro n
  induction n with
  | zero => intro _ ⟨j, h, _⟩; omega
  | succ n ih =>
    intro hn ⟨j, h1, h2⟩
    rw [zerosFromEnd]
    by_cases hb : hasBit o x n = true
    · rw [if_pos hb]
      refine ⟨by omega, by simpa using hb, fun k h1 h2 => by omega⟩
    · rw [if_neg hb]
      have hij : j ≠ n := fun h => hb (h ▸ h2)
      obtain ⟨e1, e2, e3⟩ := ih (by omega) ⟨j, by omega, h2⟩
      refine ⟨by omega, ?_, ?_⟩
      · rw [show n + 1 - 1 - (zerosFromEnd o x n + 1) = n - 1 - zerosFromEnd o x n by omega]; exact e2
      · intro k hk1 hk2
        by_cases hkn : k = n
        · subst hkn; simpa using hb
        · exact e3 k (by omega) (by omega)

/-! ## Bits of buffers -/

theorem bitAt_ge (o : Order) (buf : List (BitVec N)) {i : Nat} (hN : 0 < N) (h : buf.length * N ≤ i) :
    bitAt o buf i = false := by
  have : buf.length ≤ i / N := (Nat.le_div_iff_mul_le hN).2 h
  simp [bitAt, List.getElem?_eq_none this]

theorem bitAt_word (o : Order) (buf : List (BitVec N)) {k j : Nat} (hj : j < N) :
    bitAt o buf (k * N + j) = match buf[k]? with | none => false | some w => hasBit o w j := by
  have h1 : (k * N + j) / N = k := by
    rw [Nat.mul_comm, Nat.mul_add_div (by omega), Nat.div_eq_of_lt hj, Nat.add_zero]
  have h2 : (k * N + j) % N = j := by rw [Nat.mul_comm, Nat.mul_add_mod, Nat.mod_eq_of_lt hj]
  rw [bitAt, h1, h2]

theorem bitAt_set (o : Order) (buf : List (BitVec N)) {w : Nat} (hw : w < buf.length) (x : BitVec N) (i : Nat) :
    bitAt o (buf.set w x) i = if i / N = w then hasBit o x (i % N) else bitAt o buf i := by
  unfold bitAt
  rw [List.getElem?_set]
  by_cases h : w = i / N
  · subst h; simp [hw]
  · rw [if_neg h, if_neg (Ne.symm h)]

theorem pos_of_lt {a b : Nat} (h : a < b * N) : 0 < N := by
  cases N with
  | zero => omega
  | succ n => omega

theorem div_lt_of_lt {i n : Nat} (h : i < n * N) : i / N < n := by
  have := pos_of_lt h
  exact (Nat.div_lt_iff_lt_mul this).2 h

/-- **C41.** Testing, setting and clearing a bit of a bit vector stays inside the buffer for
every bit index it holds, and reads or changes exactly that bit. -/
theorem C41_single_bit (o : Order) (buf : List (BitVec N)) (i : Nat) (hi : i < buf.length * N) :
    testBit o buf i = some (bitAt o buf i) ∧
    (∃ b, setBit o buf i = some b ∧ b.length = buf.length ∧
      ∀ k, bitAt o b k = if k = i then true else bitAt o buf k) ∧
    (∃ b, clearBit o buf i = some b ∧ b.length = buf.length ∧
      ∀ k, bitAt o b k = if k = i then false else bitAt o buf k) := by
  have hN : 0 < N := pos_of_lt hi
  have hw : i / N < buf.length := div_lt_of_lt hi
  have hm : i % N < N := Nat.mod_lt _ hN
  obtain ⟨m, em, hmask⟩ := hasBit_indexMask o hm
  have hsplit : ∀ k, k / N = i / N → (k = i ↔ k % N = i % N) := by
    intro k hk
    constructor
    · intro h; rw [h]
    · intro h
      have h1 := Nat.div_add_mod k N
      have h2 := Nat.div_add_mod i N
      rw [hk, h] at h1
      omega
  have hget := List.getElem?_eq_getElem hw
  refine ⟨?_, ?_, ?_⟩
  · simp only [testBit, hget, em, bitAt]
    show some _ = some _
    congr 1
    cases hb : hasBit o buf[i / N] (i % N) with
    | false =>
      simp only [bne_eq_false_iff_eq]
      apply zero_of_no_bit o
      intro k hk
      rw [hasBit_and, hmask k hk]
      by_cases h : k = i % N
      · subst h; simp [hb]
      · simp [h]
    | true =>
      simp only [bne_iff_ne]
      intro h
      have := congrArg (fun z => hasBit o z (i % N)) h
      rw [hasBit_and, hmask _ hm, hb, hasBit_zero] at this
      simp at this
  · refine ⟨buf.set (i / N) (buf[i / N] ||| m), by simp only [setBit, hget, em]; rfl, by simp, ?_⟩
    intro k
    rw [bitAt_set o buf hw]
    by_cases hk : k / N = i / N
    · rw [if_pos hk, hasBit_or, hmask _ (Nat.mod_lt _ hN)]
      have hold : bitAt o buf k = hasBit o buf[i / N] (k % N) := by simp only [bitAt, hk, hget]
      by_cases h : k = i
      · rw [if_pos h]; simp [h]
      · have : ¬ (k % N = i % N) := fun hh => h ((hsplit k hk).2 hh)
        rw [if_neg h, hold]; simp [this]
    · rw [if_neg hk, if_neg (fun h => hk (by rw [h]))]
  · refine ⟨buf.set (i / N) (buf[i / N] &&& ~~~m), by simp only [clearBit, hget, em]; rfl, by simp, ?_⟩
    intro k
    rw [bitAt_set o buf hw]
    by_cases hk : k / N = i / N
    · have hkN : k % N < N := Nat.mod_lt _ hN
      rw [if_pos hk, hasBit_and, hasBit_not _ _ hkN, hmask _ hkN]
      have hold : bitAt o buf k = hasBit o buf[i / N] (k % N) := by simp only [bitAt, hk, hget]
      by_cases h : k = i
      · rw [if_pos h]; simp [h]
      · have : ¬ (k % N = i % N) := fun hh => h ((hsplit k hk).2 hh)
        rw [if_neg h, hold]; simp [this]
    · rw [if_neg hk, if_neg (fun h => hk (by rw [h]))]

/-! ## Ranges -/

/-- An operator pair of `bit_array_op` that gives the bits of the range the value `v`
and leaves the others. -/
structure Sets (o : Order) (bitOp fullOp : BitVec N → BitVec N → BitVec N) (v : Bool) : Prop where
  bit : ∀ a m i, i < N → hasBit o (bitOp a m) i = if hasBit o m i then v else hasBit o a i
  full : ∀ a i, i < N → hasBit o (fullOp a (BitVec.allOnes N)) i = v

theorem fullLoop_spec (o : Order) {bitOp fullOp : BitVec N → BitVec N → BitVec N} {v : Bool}
    (hs : Sets o bitOp fullOp v) (hN : 0 < N) :
    ∀ (fuel : Nat) (buf : List (BitVec N)) (w count : Nat), w * N + count ≤ buf.length * N →
      buf.length + 1 ≤ fuel + w →
    ∃ buf' w', fullLoop fullOp fuel buf w count = some (buf', w', count % N) ∧
      w' = w + count / N ∧ buf'.length = buf.length ∧
      ∀ i, bitAt o buf' i = if w * N ≤ i ∧ i < w' * N then v else bitAt o buf i := by
  intro fuel
  induction fuel with
  | zero =>
    intro buf w count h1 h2
    have : (buf.length + 1) * N ≤ w * N := Nat.mul_le_mul_right _ (by omega)
    rw [Nat.add_mul] at this
    omega
  | succ fuel ih =>
    intro buf w count h1 h2
    rw [fullLoop]
    by_cases hc : count ≥ N
    · rw [if_pos hc]
      have hw : w < buf.length := by
        apply Nat.lt_of_not_le
        intro h
        have := Nat.mul_le_mul_right N h
        omega
      rw [List.getElem?_eq_getElem hw]
      have hsucc : (w + 1) * N = w * N + N := by rw [Nat.add_mul, Nat.one_mul]
      obtain ⟨b, w', e1, e2, e3, e4⟩ := ih (buf.set w (fullOp buf[w] (BitVec.allOnes N))) (w + 1) (count - N)
        (by rw [List.length_set, hsucc]; omega) (by rw [List.length_set]; omega)
      have hmod : (count - N) % N = count % N := by
        rw [← Nat.mod_eq_sub_mod hc]
      have hdiv : count / N = (count - N) / N + 1 := by
        rw [Nat.div_eq count N, if_pos ⟨hN, hc⟩]
      refine ⟨b, w', by rw [← hmod]; exact e1, by omega, by rw [e3, List.length_set], ?_⟩
      intro i
      rw [e4, bitAt_set o buf hw, hsucc]
      have hww : w + 1 ≤ w' := by rw [e2]; exact Nat.le_add_right _ _
      have hle : (w + 1) * N ≤ w' * N := Nat.mul_le_mul_right _ hww
      rw [hsucc] at hle
      by_cases hi : i / N = w
      · have hmod := Nat.mod_lt i hN
        have hdm := Nat.div_add_mod i N
        rw [hi, Nat.mul_comm] at hdm
        rw [if_neg (by omega), if_pos hi, hs.full _ _ hmod, if_pos (by omega)]
      · rw [if_neg hi]
        have hnot : ¬ (w * N ≤ i ∧ i < w * N + N) := by
          rintro ⟨a, b⟩
          apply hi
          apply Nat.div_eq_of_lt_le
          · exact a
          · rw [Nat.add_mul, Nat.one_mul]; exact b
        by_cases hr : w * N + N ≤ i ∧ i < w' * N
        · rw [if_pos hr, if_pos (by omega)]
        · rw [if_neg hr, if_neg (by omega)]
    · rw [if_neg hc]
      have hlt : count < N := Nat.lt_of_not_le hc
      refine ⟨buf, w, by rw [Nat.mod_eq_of_lt hlt], by rw [Nat.div_eq_of_lt hlt, Nat.add_zero], rfl, ?_⟩
      intro i
      rw [if_neg (by omega)]

theorem arrayOp_spec (o : Order) {bitOp fullOp : BitVec N → BitVec N → BitVec N} {v : Bool}
    (hs : Sets o bitOp fullOp v) (buf : List (BitVec N)) (index count : Nat)
    (h : index + count ≤ buf.length * N) :
    ∃ b, arrayOp o bitOp fullOp buf index count = some b ∧ b.length = buf.length ∧
      ∀ i, bitAt o b i = if index ≤ i ∧ i < index + count then v else bitAt o buf i := by
  unfold arrayOp
  by_cases hc : count = 0
  · rw [if_pos hc]
    refine ⟨buf, rfl, rfl, ?_⟩
    intro i; rw [if_neg (by omega)]
  · rw [if_neg hc]
    have hidx : index < buf.length * N := by omega
    have hN : 0 < N := pos_of_lt hidx
    have hw : index / N < buf.length := div_lt_of_lt hidx
    have hb : index % N < N := Nat.mod_lt _ hN
    have hdm := Nat.div_add_mod index N
    rw [Nat.mul_comm] at hdm
    obtain ⟨n, hn⟩ : ∃ n, min (N - index % N) count = n := ⟨_, rfl⟩
    have hn1 : 0 < n := by omega
    have hn2 : n ≤ N := by omega
    obtain ⟨m, em, hm⟩ := hasBit_startMask o hn1 hn2
    obtain ⟨m', em', hm'⟩ := hasBit_shiftToEnd o m hb
    simp only [hn, em, em', List.getElem?_eq_getElem hw, Option.bind_eq_bind, Option.bind_some]
    have hfirst : ∀ i, bitAt o (buf.set (index / N) (bitOp buf[index / N] m')) i =
        if index ≤ i ∧ i < index + n then v else bitAt o buf i := by
      intro i
      rw [bitAt_set o buf hw]
      by_cases hi : i / N = index / N
      · have hib : i % N < N := Nat.mod_lt _ hN
        have hdi := Nat.div_add_mod i N
        rw [Nat.mul_comm, hi] at hdi
        rw [if_pos hi, hs.bit _ _ _ hib, hm' _ hib]
        have hold : bitAt o buf i = hasBit o buf[index / N] (i % N) := by
          simp only [bitAt, hi, List.getElem?_eq_getElem hw]
        rw [hold]
        by_cases hle : index % N ≤ i % N
        · rw [hm _ (by omega)]
          by_cases hlt : i % N - index % N < n
          · rw [if_pos (by simp [hle, hlt]), if_pos (by omega)]
          · rw [if_neg (by simp [hlt]), if_neg (by omega)]
        · rw [if_neg (by simp [hle]), if_neg (by omega)]
      · rw [if_neg hi, if_neg]
        rintro ⟨h1, h2⟩
        apply hi
        apply Nat.div_eq_of_lt_le
        · omega
        · rw [Nat.add_mul, Nat.one_mul]; omega
    by_cases hc2 : count - n = 0
    · rw [if_pos hc2]
      have : count = n := by omega
      exact ⟨_, rfl, by simp, by rw [this]; exact hfirst⟩
    · rw [if_neg hc2]
      have hnval : n = N - index % N := by omega
      have hsucc : (index / N + 1) * N = index / N * N + N := by rw [Nat.add_mul, Nat.one_mul]
      obtain ⟨b, w', e1, e2, e3, e4⟩ := fullLoop_spec o hs hN (buf.length + 1)
        (buf.set (index / N) (bitOp buf[index / N] m')) (index / N + 1) (count - n)
        (by rw [List.length_set, hsucc]; omega) (by rw [List.length_set]; exact Nat.le_add_right _ _)
      rw [List.length_set] at e3 ⊢
      have hw' : w' * N = index + n + (count - n) / N * N := by
        rw [e2, Nat.add_mul, hsucc]; omega
      have hcm := Nat.div_add_mod (count - n) N
      rw [Nat.mul_comm] at hcm
      simp only [e1, Option.bind_some]
      by_cases hz : (count - n) % N = 0
      · rw [if_pos hz]
        refine ⟨b, rfl, e3, ?_⟩
        intro i
        rw [e4, hfirst, hsucc]
        by_cases h1 : index / N * N + N ≤ i ∧ i < w' * N
        · rw [if_pos h1, if_pos (by omega)]
        · rw [if_neg h1]
          by_cases h2 : index ≤ i ∧ i < index + n
          · rw [if_pos h2, if_pos (by omega)]
          · rw [if_neg h2, if_neg (by omega)]
      · rw [if_neg hz]
        have hlt : (count - n) % N < N := Nat.mod_lt _ hN
        obtain ⟨m2, em2, hm2⟩ := hasBit_startMask o (Nat.pos_of_ne_zero hz) (Nat.le_of_lt hlt)
        have hwlt : w' < b.length := by
          rw [e3]
          apply Nat.lt_of_not_le
          intro hle
          have := Nat.mul_le_mul_right N hle
          omega
        simp only [em2, List.getElem?_eq_getElem hwlt, Option.bind_some]
        refine ⟨_, rfl, by rw [List.length_set, e3], ?_⟩
        intro i
        rw [bitAt_set o b hwlt]
        by_cases hi : i / N = w'
        · have hib : i % N < N := Nat.mod_lt _ hN
          have hdi := Nat.div_add_mod i N
          rw [Nat.mul_comm, hi] at hdi
          rw [if_pos hi, hs.bit _ _ _ hib, hm2 _ hib]
          have hold : bitAt o b i = hasBit o b[w'] (i % N) := by
            simp only [bitAt, hi, List.getElem?_eq_getElem hwlt]
          rw [← hold, e4, hfirst, hsucc]
          by_cases hl : i % N < (count - n) % N
          · rw [if_pos (by simp [hl]), if_pos (by omega)]
          · rw [if_neg (by simp [hl]), if_neg (by omega), if_neg (by omega), if_neg (by omega)]
        · rw [if_neg hi, e4, hfirst, hsucc]
          have hnot : ¬ (w' * N ≤ i ∧ i < w' * N + N) := by
            rintro ⟨a, b⟩
            apply hi
            apply Nat.div_eq_of_lt_le
            · exact a
            · rw [Nat.add_mul, Nat.one_mul]; exact b
          by_cases h1 : index / N * N + N ≤ i ∧ i < w' * N
          · rw [if_pos h1, if_pos (by omega)]
          · rw [if_neg h1]
            by_cases h2 : index ≤ i ∧ i < index + n
            · rw [if_pos h2, if_pos (by omega)]
            · rw [if_neg h2, if_neg (by omega)]

theorem sets_fill (o : Order) : Sets (N := N) o (fun a b => a ||| b) (fun _ b => b) true where
  bit := by
    intro a m i _
    rw [hasBit_or]
    cases hasBit o m i <;> simp
  full := by intro a i hi; exact hasBit_ones o hi

theorem sets_clear (o : Order) : Sets (N := N) o (fun a b => a &&& ~~~b) (fun _ b => ~~~b) false where
  bit := by
    intro a m i hi
    rw [hasBit_and, hasBit_not _ _ hi]
    cases hasBit o m i <;> simp
  full := by
    intro a i hi
    rw [hasBit_not _ _ hi, hasBit_ones o hi]; rfl

/-- **C41.** Filling or clearing a range of a bit vector, wherever it starts and however
long it is, stays inside the buffer if the range does, changes exactly the bits of the
range and leaves every other bit as it was. -/
theorem C41_range (o : Order) (buf : List (BitVec N)) (index count : Nat)
    (h : index + count ≤ buf.length * N) :
    (∃ b, fill o buf index count = some b ∧ b.length = buf.length ∧
      ∀ i, bitAt o b i = if index ≤ i ∧ i < index + count then true else bitAt o buf i) ∧
    (∃ b, clear o buf index count = some b ∧ b.length = buf.length ∧
      ∀ i, bitAt o b i = if index ≤ i ∧ i < index + count then false else bitAt o buf i) :=
  ⟨arrayOp_spec o (sets_fill o) buf index count h, arrayOp_spec o (sets_clear o) buf index count h⟩

/-- Non-vacuity: a range over three words in both bit orders. -/
example : fill .lsb [0#8, 0#8, 0#8, 0#8] 6 14 = some [0xC0#8, 0xFF#8, 0x0F#8, 0#8] := by decide
example : clear .msb [0xFF#8, 0xFF#8, 0xFF#8, 0xFF#8] 6 14 = some [0xFC#8, 0#8, 0x0F#8, 0xFF#8] := by decide

/-! ## First and last bit -/

theorem firstBit_spec (o : Order) (hN : 0 < N) (all : List (BitVec N)) :
    ∀ (ws : List (BitVec N)) (k : Nat), all.drop k = ws →
    (∀ i, i < k * N → bitAt o all i = false) →
    (∀ i, firstBit o ws k = some i → i < all.length * N ∧ bitAt o all i = true ∧ ∀ j, j < i → bitAt o all j = false) ∧
    (firstBit o ws k = none → ∀ i, bitAt o all i = false) := by
  intro ws
  induction ws with
  | nil =>
    intro k hd hpre
    refine ⟨by intro i h; simp [firstBit] at h, ?_⟩
    intro _ i
    by_cases hi : i < k * N
    · exact hpre i hi
    · apply bitAt_ge o all hN
      have : all.length ≤ k := List.drop_eq_nil_iff.1 hd
      have := Nat.mul_le_mul_right N this
      omega
  | cons w ws ih =>
    intro k hd hpre
    have hk : k < all.length := by
      apply Nat.lt_of_not_le
      intro h
      rw [List.drop_eq_nil_iff.2 h] at hd; simp at hd
    have hget : all[k]? = some w := by
      rw [← List.head?_drop, hd]; rfl
    have hword : ∀ j, j < N → bitAt o all (k * N + j) = hasBit o w j := by
      intro j hj; rw [bitAt_word o all hj, hget]
    rw [firstBit]
    by_cases hw : w ≠ 0
    · rw [if_pos hw]
      refine ⟨?_, by intro h; simp at h⟩
      intro i hi
      injection hi with hi
      obtain ⟨c1, c2, c3⟩ := countZeros_spec o hw
      have hsucc : (k + 1) * N ≤ all.length * N := Nat.mul_le_mul_right _ hk
      rw [Nat.add_mul, Nat.one_mul] at hsucc
      have hi' : i = k * N + countZerosFromStart o w := by omega
      refine ⟨by omega, by rw [hi', hword _ c1, c2], ?_⟩
      intro j hj
      by_cases hjk : j < k * N
      · exact hpre j hjk
      · have : j = k * N + (j - k * N) := by omega
        rw [this, hword _ (by omega)]
        exact c3 _ (by omega)
    · rw [if_neg hw]
      have hw0 : w = 0 := by simpa using hw
      apply ih (k + 1)
      · rw [← List.drop_drop, hd]; rfl
      · intro i hi
        rw [Nat.add_mul, Nat.one_mul] at hi
        by_cases hik : i < k * N
        · exact hpre i hik
        · have : i = k * N + (i - k * N) := by omega
          rw [this, hword _ (by omega), hw0, hasBit_zero]

theorem lastBit_spec (o : Order) (hN : 0 < N) (all : List (BitVec N)) :
    ∀ (ws : List (BitVec N)) (k : Nat), ws.length = k → k ≤ all.length → (all.take k).reverse = ws →
    (∀ i, k * N ≤ i → bitAt o all i = false) →
    (∀ i, lastBitRev o ws k = some i → i < all.length * N ∧ bitAt o all i = true ∧ ∀ j, i < j → bitAt o all j = false) ∧
    (lastBitRev o ws k = none → ∀ i, bitAt o all i = false) := by
  intro ws
  induction ws with
  | nil =>
    intro k hlen _ hd hpost
    simp at hlen; subst hlen
    refine ⟨by intro i h; simp [lastBitRev] at h, ?_⟩
    intro _ i
    exact hpost i (by omega)
  | cons w ws ih =>
    intro k hlen hk hd hpost
    obtain ⟨k, rfl⟩ : ∃ k', k = k' + 1 := ⟨k - 1, by simp at hlen; omega⟩
    have hlt : k < all.length := by omega
    rw [List.take_succ_eq_append_getElem hlt, List.reverse_append] at hd
    simp only [List.reverse_cons, List.reverse_nil, List.nil_append, List.cons_append, List.cons.injEq] at hd
    obtain ⟨hw, hrest⟩ := hd
    have hword : ∀ j, j < N → bitAt o all (k * N + j) = hasBit o w j := by
      intro j hj; rw [bitAt_word o all hj, List.getElem?_eq_getElem hlt, hw]
    rw [lastBitRev]
    have hsucc : (k + 1) * N ≤ all.length * N := Nat.mul_le_mul_right _ hlt
    rw [Nat.add_mul, Nat.one_mul] at hsucc hpost
    by_cases hz : w ≠ 0
    · rw [if_pos hz]
      refine ⟨?_, by intro h; simp at h⟩
      intro i hi
      injection hi with hi
      rw [Nat.add_sub_cancel] at hi
      obtain ⟨j0, hj0, hb0⟩ := exists_bit o hz
      obtain ⟨c1, c2, c3⟩ := zerosFromEnd_spec o w N (Nat.le_refl _) ⟨j0, hj0, hb0⟩
      have hi' : i = k * N + (N - 1 - zerosFromEnd o w N) := by
        rw [← hi, Nat.add_comm]; rfl
      refine ⟨by omega, by rw [hi', hword _ (by omega), c2], ?_⟩
      intro j hj
      by_cases hjk : k * N + N ≤ j
      · exact hpost j hjk
      · have : j = k * N + (j - k * N) := by omega
        rw [this, hword _ (by omega)]
        exact c3 _ (by omega) (by omega)
    · rw [if_neg hz]
      have hw0 : w = 0 := by simpa using hz
      rw [Nat.add_sub_cancel]
      apply ih k (by simpa using hlen) (by omega) hrest
      intro i hi
      by_cases hik : k * N + N ≤ i
      · exact hpost i hik
      · have : i = k * N + (i - k * N) := by omega
        rw [this, hword _ (by omega), hw0, hasBit_zero]

/-- **C41.** The searches for the first and the last set bit find it if and only if the
bit vector has a set bit. -/
theorem C41_first_last_bit (o : Order) (hN : 0 < N) (buf : List (BitVec N)) :
    (∀ i, firstBit o buf 0 = some i → i < buf.length * N ∧ bitAt o buf i = true ∧ ∀ j, j < i → bitAt o buf j = false) ∧
    (firstBit o buf 0 = none → ∀ i, bitAt o buf i = false) ∧
    (∀ i, lastBit o buf = some i → i < buf.length * N ∧ bitAt o buf i = true ∧ ∀ j, i < j → bitAt o buf j = false) ∧
    (lastBit o buf = none → ∀ i, bitAt o buf i = false) := by
  obtain ⟨a, b⟩ := firstBit_spec o hN buf buf 0 rfl (by intro i hi; omega)
  obtain ⟨c, d⟩ := lastBit_spec o hN buf buf.reverse buf.length (by simp) (Nat.le_refl _) (by simp)
    (fun i hi => bitAt_ge o buf hN hi)
  exact ⟨a, b, c, d⟩

example : firstBit .msb [0#8, 0x10#8, 0x81#8] 0 = some 11 ∧ lastBit .msb [0#8, 0x10#8, 0x81#8] = some 23 := by
  decide

/-! ## Iterators -/

/-- The bit looked for at position `i`: a set bit if `v = false`, a clear one if `v`. -/
def target (o : Order) (data : List (BitVec N)) (v : Bool) (i : Nat) : Bool := bitAt o data i ^^ v

/-- The xor mask that stands for `v`. -/
def maskOf (N : Nat) (v : Bool) : BitVec N := if v then BitVec.allOnes N else 0

theorem hasBit_maskOf (o : Order) (v : Bool) {i : Nat} (hi : i < N) : hasBit o (maskOf N v) i = v := by
  cases v
  · exact hasBit_zero o i
  · exact hasBit_ones o hi

/-- What an iterator over the first `n` words knows: it has found the first target at or
after `pos`, or there is none. -/
structure Repr (o : Order) (data : List (BitVec N)) (n pos : Nat) (v : Bool) (it : Iter N) : Prop where
  «end» : it.end = n * N
  mask : it.mask = maskOf N v
  has : it.current ≠ 0 → ∃ k, k < n ∧ it.idx = k * N ∧ it.ptr = k + 1 ∧
    (∀ j, j < N → hasBit o it.current j = (decide (pos ≤ k * N + j) && target o data v (k * N + j))) ∧
    (∀ i, pos ≤ i → i < k * N → target o data v i = false)
  none : it.current = 0 → ∀ i, pos ≤ i → i < n * N → target o data v i = false

theorem scan_spec (o : Order) (data : List (BitVec N)) {n : Nat} (hn : n ≤ data.length) (hN : 0 < N)
    (pos : Nat) (v : Bool) : ∀ (fuel k : Nat) (word : BitVec N), k < n → n + 1 ≤ fuel + k →
    (∀ j, j < N → hasBit o word j = (decide (pos ≤ k * N + j) && target o data v (k * N + j))) →
    (∀ i, pos ≤ i → i < k * N → target o data v i = false) → pos ≤ k * N + N →
    ∃ ptr idx word', scan data (maskOf N v) (n * N) fuel (k + 1) (k * N) word = some (ptr, idx, word') ∧
      Repr o data n pos v ⟨ptr, idx, n * N, word', maskOf N v⟩ := by
  intro fuel
  induction fuel with
  | zero => intro k word h1 h2; omega
  | succ fuel ih =>
    intro k word hk hf hw hpre hpos
    rw [scan]
    have hstep : ∀ i, word = 0 → pos ≤ i → i < k * N + N → target o data v i = false := by
      intro i h0 h1 h2
      by_cases hik : i < k * N
      · exact hpre i h1 hik
      · have := hw (i - k * N) (by omega)
        rw [h0, hasBit_zero, show k * N + (i - k * N) = i by omega] at this
        simpa [h1] using this.symm
    by_cases h0 : word ≠ 0
    · rw [if_pos h0]
      refine ⟨_, _, _, rfl, rfl, rfl, fun _ => ⟨k, hk, rfl, rfl, hw, hpre⟩, fun h => absurd h h0⟩
    · rw [if_neg h0]
      have h0' : word = 0 := by simpa using h0
      by_cases he : k * N + N < n * N
      · rw [if_pos he]
        have hk1 : k + 1 < n := by
          have : (k + 1) * N < n * N := by rw [Nat.add_mul, Nat.one_mul]; exact he
          exact Nat.lt_of_mul_lt_mul_right this
        have hlt : k + 1 < data.length := by omega
        rw [List.getElem?_eq_getElem hlt]
        have hs : (k + 1) * N = k * N + N := by rw [Nat.add_mul, Nat.one_mul]
        have := ih (k + 1) (data[k + 1] ^^^ maskOf N v) hk1 (by omega) ?_ ?_ ?_
        · rw [hs] at this
          exact this
        · intro j hj
          rw [hasBit_xor, hasBit_maskOf o v hj, target, bitAt_word o data hj, List.getElem?_eq_getElem hlt, hs]
          have : pos ≤ k * N + N + j := by omega
          simp [this]
        · intro i h1 h2
          rw [hs] at h2
          exact hstep i h0' h1 h2
        · rw [hs]; omega
      · rw [if_neg he]
        have hkn : k + 1 = n := by
          apply Nat.le_antisymm hk
          apply Nat.le_of_not_lt
          intro hlt
          apply he
          have : (k + 1) * N < n * N := Nat.mul_lt_mul_of_pos_right hlt hN
          rw [Nat.add_mul, Nat.one_mul] at this
          exact this
        refine ⟨_, _, _, rfl, rfl, rfl, fun h => absurd h0' h, ?_⟩
        intro _ i h1 h2
        rw [← hkn, Nat.add_mul, Nat.one_mul] at h2
        exact hstep i h0' h1 h2

theorem init_spec (o : Order) (data : List (BitVec N)) {n : Nat} (hn : n ≤ data.length) (hN : 0 < N)
    (start : Nat) (v : Bool) :
    ∃ it, Iter.init o data n start (maskOf N v) = some it ∧ Repr o data n start v it := by
  unfold Iter.init
  by_cases h : start / N * N < n * N
  · simp only [if_pos h]
    have hk : start / N < n := Nat.lt_of_mul_lt_mul_right h
    have hlt : start / N < data.length := by omega
    have hb : start % N < N := Nat.mod_lt _ hN
    have hdm := Nat.div_add_mod start N
    rw [Nat.mul_comm] at hdm
    obtain ⟨m, em, hm⟩ := hasBit_shiftToEnd o (BitVec.allOnes N) hb
    obtain ⟨ptr, idx, w', e1, e2⟩ := scan_spec o data hn hN start v (data.length + 2) (start / N)
      ((data[start / N] ^^^ maskOf N v) &&& m) hk
      (Nat.le_trans (show n + 1 ≤ data.length + 2 by omega) (Nat.le_add_right _ _))
      (by
        intro j hj
        rw [hasBit_and, hm j hj, hasBit_xor, hasBit_maskOf o v hj, target, bitAt_word o data hj,
          List.getElem?_eq_getElem hlt]
        by_cases hle : start % N ≤ j
        · rw [hasBit_ones o (by omega)]
          have : start ≤ start / N * N + j := by omega
          simp [hle, this]
        · have : ¬ (start ≤ start / N * N + j) := by omega
          simp [hle, this])
      (by intro i h1 h2; omega) (by omega)
    refine ⟨⟨ptr, idx, n * N, w', maskOf N v⟩, ?_, e2⟩
    simp only [em, List.getElem?_eq_getElem hlt, Option.bind_eq_bind, Option.bind_some, e1]
  · simp only [if_neg h]
    refine ⟨_, rfl, rfl, rfl, fun h => absurd rfl h, ?_⟩
    intro _ i h1 h2
    exfalso
    have hle : n ≤ start / N := by
      apply Nat.le_of_not_lt
      intro hlt
      exact h (Nat.mul_lt_mul_of_pos_right hlt hN)
    have := (Nat.le_div_iff_mul_le hN).1 hle
    omega

theorem hasNext_iff (o : Order) {data : List (BitVec N)} {n pos : Nat} {v : Bool} {it : Iter N}
    (h : Repr o data n pos v it) (hn : n ≤ data.length) :
    it.hasNext = true ↔ ∃ i, pos ≤ i ∧ i < n * N ∧ target o data v i = true := by
  unfold Iter.hasNext
  rw [bne_iff_ne]
  constructor
  · intro hc
    obtain ⟨k, h1, h2, h3, h4, h5⟩ := h.has hc
    obtain ⟨c1, c2, c3⟩ := countZeros_spec o hc
    rw [h4 _ c1] at c2
    simp only [Bool.and_eq_true, decide_eq_true_eq] at c2
    have hs : (k + 1) * N ≤ n * N := Nat.mul_le_mul_right _ h1
    rw [Nat.add_mul, Nat.one_mul] at hs
    exact ⟨_, c2.1, by omega, c2.2⟩
  · rintro ⟨i, h1, h2, h3⟩ hc
    rw [h.none hc i h1 h2] at h3
    simp at h3

/-- The first target at or after `pos`. -/
def IsFirst (o : Order) (data : List (BitVec N)) (n pos : Nat) (v : Bool) (i : Nat) : Prop :=
  pos ≤ i ∧ i < n * N ∧ target o data v i = true ∧ ∀ j, pos ≤ j → j < i → target o data v j = false

theorem first_of_repr (o : Order) {data : List (BitVec N)} {n pos : Nat} {v : Bool} {it : Iter N}
    (h : Repr o data n pos v it) (hc : it.current ≠ 0) :
    IsFirst o data n pos v (it.idx + countZerosFromStart o it.current) := by
  obtain ⟨k, h1, h2, h3, h4, h5⟩ := h.has hc
  obtain ⟨c1, c2, c3⟩ := countZeros_spec o hc
  rw [h4 _ c1] at c2
  simp only [Bool.and_eq_true, decide_eq_true_eq] at c2
  have hs : (k + 1) * N ≤ n * N := Nat.mul_le_mul_right _ h1
  rw [Nat.add_mul, Nat.one_mul] at hs
  rw [h2]
  refine ⟨c2.1, by omega, c2.2, ?_⟩
  intro j hj1 hj2
  by_cases hjk : j < k * N
  · exact h5 j hj1 hjk
  · have := c3 (j - k * N) (by omega)
    rw [h4 _ (by omega), show k * N + (j - k * N) = j by omega] at this
    simpa [hj1] using this

theorem peek_spec (o : Order) {data : List (BitVec N)} {n pos : Nat} {v : Bool} {it : Iter N}
    (h : Repr o data n pos v it) (hh : it.hasNext = true) :
    ∃ i, it.peekNext o = some i ∧ IsFirst o data n pos v i := by
  have hc : it.current ≠ 0 := by simpa [Iter.hasNext] using hh
  exact ⟨_, by simp only [Iter.peekNext, if_neg hc], first_of_repr o h hc⟩

theorem next_spec (o : Order) {data : List (BitVec N)} {n pos : Nat} {v : Bool} {it : Iter N}
    (hN : 0 < N) (hn : n ≤ data.length) (h : Repr o data n pos v it) (hh : it.hasNext = true) :
    ∃ i it', it.next o data = some (i, it') ∧ IsFirst o data n pos v i ∧ Repr o data n (i + 1) v it' := by
  have hc : it.current ≠ 0 := by simpa [Iter.hasNext] using hh
  have hfirst := first_of_repr o h hc
  obtain ⟨k, h1, h2, h3, h4, h5⟩ := h.has hc
  obtain ⟨c1, c2, c3⟩ := countZeros_spec o hc
  obtain ⟨m, em, hm⟩ := hasBit_indexMask o c1
  obtain ⟨c, hcdef⟩ : ∃ c, countZerosFromStart o it.current = c := ⟨_, rfl⟩
  rw [hcdef] at hfirst c1 c2 c3 em hm
  obtain ⟨ptr, idx, w', e1, e2⟩ := scan_spec o data hn hN (it.idx + c + 1) v (data.length + 2) k
    (it.current ^^^ m) h1 (by omega)
    (by
      intro j hj
      rw [hasBit_xor, hm j hj, h4 j hj]
      by_cases hjc : j = c
      · subst hjc
        have : ¬ (it.idx + j + 1 ≤ k * N + j) := by omega
        rw [← h4 j hj, c2]; simp [this]
      · by_cases hlt : j < c
        · have := c3 j hlt
          rw [h4 j hj] at this
          have hn' : ¬ (it.idx + c + 1 ≤ k * N + j) := by omega
          rw [this]; simp [hjc, hn']
        · have h1' : it.idx + c + 1 ≤ k * N + j := by omega
          have h2' : pos ≤ k * N + j := by have := hfirst.1; omega
          simp [hjc, h1', h2'])
    (by intro i hi1 hi2; omega) (by omega)
  refine ⟨it.idx + c, ⟨ptr, idx, n * N, w', maskOf N v⟩, ?_, hfirst, e2⟩
  rw [Iter.next, if_neg hc]
  simp only [hcdef, em, h.end, h.mask, h3, h2, e1, Option.bind_eq_bind, Option.bind_some]

theorem target_flip (o : Order) (data : List (BitVec N)) (v : Bool) (i : Nat) :
    target o data (!v) i = !target o data v i := by
  unfold target; cases bitAt o data i <;> cases v <;> rfl

theorem maskOf_flip (v : Bool) : maskOf N v ^^^ BitVec.allOnes N = maskOf N (!v) := by
  apply hasBit_ext .lsb
  intro i hi
  rw [hasBit_xor, hasBit_maskOf _ _ hi, hasBit_maskOf _ _ hi, hasBit_ones _ hi]
  cases v <;> rfl

theorem nextAndFlip_spec (o : Order) {data : List (BitVec N)} {n pos : Nat} {v : Bool} {it : Iter N}
    (hN : 0 < N) (hn : n ≤ data.length) (h : Repr o data n pos v it) (hh : it.hasNext = true) :
    ∃ i it', it.nextAndFlip o data = some (i, it') ∧ IsFirst o data n pos v i ∧ Repr o data n i (!v) it' := by
  have hc : it.current ≠ 0 := by simpa [Iter.hasNext] using hh
  have hfirst := first_of_repr o h hc
  obtain ⟨k, h1, h2, h3, h4, h5⟩ := h.has hc
  obtain ⟨c1, c2, c3⟩ := countZeros_spec o hc
  obtain ⟨m, em, hm⟩ := hasBit_shiftToEnd o (BitVec.allOnes N) c1
  obtain ⟨c, hcdef⟩ : ∃ c, countZerosFromStart o it.current = c := ⟨_, rfl⟩
  rw [hcdef] at hfirst c1 c2 c3 em hm
  obtain ⟨ptr, idx, w', e1, e2⟩ := scan_spec o data hn hN (it.idx + c) (!v) (data.length + 2) k
    (it.current ^^^ m) h1 (by omega)
    (by
      intro j hj
      rw [hasBit_xor, hm j hj]
      by_cases hle : c ≤ j
      · rw [hasBit_ones o (by omega), h4 j hj, target_flip]
        have h1' : it.idx + c ≤ k * N + j := by omega
        have h2' : pos ≤ k * N + j := by have := hfirst.1; omega
        simp [hle, h1', h2']
      · have hn' : ¬ (it.idx + c ≤ k * N + j) := by omega
        rw [c3 j (by omega)]; simp [hle, hn'])
    (by intro i hi1 hi2; omega) (by omega)
  refine ⟨it.idx + c, ⟨ptr, idx, n * N, w', maskOf N (!v)⟩, ?_, hfirst, e2⟩
  rw [Iter.nextAndFlip, if_neg hc]
  simp only [hcdef, em, h.end, h.mask, maskOf_flip, h3, h2, e1, Option.bind_eq_bind, Option.bind_some]

theorem collect_spec (o : Order) {data : List (BitVec N)} {n : Nat} (hN : 0 < N) (hn : n ≤ data.length) :
    ∀ (fuel pos : Nat) (it : Iter N), Repr o data n pos false it → n * N ≤ fuel + pos →
    it.collect o data fuel = some ((List.range' pos (n * N - pos)).filter (bitAt o data)) := by
  have htarget : ∀ i, target o data false i = bitAt o data i := by
    intro i; unfold target; cases bitAt o data i <;> rfl
  have hempty : ∀ pos (it : Iter N), Repr o data n pos false it → it.hasNext = false →
      (List.range' pos (n * N - pos)).filter (bitAt o data) = [] := by
    intro pos it h hh
    rw [List.filter_eq_nil_iff]
    intro i hi
    rw [List.mem_range'_1] at hi
    have hc : it.current = 0 := by simpa [Iter.hasNext] using hh
    have := h.none hc i hi.1 (by omega)
    rw [htarget] at this
    simp [this]
  intro fuel
  induction fuel with
  | zero =>
    intro pos it h hf
    rw [Iter.collect]
    have hno : it.hasNext = false := by
      cases hh : it.hasNext with
      | false => rfl
      | true =>
        obtain ⟨i, h1, h2, _⟩ := (hasNext_iff o h hn).1 hh
        omega
    rw [hempty pos it h hno]; simp [hno]
  | succ fuel ih =>
    intro pos it h hf
    rw [Iter.collect]
    cases hh : it.hasNext with
    | false => rw [hempty pos it h hh]; simp
    | true =>
      obtain ⟨i, it', e1, ⟨f1, f2, f3, f4⟩, e3⟩ := next_spec o hN hn h hh
      have hrec := ih (i + 1) it' e3 (by omega)
      simp only [if_true, e1, hrec, Option.bind_eq_bind, Option.bind_some]
      have hsplit : List.range' pos (n * N - pos) =
          List.range' pos (i - pos) ++ i :: List.range' (i + 1) (n * N - (i + 1)) := by
        have e : n * N - pos = (i - pos) + ((n * N - (i + 1)) + 1) := by omega
        rw [e, ← List.range'_append_1, List.range'_succ]
        congr 2
        · omega
        · congr 1; omega
      rw [hsplit, List.filter_append, List.filter_cons]
      have hb : bitAt o data i = true := by rw [← htarget]; exact f3
      rw [if_pos hb]
      have hnil : (List.range' pos (i - pos)).filter (bitAt o data) = [] := by
        rw [List.filter_eq_nil_iff]
        intro j hj
        rw [List.mem_range'_1] at hj
        have := f4 j hj.1 (by omega)
        rw [htarget] at this
        simp [this]
      rw [hnil]; rfl

/-- **C41.** Iterating over a bit vector from any start position returns exactly the
positions of the set bits from there on, in increasing order, each once, without an
access outside the buffer. -/
theorem C41_iterator (o : Order) (hN : 0 < N) (data : List (BitVec N)) (start : Nat) :
    ∃ it, Iter.init o data data.length start 0 = some it ∧
      it.collect o data (data.length * N) =
        some ((List.range' start (data.length * N - start)).filter (bitAt o data)) := by
  obtain ⟨it, e1, e2⟩ := init_spec o data (Nat.le_refl _) hN start false
  exact ⟨it, e1, collect_spec o hN (Nat.le_refl _) _ _ it e2 (by omega)⟩

example : ((Iter.init .msb [0x81#8, 0#8, 0x10#8] 3 1 0).bind fun it => it.collect .msb [0x81#8, 0#8, 0x10#8] 24) =
    some [7, 19] := by decide

/-- Position `i` starts a new run of equal bits, if the bit before `start` had the value `v`. -/
def boundary (o : Order) (data : List (BitVec N)) (start : Nat) (v : Bool) (i : Nat) : Bool :=
  bitAt o data i != (if i = start then v else bitAt o data (i - 1))

theorem collectFlips_spec (o : Order) {data : List (BitVec N)} {n : Nat} (hN : 0 < N) (hn : n ≤ data.length) :
    ∀ (fuel pos : Nat) (v : Bool) (it : Iter N), Repr o data n pos v it →
    n * N + (if target o data v pos then 1 else 0) ≤ fuel + pos →
    it.collectFlips o data fuel = some ((List.range' pos (n * N - pos)).filter (boundary o data pos v)) := by
  have hsame : ∀ v i, target o data v i = false → bitAt o data i = v := by
    intro v i h; unfold target at h; revert h; cases bitAt o data i <;> cases v <;> simp
  have hnb : ∀ pos v e, (∀ j, pos ≤ j → j < e → target o data v j = false) →
      (List.range' pos (e - pos)).filter (boundary o data pos v) = [] := by
    intro pos v e h
    rw [List.filter_eq_nil_iff]
    intro i hi
    rw [List.mem_range'_1] at hi
    have h1 := hsame v i (h i hi.1 (by omega))
    unfold boundary
    rw [h1]
    by_cases hip : i = pos
    · simp [hip]
    · rw [if_neg hip, hsame v (i - 1) (h (i - 1) (by omega) (by omega))]; simp
  have hempty : ∀ pos v (it : Iter N), Repr o data n pos v it → it.hasNext = false →
      (List.range' pos (n * N - pos)).filter (boundary o data pos v) = [] := by
    intro pos v it h hh
    have hc : it.current = 0 := by simpa [Iter.hasNext] using hh
    exact hnb pos v (n * N) (fun j h1 h2 => h.none hc j h1 h2)
  intro fuel
  induction fuel with
  | zero =>
    intro pos v it h hf
    rw [Iter.collectFlips]
    have hno : it.hasNext = false := by
      cases hh : it.hasNext with
      | false => rfl
      | true =>
        obtain ⟨i, h1, h2, _⟩ := (hasNext_iff o h hn).1 hh
        split at hf <;> omega
    rw [hempty pos v it h hno]; simp [hno]
  | succ fuel ih =>
    intro pos v it h hf
    rw [Iter.collectFlips]
    cases hh : it.hasNext with
    | false => rw [hempty pos v it h hh]; simp
    | true =>
      obtain ⟨i, it', e1, ⟨f1, f2, f3, f4⟩, e3⟩ := nextAndFlip_spec o hN hn h hh
      have hflip : target o data (!v) i = false := by rw [target_flip, f3]; rfl
      have hrec := ih i (!v) it' e3 (by
        rw [hflip]
        by_cases hip : i = pos
        · subst hip; rw [f3] at hf; simp at hf ⊢; omega
        · simp only [Bool.false_eq_true, if_false]
          split at hf <;> omega)
      simp only [if_true, e1, hrec, Option.bind_eq_bind, Option.bind_some]
      have hsplit : List.range' pos (n * N - pos) =
          List.range' pos (i - pos) ++ i :: List.range' (i + 1) (n * N - (i + 1)) := by
        have e : n * N - pos = (i - pos) + ((n * N - (i + 1)) + 1) := by omega
        rw [e, ← List.range'_append_1, List.range'_succ]
        congr 2
        · omega
        · congr 1; omega
      have hsplit2 : List.range' i (n * N - i) = i :: List.range' (i + 1) (n * N - (i + 1)) := by
        have e : n * N - i = (n * N - (i + 1)) + 1 := by omega
        rw [e, List.range'_succ]
      rw [hsplit, List.filter_append, List.filter_cons, hnb pos v i f4, hsplit2, List.filter_cons]
      have hbi : bitAt o data i = !v := by
        have := hsame (!v) i hflip; exact this
      have hb : boundary o data pos v i = true := by
        unfold boundary
        rw [hbi]
        by_cases hip : i = pos
        · simp [hip]
        · rw [if_neg hip, hsame v (i - 1) (f4 (i - 1) (by omega) (by omega))]; simp
      have hb2 : boundary o data i (!v) i = false := by unfold boundary; simp [hbi]
      rw [if_pos hb, if_neg (by simp [hb2]), List.nil_append]
      congr 2
      apply List.filter_congr
      intro j hj
      rw [List.mem_range'_1] at hj
      unfold boundary
      rw [if_neg (by omega), if_neg (by omega)]

/-- **C41.** The flip iterator returns exactly the positions where the bits change, beginning
at any start position and looking first for a set bit (`v = false`, mask zero) or first for a
clear bit (`v = true`, mask all ones). -/
theorem C41_flip_iterator (o : Order) (hN : 0 < N) (data : List (BitVec N)) (start : Nat) (v : Bool) :
    ∃ it, Iter.init o data data.length start (if v then BitVec.allOnes N else 0) = some it ∧
      it.collectFlips o data (data.length * N + 1) =
        some ((List.range' start (data.length * N - start)).filter (boundary o data start v)) := by
  obtain ⟨it, e1, e2⟩ := init_spec o data (Nat.le_refl _) hN start v
  exact ⟨it, e1, collectFlips_spec o hN (Nat.le_refl _) _ _ v it e2 (by split <;> omega)⟩

example : ((Iter.init .lsb [0x0C#8, 0#8, 0xF0#8] 3 1 0).bind fun it => it.collectFlips .lsb [0x0C#8, 0#8, 0xF0#8] 25) =
    some [2, 4, 20] := by decide

end Blend2D.BitOps
