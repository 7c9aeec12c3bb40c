import Verif.Feature.Model
import Verif.BitOps.Props
/-! # The words of an instance: bit masks and packed fields -/
namespace Blend2D.Feature

/-! ### Bit masks -/

/-- Bit `i` of a word. -/
def bitAt (x : UInt32) (i : Nat) : Bool := x.toBitVec.getLsbD i

theorem bitAt_ge (x : UInt32) {i : Nat} (h : 32 ≤ i) : bitAt x i = false := BitVec.getLsbD_of_ge _ _ h

theorem bitAt_ext {x y : UInt32} (h : ∀ i < 32, bitAt x i = bitAt y i) : x = y :=
  UInt32.toBitVec_inj.1 (BitVec.eq_of_getLsbD_eq h)

theorem bitAt_zero (i : Nat) : bitAt 0 i = false := by simp [bitAt]

theorem shift_amount {i : Nat} (h : i < 32) : (UInt32.ofNat i).toNat % 32 = i := by
  rw [UInt32.toNat_ofNat_of_lt' (by simp [UInt32.size]; omega)]; omega

theorem bitAt_shl (v : UInt32) {i : Nat} (hi : i < 32) (j : Nat) :
    bitAt (v <<< UInt32.ofNat i) j = (decide (j < 32) && !decide (j < i) && bitAt v (j - i)) := by
  simp [bitAt, UInt32.toBitVec_shiftLeft, Nat.mod_eq_of_lt hi]

theorem bitAt_shr (v : UInt32) {i : Nat} (hi : i < 32) (j : Nat) : bitAt (v >>> UInt32.ofNat i) j = bitAt v (i + j) := by
  simp [bitAt, UInt32.toBitVec_shiftRight, Nat.mod_eq_of_lt hi]

theorem bitAt_or (x y : UInt32) (j : Nat) : bitAt (x ||| y) j = (bitAt x j || bitAt y j) := by simp [bitAt]
theorem bitAt_and (x y : UInt32) (j : Nat) : bitAt (x &&& y) j = (bitAt x j && bitAt y j) := by simp [bitAt]
theorem bitAt_not (x : UInt32) {j : Nat} (h : j < 32) : bitAt (~~~x) j = !bitAt x j := by simp [bitAt, h]
theorem bitAt_one (j : Nat) : bitAt 1 j = decide (j = 0) := by
  simp [bitAt, BitVec.getLsbD_one]

/-- A value of a bit feature. -/
def bit (b : Bool) : UInt32 := if b then 1 else 0

theorem bit_of_le {v : UInt32} (h : ¬ v > 1) : ∃ b, v = bit b := by
  have : v.toNat ≤ 1 := by
    have := h; simp only [gt_iff_lt, UInt32.lt_iff_toNat_lt] at this; simpa using this
  rcases (by omega : v.toNat = 0 ∨ v.toNat = 1) with h | h
  · exact ⟨false, UInt32.toNat_inj.1 h⟩
  · exact ⟨true, UInt32.toNat_inj.1 h⟩

theorem bitAt_bit (b : Bool) (j : Nat) : bitAt (bit b) j = (b && decide (j = 0)) := by
  cases b
  · simp [bit, bitAt_zero]
  · simp [bit, bitAt_one]

theorem bitAt_bitShl (b : Bool) {i : Nat} (hi : i < 32) (j : Nat) : bitAt (bit b <<< UInt32.ofNat i) j = (b && decide (j = i)) := by
  rw [bitAt_shl _ hi, bitAt_bit]
  by_cases h : j = i
  · subst h; simp [hi]
  · have : ¬ (j - i = 0 ∧ i ≤ j) := by omega
    cases b
    · simp [h]
    · by_cases h2 : j < i
      · simp [h2, h]
      · have : j - i ≠ 0 := by omega
        simp [this, h]

theorem bitAt_oneShl {i : Nat} (hi : i < 32) (j : Nat) : bitAt ((1 : UInt32) <<< UInt32.ofNat i) j = decide (j = i) := by
  have := bitAt_bitShl true hi j
  simpa [bit] using this

/-- Reading a bit. -/
theorem shr_and_one (x : UInt32) {i : Nat} (hi : i < 32) : (x >>> UInt32.ofNat i) &&& 1 = bit (bitAt x i) := by
  apply bitAt_ext
  intro j hj
  rw [bitAt_and, bitAt_shr _ hi, bitAt_one, bitAt_bit]
  by_cases h : j = 0
  · subst h; simp
  · simp [h]

theorem bit_ne_zero (b : Bool) : (bit b != 0) = b := by cases b <;> rfl

/-! ### The bit iterator -/

theorem bitAt_toBitVec (x : UInt32) (i : Nat) : BitOps.hasBit .lsb x.toBitVec i = bitAt x i := rfl

theorem filter_range'_none {p : Nat → Bool} : ∀ (n a : Nat), (∀ k, a ≤ k → k < a + n → p k = false) → (List.range' a n).filter p = [] := by
  intro n a h
  rw [List.filter_eq_nil_iff]
  intro k hk
  rw [List.mem_range'_1] at hk
  simp [h k hk.1 hk.2]

/-- The iterator delivers the indices of all bits, in increasing order. -/
theorem bitList_from : ∀ (fuel a : Nat) (x : BitVec 32), a ≤ 32 → 32 - a ≤ fuel → (∀ k < a, x.getLsbD k = false) →
    bitList fuel x = (List.range' a (32 - a)).filter (fun i => x.getLsbD i) := by
  intro fuel
  induction fuel with
  | zero =>
    intro a x ha hf h0
    have : 32 - a = 0 := by omega
    rw [this]
    rfl
  | succ fuel ih =>
    intro a x ha hf h0
    rw [bitList]
    by_cases hx : x = 0
    · subst hx
      rw [if_pos rfl, filter_range'_none]
      intro k _ _
      simp
    · rw [if_neg hx]
      obtain ⟨c1, c2, c3⟩ := BitOps.countZeros_spec .lsb hx
      obtain ⟨c, hc⟩ : ∃ c, c = BitOps.countZerosFromStart .lsb x := ⟨_, rfl⟩
      rw [← hc] at c1 c2 c3
      simp only [← hc]
      have hac : a ≤ c := by
        rcases Nat.lt_or_ge c a with h | h
        · have := h0 c h
          have c2' : x.getLsbD c = true := c2
          rw [this] at c2'; simp at c2'
        · exact h
      obtain ⟨y, hy⟩ : ∃ y, y = x ^^^ (1#32 <<< c) := ⟨_, rfl⟩
      rw [← hy]
      have hybit : ∀ k < 32, y.getLsbD k = (x.getLsbD k && !decide (k = c)) := by
        intro k hk
        have : (1#32 <<< c).getLsbD k = decide (k = c) := by
          obtain ⟨z, hz, hb⟩ := BitOps.hasBit_indexMask (N := 32) .lsb c1
          simp only [BitOps.indexMask, if_pos c1, Option.some.injEq] at hz
          subst hz
          exact hb k hk
        rw [hy, BitVec.getLsbD_xor, this]
        by_cases h : k = c
        · subst h
          have c2' : x.getLsbD k = true := c2
          simp [c2']
        · simp [h]
      rw [ih (c + 1) y (by omega) (by omega) (fun k hk => by
        rw [hybit k (by omega)]
        by_cases h : k = c
        · simp [h]
        · have := c3 k (by omega)
          have c3' : x.getLsbD k = false := this
          simp [c3'])]
      have e1 : List.range' a (32 - a) = List.range' a (c - a) ++ c :: List.range' (c + 1) (32 - (c + 1)) := by
        have h1 : 32 - a = (c - a) + ((32 - (c + 1)) + 1) := by omega
        rw [h1, ← List.range'_append_1, List.range'_succ]
        congr 2 <;> congr 1 <;> omega
      rw [e1, List.filter_append, filter_range'_none (p := fun i => x.getLsbD i) _ _ (fun k h1 h2 => c3 k (by omega)), List.nil_append,
        List.filter_cons_of_pos (by exact c2)]
      congr 1
      apply List.filter_congr
      intro k hk
      rw [List.mem_range'_1] at hk
      rw [hybit k (by omega)]
      have : k ≠ c := by omega
      simp [this]

theorem bitList_eq (x : UInt32) : bitList 32 x.toBitVec = (List.range 32).filter (bitAt x) := by
  rw [bitList_from 32 0 x.toBitVec (by omega) (by omega) (fun k hk => by omega), List.range_eq_range']
  rfl

/-- How many bits there are. -/
def count (x : UInt32) : Nat := ((List.range 32).filter (bitAt x)).length

theorem count_le (x : UInt32) : count x ≤ 32 := by
  have := List.length_filter_le (bitAt x) (List.range 32)
  rwa [List.length_range] at this

theorem length_filter_insert {p q : Nat → Bool} {b : Nat} : ∀ (l : List Nat), l.Nodup → b ∈ l → p b = false → q b = true →
    (∀ k, k ≠ b → q k = p k) → (l.filter q).length = (l.filter p).length + 1 := by
  intro l
  induction l with
  | nil => intro _ h; simp at h
  | cons a l ih =>
    intro hn hb hp hq he
    rw [List.nodup_cons] at hn
    by_cases h : a = b
    · subst h
      rw [List.filter_cons_of_pos hq, List.filter_cons_of_neg (by rw [hp]; simp), List.length_cons]
      congr 1
      have : l.filter q = l.filter p := List.filter_congr (fun k hk => he k (fun h => hn.1 (h ▸ hk)))
      rw [this]
    · have hb' : b ∈ l := by
        rcases List.mem_cons.1 hb with h' | h'
        · exact absurd h'.symm h
        · exact h'
      have := ih hn.2 hb' hp hq he
      rw [List.filter_cons, List.filter_cons, he a h]
      split
      · simp only [List.length_cons]; omega
      · exact this

theorem count_add {x y : UInt32} {b : Nat} (hb : b < 32) (hx : bitAt x b = false) (hy : bitAt y b = true)
    (h : ∀ k, k ≠ b → bitAt y k = bitAt x k) : count y = count x + 1 :=
  length_filter_insert (List.range 32) List.nodup_range (List.mem_range.2 hb) hx hy h

end Blend2D.Feature
