import Verif.Feature.Bits
/-! # Insertion and removal of packed fields, as arithmetic -/
namespace Blend2D.Feature

/-- `(1 << o) - 1`. -/
def lsb (o : Nat) : UInt32 := ((1 : UInt32) <<< UInt32.ofNat o) - 1

theorem bitAt_testBit (x : UInt32) (i : Nat) : bitAt x i = x.toNat.testBit i := rfl

theorem lt32 (x : UInt32) : x.toNat < 2 ^ 32 := x.toNat_lt

theorem shl_toNat (x : UInt32) {o : Nat} (ho : o < 32) : (x <<< UInt32.ofNat o).toNat = x.toNat * 2 ^ o % 2 ^ 32 := by
  rw [UInt32.toNat_shiftLeft, shift_amount ho, Nat.shiftLeft_eq]

theorem shr_toNat (x : UInt32) {o : Nat} (ho : o < 32) : (x >>> UInt32.ofNat o).toNat = x.toNat / 2 ^ o := by
  rw [UInt32.toNat_shiftRight, shift_amount ho, Nat.shiftRight_eq_div_pow]

theorem pow_lt32 {o : Nat} (ho : o < 32) : 2 ^ o < 2 ^ 32 := Nat.pow_lt_pow_right (by omega) ho

theorem lsb_toNat {o : Nat} (ho : o < 32) : (lsb o).toNat = 2 ^ o - 1 := by
  have h1 : ((1 : UInt32) <<< UInt32.ofNat o).toNat = 2 ^ o := by
    rw [shl_toNat _ ho, show (1 : UInt32).toNat = 1 from rfl, Nat.one_mul, Nat.mod_eq_of_lt (pow_lt32 ho)]
  have hp : 0 < 2 ^ o := Nat.two_pow_pos o
  rw [lsb, UInt32.toNat_sub_of_le, h1]
  · rfl
  · rw [UInt32.le_iff_toNat_le, h1]; exact hp

theorem bitAt_lsb {o : Nat} (ho : o < 32) (j : Nat) : bitAt (lsb o) j = decide (j < o) := by
  rw [bitAt_testBit, lsb_toNat ho, Nat.testBit_two_pow_sub_one]

theorem and_lsb (x : UInt32) {o : Nat} (ho : o < 32) : (x &&& lsb o).toNat = x.toNat % 2 ^ o := by
  rw [UInt32.toNat_and, lsb_toNat ho, Nat.and_two_pow_sub_one_eq_mod]

theorem and_not_lsb (x : UInt32) {o : Nat} (ho : o < 32) : (x &&& ~~~lsb o).toNat = x.toNat / 2 ^ o * 2 ^ o := by
  have e : x &&& ~~~lsb o = (x >>> UInt32.ofNat o) <<< UInt32.ofNat o := by
    apply bitAt_ext
    intro j hj
    rw [bitAt_and, bitAt_not _ hj, bitAt_lsb ho, bitAt_shl _ ho, bitAt_shr _ ho]
    by_cases h : j < o
    · simp [h]
    · simp [h, hj, Nat.add_sub_cancel' (Nat.not_lt.1 h)]
  rw [e, shl_toNat _ ho, shr_toNat _ ho]
  exact Nat.mod_eq_of_lt (Nat.lt_of_le_of_lt (Nat.div_mul_le_self _ _) (lt32 x))

theorem or_add {a b o : Nat} (ha : a < 2 ^ o) : a ||| (b * 2 ^ o) = a + b * 2 ^ o := by
  have := Nat.two_pow_add_eq_or_of_lt ha b
  rw [Nat.or_comm, Nat.mul_comm, ← this]; omega

theorem mod_pow_mul {x o : Nat} (ho : o ≤ 32) : x * 2 ^ o % 2 ^ 32 = x % 2 ^ (32 - o) * 2 ^ o := by
  have h : 2 ^ 32 = 2 ^ (32 - o) * 2 ^ o := by rw [← Nat.pow_add]; congr 1; omega
  rw [h, Nat.mul_mod_mul_right]

/-- Insertion of a field of `s` bits at bit `o`: what is above moves up. -/
theorem insert_toNat (t v : UInt32) {o s : Nat} (h : o + s ≤ 32) (hs : 0 < s) (ho : o < 32) (hs' : s < 32) (hv : v.toNat < 2 ^ s) :
    ((t &&& lsb o) ||| ((t &&& ~~~lsb o) <<< UInt32.ofNat s) ||| (v <<< UInt32.ofNat o)).toNat =
      t.toNat % 2 ^ o + v.toNat * 2 ^ o + t.toNat / 2 ^ o * 2 ^ (o + s) % 2 ^ 32 := by
  have hv2 : v.toNat * 2 ^ o < 2 ^ (o + s) := by
    rw [Nat.pow_add, Nat.mul_comm]; exact Nat.mul_lt_mul_of_pos_left hv (Nat.two_pow_pos o)
  have hv3 : v.toNat * 2 ^ o < 2 ^ 32 := Nat.lt_of_lt_of_le hv2 (Nat.pow_le_pow_right (by omega) h)
  have ha : t.toNat % 2 ^ o < 2 ^ o := Nat.mod_lt _ (Nat.two_pow_pos o)
  rw [UInt32.toNat_or, UInt32.toNat_or, and_lsb _ ho, shl_toNat _ hs', and_not_lsb _ ho, shl_toNat _ ho, Nat.mod_eq_of_lt hv3,
    Nat.or_assoc, Nat.or_comm (_ % 2 ^ 32), ← Nat.or_assoc, or_add ha]
  have e : t.toNat / 2 ^ o * 2 ^ o * 2 ^ s = t.toNat / 2 ^ o * 2 ^ (o + s) := by rw [Nat.mul_assoc, ← Nat.pow_add]
  rw [e, mod_pow_mul h, or_add]
  calc t.toNat % 2 ^ o + v.toNat * 2 ^ o < 2 ^ o + v.toNat * 2 ^ o := by omega
    _ = (v.toNat + 1) * 2 ^ o := by rw [Nat.add_mul]; omega
    _ ≤ 2 ^ s * 2 ^ o := Nat.mul_le_mul_right _ hv
    _ = 2 ^ (o + s) := by rw [← Nat.pow_add, Nat.add_comm]

/-- Removal of a field of eight bits at bit `o`: what is above moves down, and the highest becomes 255. -/
theorem removeTag_toNat (t : UInt32) {o : Nat} (ho : o < 32) (ho' : o ≤ 24) :
    ((t &&& lsb o) ||| ((t >>> 8) &&& ~~~lsb o) ||| ((255 : UInt32) <<< 24)).toNat =
      t.toNat % 2 ^ o + t.toNat / 256 / 2 ^ o * 2 ^ o + 255 * 2 ^ 24 := by
  have ha : t.toNat % 2 ^ o < 2 ^ o := Nat.mod_lt _ (Nat.two_pow_pos o)
  have e8 : (t >>> 8).toNat = t.toNat / 256 := by
    have := shr_toNat t (o := 8) (by omega)
    simpa using this
  have e24 : ((255 : UInt32) <<< 24).toNat = 255 * 2 ^ 24 := by decide
  rw [UInt32.toNat_or, UInt32.toNat_or, and_lsb _ ho, and_not_lsb _ ho, e8, e24, or_add ha, or_add]
  have h1 : t.toNat / 256 < 2 ^ 24 := by have := lt32 t; omega
  have h2 : t.toNat / 256 / 2 ^ o < 2 ^ (24 - o) := by
    rw [Nat.div_lt_iff_lt_mul (Nat.two_pow_pos o), ← Nat.pow_add]
    rwa [Nat.sub_add_cancel ho']
  calc t.toNat % 2 ^ o + t.toNat / 256 / 2 ^ o * 2 ^ o < 2 ^ o + t.toNat / 256 / 2 ^ o * 2 ^ o := by omega
    _ = (t.toNat / 256 / 2 ^ o + 1) * 2 ^ o := by rw [Nat.add_mul]; omega
    _ ≤ 2 ^ (24 - o) * 2 ^ o := Nat.mul_le_mul_right _ h2
    _ = 2 ^ 24 := by rw [← Nat.pow_add, Nat.sub_add_cancel ho']

/-- Removal of a value, as the code does it. -/
theorem removeVal_toNat (t : UInt32) {o p : Nat} (ho : o < 32) (hp : p < 32) (hop : o ≤ p) :
    ((t &&& lsb o) ||| ((t >>> 4) &&& ~~~lsb p)).toNat = t.toNat % 2 ^ o + t.toNat / 16 / 2 ^ p * 2 ^ p := by
  have ha : t.toNat % 2 ^ o < 2 ^ p := Nat.lt_of_lt_of_le (Nat.mod_lt _ (Nat.two_pow_pos o)) (Nat.pow_le_pow_right (by omega) hop)
  have e4 : (t >>> 4).toNat = t.toNat / 16 := by
    have := shr_toNat t (o := 4) (by omega)
    simpa using this
  rw [UInt32.toNat_or, and_lsb _ ho, and_not_lsb _ hp, e4, or_add ha]

/-- Taking a field of four bits out of a word. -/
theorem clear_toNat (t : UInt32) {o : Nat} (ho : o + 4 < 32) :
    (t &&& ~~~((15 : UInt32) <<< UInt32.ofNat o)).toNat = t.toNat % 2 ^ o + t.toNat / 2 ^ (o + 4) * 2 ^ (o + 4) := by
  have e : t &&& ~~~((15 : UInt32) <<< UInt32.ofNat o) = (t &&& lsb o) ||| (t &&& ~~~lsb (o + 4)) := by
    apply bitAt_ext
    intro j hj
    have h15 : (15 : UInt32) = lsb 4 := by decide
    rw [bitAt_and, bitAt_not _ hj, bitAt_shl _ (by omega), h15, bitAt_lsb (by omega), bitAt_or, bitAt_and, bitAt_and, bitAt_not _ hj,
      bitAt_lsb (by omega), bitAt_lsb ho]
    by_cases h1 : j < o
    · simp [h1]
      intro h _
      exact h
    · by_cases h2 : j < o + 4
      · have : j - o < 4 := by omega
        simp [h1, h2, this, hj]
      · have : ¬ j - o < 4 := by omega
        simp [h1, h2, this]
  have ha : t.toNat % 2 ^ o < 2 ^ (o + 4) :=
    Nat.lt_of_lt_of_le (Nat.mod_lt _ (Nat.two_pow_pos o)) (Nat.pow_le_pow_right (by omega) (by omega))
  rw [e, UInt32.toNat_or, and_lsb _ (by omega), and_not_lsb _ ho, or_add ha]

/-- Storing a field of four bits. -/
theorem update_toNat (t v : UInt32) {o : Nat} (ho : o + 4 < 32) (hv : v.toNat < 16) :
    ((t &&& ~~~((15 : UInt32) <<< UInt32.ofNat o)) ||| (v <<< UInt32.ofNat o)).toNat =
      t.toNat % 2 ^ o + v.toNat * 2 ^ o + t.toNat / 2 ^ (o + 4) * 2 ^ (o + 4) := by
  have ha : t.toNat % 2 ^ o < 2 ^ o := Nat.mod_lt _ (Nat.two_pow_pos o)
  have hv2 : v.toNat * 2 ^ o < 2 ^ (o + 4) := by
    rw [Nat.pow_add, Nat.mul_comm]; exact Nat.mul_lt_mul_of_pos_left hv (Nat.two_pow_pos o)
  have hv3 : v.toNat * 2 ^ o < 2 ^ 32 := Nat.lt_of_lt_of_le hv2 (Nat.pow_le_pow_right (by omega) (by omega))
  have ha4 : t.toNat % 2 ^ o < 2 ^ (o + 4) := Nat.lt_of_lt_of_le ha (Nat.pow_le_pow_right (by omega) (by omega))
  rw [UInt32.toNat_or, clear_toNat _ ho, shl_toNat _ (by omega), Nat.mod_eq_of_lt hv3, ← or_add ha4, Nat.or_assoc,
    Nat.or_comm (_ * 2 ^ (o + 4)), ← Nat.or_assoc, or_add ha, or_add]
  calc t.toNat % 2 ^ o + v.toNat * 2 ^ o < 2 ^ o + v.toNat * 2 ^ o := by omega
    _ = (v.toNat + 1) * 2 ^ o := by rw [Nat.add_mul]; omega
    _ ≤ 2 ^ 4 * 2 ^ o := Nat.mul_le_mul_right _ hv
    _ = 2 ^ (o + 4) := by rw [← Nat.pow_add, Nat.add_comm]

/-- Storing into a field of four bits that is zero. -/
theorem orVal_toNat (t v : UInt32) {o : Nat} (ho : o + 4 < 32) (hv : v.toNat < 16) (hz : t.toNat / 2 ^ o % 16 = 0) :
    (t ||| (v <<< UInt32.ofNat o)).toNat = t.toNat + v.toNat * 2 ^ o := by
  have e0 : t.toNat = t.toNat % 2 ^ o + t.toNat / 2 ^ (o + 4) * 2 ^ (o + 4) := by
    have h1 := Nat.mod_add_div t.toNat (2 ^ o)
    have h2 := Nat.mod_add_div (t.toNat / 2 ^ o) 16
    rw [hz, Nat.div_div_eq_div_mul] at h2
    have e : 2 ^ (o + 4) = 2 ^ o * 16 := by rw [Nat.pow_add]
    rw [e]
    rw [← h2] at h1
    rw [Nat.zero_add, ← Nat.mul_assoc, Nat.mul_comm] at h1
    omega
  have e : t = t &&& ~~~((15 : UInt32) <<< UInt32.ofNat o) := UInt32.toNat_inj.1 (by rw [clear_toNat _ ho]; exact e0)
  have := update_toNat t v ho hv
  rw [← e] at this
  rw [this]
  omega

/-- Storing a field of eight bits where all bits are set. -/
theorem xorTag_toNat (t v : UInt32) {o : Nat} (ho : o < 32) (ho' : o ≤ 24) (hv : v.toNat < 256) (hz : t.toNat / 2 ^ o % 256 = 255) :
    (t ^^^ ((v ^^^ 255) <<< UInt32.ofNat o)).toNat = t.toNat - 255 * 2 ^ o + v.toNat * 2 ^ o ∧ 255 * 2 ^ o ≤ t.toNat := by
  obtain ⟨lo, hlo⟩ : ∃ x, x = t.toNat % 2 ^ o := ⟨_, rfl⟩
  obtain ⟨hi, hhi⟩ : ∃ x, x = t.toNat / 2 ^ (o + 8) := ⟨_, rfl⟩
  have hlt : lo < 2 ^ o := hlo ▸ Nat.mod_lt _ (Nat.two_pow_pos o)
  have e8 : 2 ^ (o + 8) = 256 * 2 ^ o := by rw [Nat.pow_add, Nat.mul_comm]
  have e0 : t.toNat = lo + (255 + hi * 256) * 2 ^ o := by
    have h1 := Nat.mod_add_div t.toNat (2 ^ o)
    have h2 := Nat.mod_add_div (t.toNat / 2 ^ o) 256
    rw [hz, Nat.div_div_eq_div_mul, ← Nat.pow_add (n := 8) (a := 2) (m := o), ← hhi] at h2
    rw [hlo, ← Nat.mul_comm 256 hi, h2, Nat.mul_comm]
    exact h1.symm
  have tb : ∀ j, t.toNat.testBit j = if j < o then lo.testBit j else (255 + hi * 256).testBit (j - o) := by
    intro j
    rw [e0, Nat.add_comm, Nat.mul_comm, Nat.testBit_two_pow_mul_add _ hlt]
  have key : ∀ w, w < 256 → ∀ j, (lo + (w + hi * 256) * 2 ^ o).testBit j = if j < o then lo.testBit j else (w + hi * 256).testBit (j - o) := by
    intro w _ j
    rw [Nat.add_comm, Nat.mul_comm, Nat.testBit_two_pow_mul_add _ hlt]
  have e : (t ^^^ ((v ^^^ 255) <<< UInt32.ofNat o)).toNat = lo + (v.toNat + hi * 256) * 2 ^ o := by
    have hw : v.toNat ^^^ 255 < 2 ^ 8 := Nat.xor_lt_two_pow hv (by omega)
    have hw2 : (v.toNat ^^^ 255) * 2 ^ o < 2 ^ 32 := by
      calc (v.toNat ^^^ 255) * 2 ^ o < 2 ^ 8 * 2 ^ o := Nat.mul_lt_mul_of_pos_right hw (Nat.two_pow_pos o)
        _ = 2 ^ (8 + o) := by rw [← Nat.pow_add]
        _ ≤ 2 ^ 32 := Nat.pow_le_pow_right (by omega) (by omega)
    rw [UInt32.toNat_xor, shl_toNat _ ho, UInt32.toNat_xor, show (255 : UInt32).toNat = 255 from rfl, Nat.mod_eq_of_lt hw2]
    apply Nat.eq_of_testBit_eq
    intro j
    rw [Nat.testBit_xor, tb, key _ hv, Nat.testBit_mul_two_pow]
    by_cases h : j < o
    · have : ¬ o ≤ j := by omega
      simp [h, this]
    · have h' : o ≤ j := by omega
      simp only [h, h', if_false, decide_true, Bool.true_and, Nat.testBit_xor]
      have f : ∀ w, w < 256 → (w + hi * 256).testBit (j - o) = if j - o < 8 then w.testBit (j - o) else hi.testBit (j - o - 8) := by
        intro w hw
        have := Nat.testBit_two_pow_mul_add (i := 8) hi (b := w) (by simpa using hw) (j - o)
        rw [Nat.add_comm, Nat.mul_comm]
        exact this
      rw [f _ (by omega), f _ hv]
      by_cases h8 : j - o < 8
      · have : Nat.testBit 255 (j - o) = true := by
          have := Nat.testBit_two_pow_sub_one 8 (j - o)
          simpa [h8] using this
        simp [h8, this]
      · have h1 : Nat.testBit 255 (j - o) = false := by
          have := Nat.testBit_two_pow_sub_one 8 (j - o)
          simpa [h8] using this
        have h2 : v.toNat.testBit (j - o) = false := by
          apply Nat.testBit_lt_two_pow
          exact Nat.lt_of_lt_of_le (by simpa using hv : v.toNat < 2 ^ 8) (Nat.pow_le_pow_right (by omega) (by omega))
        simp [h8, h1, h2]
  rw [e, e0]
  have h1 : (255 + hi * 256) * 2 ^ o = 255 * 2 ^ o + hi * 256 * 2 ^ o := Nat.add_mul ..
  have h2 : (v.toNat + hi * 256) * 2 ^ o = v.toNat * 2 ^ o + hi * 256 * 2 ^ o := Nat.add_mul ..
  omega

end Blend2D.Feature
