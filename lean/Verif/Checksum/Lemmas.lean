import Verif.Checksum.Model
import Verif.Checksum.Spec
/-! Proof machinery for the checksum properties. -/
namespace Blend2D.Checksum
open Spec

/-! ## Adler-32 -/

/-- Exact sums after some bytes. -/
def natSums (a b : Nat) : List UInt8 → Nat × Nat
  | [] => (a, b)
  | d :: ds => natSums (a + d.toNat) (b + (a + d.toNat)) ds

theorem natSums_append (xs ys : List UInt8) (a b : Nat) :
    natSums a b (xs ++ ys) = natSums (natSums a b xs).1 (natSums a b xs).2 ys := by
  induction xs generalizing a b with
  | nil => rfl
  | cons x xs ih => simp [natSums, ih]

theorem natSums_fst (xs : List UInt8) (a b : Nat) : (natSums a b xs).1 = a + byteSum xs := by
  induction xs generalizing a b with
  | nil => simp [natSums, byteSum]
  | cons x xs ih => simp [natSums, ih, byteSum]; omega

theorem sum_map_range_succ (f : Nat → Nat) (n : Nat) :
    ((List.range (n + 1)).map f).sum = f 0 + ((List.range n).map (fun i => f (i + 1))).sum := by
  rw [List.range_succ_eq_map]
  simp [Function.comp_def]

theorem natSums_snd (xs : List UInt8) (a b : Nat) :
    (natSums a b xs).2 =
      b + ((List.range xs.length).map (fun i => a + byteSum (xs.take (i + 1)))).sum := by
  induction xs generalizing a b with
  | nil => simp [natSums]
  | cons x xs ih =>
    simp only [natSums, ih, List.length_cons]
    rw [sum_map_range_succ]
    simp only [List.take_succ_cons, byteSum, List.map_cons, List.sum_cons, List.take_zero,
      List.map_nil, List.sum_nil]
    have : ∀ i, a + x.toNat + (List.map UInt8.toNat (List.take (i + 1) xs)).sum =
      a + (x.toNat + (List.map UInt8.toNat (List.take (i + 1) xs)).sum) := by intro i; omega
    simp only [this]
    omega

theorem natSums_mono_fst (xs : List UInt8) (a b : Nat) : a ≤ (natSums a b xs).1 := by
  rw [natSums_fst]; omega

theorem natSums_bound (xs : List UInt8) (a b : Nat) :
    (natSums a b xs).1 ≤ a + 255 * xs.length ∧
    2 * (natSums a b xs).2 ≤ 2 * b + 2 * a * xs.length + 255 * (xs.length * (xs.length + 1)) := by
  induction xs generalizing a b with
  | nil => simp [natSums]
  | cons x xs ih =>
    simp only [natSums, List.length_cons]
    have hx : x.toNat < 256 := x.toNat_lt
    obtain ⟨h1, h2⟩ := ih (a + x.toNat) (b + (a + x.toNat))
    refine ⟨by omega, ?_⟩
    refine Nat.le_trans h2 ?_
    have e : (a + x.toNat) * xs.length ≤ (a + 255) * xs.length :=
      Nat.mul_le_mul_right _ (by omega)
    have e1 : 2 * (a + x.toNat) * xs.length = 2 * ((a + x.toNat) * xs.length) := by
      rw [Nat.mul_assoc]
    have e2 : (a + 255) * xs.length = a * xs.length + 255 * xs.length := Nat.add_mul ..
    have e3 : 2 * a * (xs.length + 1) = 2 * (a * xs.length) + 2 * a := by
      rw [Nat.mul_add, Nat.mul_assoc]; omega
    have e4 : (xs.length + 1) * (xs.length + 1 + 1) = xs.length * (xs.length + 1) + 2 * (xs.length + 1) := by
      rw [show xs.length + 1 + 1 = xs.length + 2 from rfl, Nat.mul_add, Nat.mul_comm (xs.length + 1) xs.length]
      omega
    rw [e1, e3, e4]
    omega

/-- The machine state represents the exact sums. -/
structure Rep (st : AState) (a b : Nat) (p : List UInt8) : Prop where
  s1 : st.s1.toNat = a
  s2 : st.s2.toNat = b
  p : st.p = p

theorem adlerByte_rep {st a b x xs} (h : Rep st a b (x :: xs))
    (hb : b + (a + x.toNat) < 2 ^ 32) :
    ∃ st', adlerByte st = some st' ∧ Rep st' (a + x.toNat) (b + (a + x.toNat)) xs := by
  obtain ⟨h1, h2, h3⟩ := h
  refine ⟨_, by simp only [adlerByte, h3]; rfl, ?_, ?_, rfl⟩
  · simp only [UInt32.toNat_add, h1, UInt8.toNat_toUInt32]; omega
  · simp only [UInt32.toNat_add, h1, h2, UInt8.toNat_toUInt32]; omega

theorem natSums_snd_mono (xs : List UInt8) (a b : Nat) : b ≤ (natSums a b xs).2 := by
  rw [natSums_snd]; omega

theorem adlerTail_rep (k : Nat) : ∀ {st a b p}, Rep st a b p → k ≤ p.length →
    (natSums a b (p.take k)).2 < 2 ^ 32 →
    ∃ st', adlerTail k st = some st' ∧
      Rep st' (natSums a b (p.take k)).1 (natSums a b (p.take k)).2 (p.drop k) := by
  induction k with
  | zero => intro st a b p h _ _; exact ⟨st, rfl, by simpa [natSums] using h⟩
  | succ k ih =>
    intro st a b p h hk hb
    match p, h, hk, hb with
    | x :: xs, h, hk, hb =>
      simp only [List.take_succ_cons, natSums] at hb
      have hb' := natSums_snd_mono (xs.take k) (a + x.toNat) (b + (a + x.toNat))
      obtain ⟨st1, e1, r1⟩ := adlerByte_rep h (by omega)
      obtain ⟨st2, e2, r2⟩ := ih r1 (by simpa using hk) hb
      exact ⟨st2, by simp [adlerTail, e1, e2], by simpa [natSums] using r2⟩

theorem adlerTail_add (m n : Nat) (st : AState) :
    adlerTail (m + n) st = (adlerTail m st).bind (adlerTail n) := by
  induction m generalizing st with
  | zero => simp [adlerTail]
  | succ m ih =>
    rw [Nat.succ_add]
    simp only [adlerTail]
    cases h : adlerByte st <;> simp [ih]

theorem adlerQuads_eq (n : Nat) (st : AState) : adlerQuads n st = adlerTail (4 * n) st := by
  induction n generalizing st with
  | zero => rfl
  | succ n ih =>
    rw [show 4 * (n + 1) = 4 * n + 1 + 1 + 1 + 1 by omega]
    simp only [adlerTail, adlerQuads, ih]

theorem adlerChunk_rep {st a b p} (h : Rep st a b p) (ha : a ≤ 65535) (hb : b ≤ 65535) :
    ∃ st', adlerChunk st = some st' ∧
      Rep st' ((natSums a b (p.take 5552)).1 % 65521) ((natSums a b (p.take 5552)).2 % 65521)
        (p.drop 5552) := by
  obtain ⟨h1, h2, rfl⟩ := h
  have hbound := (natSums_bound (st.p.take 5552) a b).2
  have hlen : (st.p.take 5552).length ≤ 5552 := by simp; omega
  have hlt : (natSums a b (st.p.take 5552)).2 < 2 ^ 32 := by
    have e1 : a * (st.p.take 5552).length ≤ 65535 * 5552 := Nat.mul_le_mul ha hlen
    have e2 : (st.p.take 5552).length * ((st.p.take 5552).length + 1) ≤ 5552 * 5553 :=
      Nat.mul_le_mul hlen (by omega)
    rw [Nat.mul_assoc 2 a] at hbound
    omega
  have htake : st.p.take (min st.p.length 5552) = st.p.take 5552 := by
    rw [List.take_eq_take_iff]; omega
  have hdrop : st.p.drop (min st.p.length 5552) = st.p.drop 5552 := by
    rcases Nat.le_total st.p.length 5552 with hh | hh
    · rw [Nat.min_eq_left hh, List.drop_length, List.drop_eq_nil_of_le hh]
    · rw [Nat.min_eq_right hh]
  obtain ⟨st', e, r1, r2, r3⟩ := adlerTail_rep (min st.p.length 5552) ⟨h1, h2, rfl⟩ (Nat.min_le_left ..)
    (by rw [htake]; exact hlt)
  rw [htake] at r1 r2
  rw [hdrop] at r3
  have key : ((adlerQuads (min st.p.length 5552 / 4) st).bind (adlerTail (min st.p.length 5552 % 4)))
      = some st' := by
    rw [adlerQuads_eq, ← adlerTail_add, Nat.div_add_mod, e]
  refine ⟨{ s1 := st'.s1 % kAdler32Divisor, s2 := st'.s2 % kAdler32Divisor, p := st'.p }, ?_, ?_, ?_, r3⟩
  · simp only [adlerChunk, kAdler32MaxBytesPerChunk]
    change ((adlerQuads _ st).bind fun x => (adlerTail _ x).bind _) = _
    rw [← Option.bind_assoc, key]
    rfl
  · simp [kAdler32Divisor, r1]
  · simp [kAdler32Divisor, r2]

theorem natSums_mod (xs : List UInt8) (a b a' b' : Nat) (ha : a % 65521 = a' % 65521)
    (hb : b % 65521 = b' % 65521) :
    (natSums a b xs).1 % 65521 = (natSums a' b' xs).1 % 65521 ∧
    (natSums a b xs).2 % 65521 = (natSums a' b' xs).2 % 65521 := by
  induction xs generalizing a b a' b' with
  | nil => exact ⟨ha, hb⟩
  | cons x xs ih =>
    simp only [natSums]
    exact ih _ _ _ _ (by omega) (by omega)

/-- Result of the loop: unchanged sums for the empty input, reduced sums otherwise. -/
theorem adlerLoop_rep (fuel : Nat) : ∀ {st a b p}, Rep st a b p → p.length ≤ fuel →
    a ≤ 65535 → b ≤ 65535 →
    ∃ st', adlerLoop fuel st = some st' ∧
      (p = [] → Rep st' a b []) ∧
      (p ≠ [] → Rep st' ((natSums a b p).1 % 65521) ((natSums a b p).2 % 65521) []) := by
  induction fuel with
  | zero =>
    intro st a b p h hl ha hb
    have : p = [] := by cases p <;> simp_all
    subst this
    have hp := h.p
    refine ⟨st, ?_, fun _ => h, fun hc => absurd rfl hc⟩
    unfold adlerLoop; simp [hp]
  | succ fuel ih =>
    intro st a b p h hl ha hb
    match p, h, hl with
    | [], h, _ =>
      have hp := h.p
      refine ⟨st, ?_, fun _ => h, fun hc => absurd rfl hc⟩
      unfold adlerLoop; simp [hp]
    | x :: xs, h, hl =>
      obtain ⟨st1, e1, r1⟩ := adlerChunk_rep h ha hb
      obtain ⟨st2, e2, r2, r3⟩ := ih r1 (by simp at hl ⊢; omega) (by omega) (by omega)
      refine ⟨st2, ?_, (fun hc => by simp at hc), fun _ => ?_⟩
      · unfold adlerLoop; simp only [h.p, e1]; exact e2
      · have hsplit : natSums a b (x :: xs) =
            natSums (natSums a b ((x :: xs).take 5552)).1 (natSums a b ((x :: xs).take 5552)).2
              ((x :: xs).drop 5552) := by
          rw [← natSums_append, List.take_append_drop]
        by_cases hd : (x :: xs).drop 5552 = []
        · have r := r2 hd
          rw [hsplit, hd]; simpa [natSums] using r
        · have r := r3 hd
          have := natSums_mod ((x :: xs).drop 5552) ((natSums a b ((x :: xs).take 5552)).1 % 65521)
            ((natSums a b ((x :: xs).take 5552)).2 % 65521) (natSums a b ((x :: xs).take 5552)).1
            (natSums a b ((x :: xs).take 5552)).2 (by omega) (by omega)
          rw [hsplit, ← this.1, ← this.2]
          exact r

theorem adlerJoin (s1 s2 : UInt32) (h1 : s1.toNat < 65536) (h2 : s2.toNat < 65536) :
    ((s2 <<< 16) ||| s1).toNat = s2.toNat * 65536 + s1.toNat := by
  rw [UInt32.toNat_or, UInt32.toNat_shiftLeft]
  have : (16 : UInt32).toNat % 32 = 16 := by decide
  rw [this, Nat.shiftLeft_eq, Nat.mod_eq_of_lt (by omega : s2.toNat * 2 ^ 16 < 2 ^ 32),
    Nat.mul_comm, ← Nat.two_pow_add_eq_or_of_lt (by omega)]

theorem adlerSplit (c : UInt32) : (c &&& 0xFFFF).toNat = c.toNat % 65536 ∧
    (c >>> 16).toNat = c.toNat / 65536 := by
  constructor
  · rw [UInt32.toNat_and]
    exact Nat.and_two_pow_sub_one_eq_mod _ 16
  · rw [UInt32.toNat_shiftRight]
    have : (16 : UInt32).toNat % 32 = 16 := by decide
    rw [this, Nat.shiftRight_eq_div_pow]

/-- Closed form of `adler32_update_ref` on a non-empty input. -/
theorem adler32Update_cons (c : UInt32) (data : List UInt8) (hne : data ≠ []) :
    ∃ r, adler32Update c data = some r ∧
      r.toNat = adlerB (c.toNat % 65536) (c.toNat / 65536) data * 65536 +
        adlerA (c.toNat % 65536) data := by
  have hc : c.toNat < 2 ^ 32 := c.toNat_lt
  obtain ⟨hs1, hs2⟩ := adlerSplit c
  obtain ⟨st', e, _, r⟩ := adlerLoop_rep data.length
    (st := { s1 := c &&& 0xFFFF, s2 := c >>> 16, p := data }) ⟨hs1, hs2, rfl⟩ (Nat.le_refl _)
    (by omega) (by omega)
  obtain ⟨r1, r2, _⟩ := r hne
  refine ⟨_, by simp only [adler32Update, e]; rfl, ?_⟩
  rw [adlerJoin _ _ (by omega) (by omega), r1, r2, natSums_fst, natSums_snd]
  rfl

theorem adler32Update_nil (c : UInt32) : adler32Update c [] = some c := by
  have hc : c.toNat < 2 ^ 32 := c.toNat_lt
  obtain ⟨hs1, hs2⟩ := adlerSplit c
  have : adler32Update c [] = some (((c >>> 16) <<< 16) ||| (c &&& 0xFFFF)) := by
    simp [adler32Update, adlerLoop]
  rw [this]
  congr 1
  apply UInt32.toNat.inj
  rw [adlerJoin _ _ (by omega) (by omega), hs1, hs2]
  omega

/-! ## CRC-32 -/

theorem crcShift_eq (x : BitVec 32) :
    crcShift x = (x >>> 1) ^^^ (if x.getLsbD 0 then 0xEDB88320#32 else 0#32) := by
  unfold crcShift; split <;> simp

theorem crcShift_xor (x y : BitVec 32) : crcShift (x ^^^ y) = crcShift x ^^^ crcShift y := by
  simp only [crcShift_eq, BitVec.getLsbD_xor, BitVec.ushiftRight_xor_distrib]
  cases x.getLsbD 0 <;> cases y.getLsbD 0 <;> simp <;> (ext i hi; simp; try (cases x.getLsbD (1+i) <;> cases y.getLsbD (1+i) <;> simp))

/-- `n` steps of the register without input. -/
def crcIter : Nat → BitVec 32 → BitVec 32
  | 0, x => x
  | n + 1, x => crcIter n (crcShift x)

theorem crcIter_xor (n : Nat) (x y : BitVec 32) : crcIter n (x ^^^ y) = crcIter n x ^^^ crcIter n y := by
  induction n generalizing x y with
  | zero => rfl
  | succ n ih => simp [crcIter, crcShift_xor, ih]

theorem crcFold_xor (bits : List Bool) (x y : BitVec 32) :
    bits.foldl crcBit (x ^^^ y) = crcIter bits.length x ^^^ bits.foldl crcBit y := by
  induction bits generalizing x y with
  | nil => rfl
  | cons b bs ih =>
    simp only [List.foldl_cons, List.length_cons, crcIter, ← ih]
    congr 1
    simp only [crcBit]
    rw [BitVec.xor_assoc, crcShift_xor]

theorem crcIter_low_zero (n : Nat) (x : BitVec 32) (h : ∀ i < n, x.getLsbD i = false) :
    crcIter n x = x >>> n := by
  induction n generalizing x with
  | zero => simp [crcIter]
  | succ n ih =>
    have h0 : x.getLsbD 0 = false := h 0 (by omega)
    simp only [crcIter]
    have hs : crcShift x = x >>> 1 := by rw [crcShift_eq, h0]; simp
    rw [hs, ih]
    · rw [← BitVec.shiftRight_add, Nat.add_comm]
    · intro i hi
      rw [BitVec.getLsbD_ushiftRight]
      exact h (1 + i) (by omega)

/-- The whole table, checked by the kernel. -/
theorem table_iter : ∀ i : Fin 256,
    (crc32Table.getD i.val 0).toBitVec = crcIter 8 (BitVec.ofNat 32 i.val) := by decide +kernel

theorem table_bits : ∀ i : Fin 256,
    (crc32Table.getD i.val 0).toBitVec =
      (byteBits (UInt8.ofNat i.val)).foldl crcBit 0#32 := by decide +kernel

theorem crcIter8 (x : BitVec 32) :
    crcIter 8 x = (x >>> 8) ^^^ (crc32Table.getD (x.toNat % 256) 0).toBitVec := by
  have hx : x = (x &&& 0xFFFFFF00#32) ^^^ (x &&& 0xFF#32) := by
    have h1 : (x &&& 0xFFFFFF00#32) ^^^ (x &&& 0xFF#32) = x &&& (0xFFFFFF00#32 ^^^ 0xFF#32) := by
      ext i hi
      simp only [BitVec.getElem_xor, BitVec.getElem_and]
      cases x[i] <;> simp
    have : (0xFFFFFF00#32 ^^^ 0xFF#32) = BitVec.allOnes 32 := by decide
    rw [h1, this, BitVec.and_allOnes]
  have hlow : x &&& 0xFF#32 = BitVec.ofNat 32 (x.toNat % 256) := by
    apply BitVec.eq_of_toNat_eq
    rw [BitVec.toNat_and, BitVec.toNat_ofNat]
    have := Nat.and_two_pow_sub_one_eq_mod x.toNat 8
    simp at this ⊢
    omega
  have hhi : crcIter 8 (x &&& 0xFFFFFF00#32) = x >>> 8 := by
    rw [crcIter_low_zero]
    · ext i hi
      simp only [BitVec.getElem_ushiftRight, BitVec.getLsbD_and]
      by_cases h : 8 + i < 32
      · have : (0xFFFFFF00#32).getLsbD (8 + i) = true := by
          have : i < 24 := by omega
          have key : ∀ j : Fin 24, (0xFFFFFF00#32).getLsbD (8 + j.val) = true := by decide
          exact key ⟨i, this⟩
        simp [this]
      · rw [BitVec.getLsbD_of_ge x (8 + i) (by omega)]; simp
    · intro i hi
      rw [BitVec.getLsbD_and]
      have key : ∀ j : Fin 8, (0xFFFFFF00#32).getLsbD j.val = false := by decide
      rw [key ⟨i, hi⟩]; simp
  have hlo : crcIter 8 (x &&& 0xFF#32) = (crc32Table.getD (x.toNat % 256) 0).toBitVec := by
    rw [hlow]
    exact (table_iter ⟨x.toNat % 256, Nat.mod_lt _ (by omega)⟩).symm
  calc crcIter 8 x = crcIter 8 ((x &&& 0xFFFFFF00#32) ^^^ (x &&& 0xFF#32)) := by rw [← hx]
    _ = _ := by rw [crcIter_xor, hhi, hlo]

theorem table_xor (i j : Nat) (hi : i < 256) (hj : j < 256) :
    (crc32Table.getD (i ^^^ j) 0).toBitVec =
      (crc32Table.getD i 0).toBitVec ^^^ (crc32Table.getD j 0).toBitVec := by
  have hij : i ^^^ j < 256 := Nat.xor_lt_two_pow (n := 8) hi hj
  have e1 := table_iter ⟨i ^^^ j, hij⟩
  have e2 := table_iter ⟨i, hi⟩
  have e3 := table_iter ⟨j, hj⟩
  simp only at e1 e2 e3
  have hx : BitVec.ofNat 32 (i ^^^ j) = BitVec.ofNat 32 i ^^^ BitVec.ofNat 32 j := by
    apply BitVec.eq_of_toNat_eq
    rw [BitVec.toNat_xor]
    simp only [BitVec.toNat_ofNat]
    rw [Nat.mod_eq_of_lt (by omega), Nat.mod_eq_of_lt (by omega), Nat.mod_eq_of_lt (by omega)]
  rw [e1, e2, e3, ← crcIter_xor, hx]

/-- One byte of the table driven algorithm is eight register steps. -/
theorem crc32UpdateByte_eq (c : UInt32) (b : UInt8) :
    (crc32UpdateByte c b).toBitVec = (byteBits b).foldl crcBit c.toBitVec := by
  have h0 := crcFold_xor (byteBits b) c.toBitVec 0#32
  rw [BitVec.xor_zero] at h0
  have hlen : (byteBits b).length = 8 := by simp [byteBits]
  rw [h0, hlen, crcIter8]
  have hb := table_bits ⟨b.toNat, b.toNat_lt⟩
  simp only [UInt8.ofNat_toNat] at hb
  rw [← hb, BitVec.xor_assoc, ← table_xor _ _ (Nat.mod_lt _ (by omega)) b.toNat_lt]
  have hidx : ((c ^^^ b.toUInt32) &&& 0xFF).toNat = c.toBitVec.toNat % 256 ^^^ b.toNat := by
    rw [UInt32.toNat_and, UInt32.toNat_xor, UInt8.toNat_toUInt32]
    have := Nat.and_two_pow_sub_one_eq_mod (c.toNat ^^^ b.toNat) 8
    simp only [UInt32.toNat_toBitVec]
    have h255 : (255 : UInt32).toNat = 2 ^ 8 - 1 := by decide
    rw [h255, this, Nat.xor_mod_two_pow, Nat.mod_eq_of_lt (a := b.toNat) (by have := b.toNat_lt; omega)]
  have hsh : (c >>> 8).toBitVec = c.toBitVec >>> 8 := by
    apply BitVec.eq_of_toNat_eq
    rw [UInt32.toNat_toBitVec, UInt32.toNat_shiftRight, BitVec.toNat_ushiftRight]
    rfl
  unfold crc32UpdateByte
  rw [UInt32.toBitVec_xor, hidx, hsh]

theorem crc32Update_eq (data : List UInt8) (c : UInt32) :
    (crc32Update c data).toBitVec = (msgBits data).foldl crcBit c.toBitVec := by
  induction data generalizing c with
  | nil => rfl
  | cons d ds ih =>
    simp only [crc32Update, List.foldl_cons, msgBits, List.flatMap_cons, List.foldl_append] at ih ⊢
    rw [ih, crc32UpdateByte_eq]

end Blend2D.Checksum
