import Verif.Checksum.Lemmas
/-! # C04, C05: checksum properties -/
namespace Blend2D.Checksum

/-- **C04** (value): for every byte string, `adler32` never reads out of bounds and returns the
RFC 1950 checksum (the 32-bit accumulators never overflow, whatever the length and content). -/
theorem C04_adler32_is_rfc1950 (data : List UInt8) :
    ∃ r, adler32 data = some r ∧ r.toNat = Spec.adler32 data := by
  by_cases h : data = []
  · subst h
    exact ⟨1, by rw [adler32, adler32Update_nil]; rfl, by decide⟩
  · exact adler32Update_cons kAdler32Initial data h

example : adler32 ("Wikipedia".toUTF8.toList) = some 0x11E60398 := by decide +kernel

/-- **C04** (incremental): feeding the data in two pieces (hence in any number of pieces) gives the
same checksum as feeding it at once, from any intermediate checksum value. -/
theorem C04_adler32_incremental (c : UInt32) (xs ys : List UInt8) :
    (adler32Update c xs).bind (fun r => adler32Update r ys) = adler32Update c (xs ++ ys) := by
  by_cases hx : xs = []
  · subst hx; simp [adler32Update_nil]
  · obtain ⟨r, e, hr⟩ := adler32Update_cons c xs hx
    rw [e]
    by_cases hy : ys = []
    · subst hy; simp [adler32Update_nil, e]
    · obtain ⟨r2, e2, hr2⟩ := adler32Update_cons r ys hy
      obtain ⟨r3, e3, hr3⟩ := adler32Update_cons c (xs ++ ys) (by simp [hx])
      simp only [Option.bind_some, e2, e3]
      congr 1
      apply UInt32.toNat.inj
      have hA : Spec.adlerA (c.toNat % 65536) xs < 65536 := by
        unfold Spec.adlerA; omega
      have h1 : r.toNat % 65536 = Spec.adlerA (c.toNat % 65536) xs := by omega
      have h2 : r.toNat / 65536 = Spec.adlerB (c.toNat % 65536) (c.toNat / 65536) xs := by omega
      rw [hr2, hr3, h1, h2]
      have key := natSums_append xs ys (c.toNat % 65536) (c.toNat / 65536)
      have m := natSums_mod ys (Spec.adlerA (c.toNat % 65536) xs)
        (Spec.adlerB (c.toNat % 65536) (c.toNat / 65536) xs)
        (natSums (c.toNat % 65536) (c.toNat / 65536) xs).1
        (natSums (c.toNat % 65536) (c.toNat / 65536) xs).2
        (by rw [natSums_fst]; unfold Spec.adlerA; omega)
        (by rw [natSums_snd]; unfold Spec.adlerB; omega)
      rw [← key] at m
      simp only [natSums_fst, natSums_snd] at m
      unfold Spec.adlerA Spec.adlerB at m ⊢
      rw [m.1, m.2]

example : adler32Update 1 [1, 2, 3] = some 0x000D0007 ∧
    adler32Update 0x000D0007 [4] = some 0x0018000B := by decide +kernel

/-- **C05** (value): the table driven CRC-32 equals bitwise polynomial division for every input. -/
theorem C05_crc32_is_polynomial_division (data : List UInt8) :
    (crc32 data).toBitVec = Spec.crc32 data := by
  have := crc32Update_eq data kCrc32Initial
  simp only [crc32, Spec.crc32, UInt32.toBitVec_not, this]
  rfl

example : crc32 ("123456789".toUTF8.toList) = 0xCBF43926 := by decide +kernel
example : Spec.crc32 ("123456789".toUTF8.toList) = 0xCBF43926#32 := by decide +kernel

/-- **C05** (incremental): feeding the data piecewise gives the same checksum. -/
theorem C05_crc32_incremental (c : UInt32) (xs ys : List UInt8) :
    crc32Update (crc32Update c xs) ys = crc32Update c (xs ++ ys) := by
  simp [crc32Update, List.foldl_append]

end Blend2D.Checksum
