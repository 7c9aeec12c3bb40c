import Verif.NameTable.Props
/-! Examples for C60. -/
namespace Blend2D.NameTable

/-- A record and a table for examples: two bytes for each number. -/
def two (n : Nat) : List UInt8 := [UInt8.ofNat (n / 256), UInt8.ofNat (n % 256)]

def rec6 (p s l i len off : Nat) : List UInt8 := [p, s, l, i, len, off].flatMap two

def table (recs : List (List UInt8)) (strings : List UInt8) : List UInt8 :=
  two 0 ++ two recs.length ++ two (6 + 12 * recs.length) ++ recs.flatten ++ strings

theorem isText_of {p : Nat} {s t : List UInt8} (hl : s.length < 65536)
    (h : convert (isUtf16 p) s = some (some t)) : Spec.IsText p s t := by
  obtain ⟨r, hr, hrt⟩ := convert_spec p s hl
  rw [h] at hr
  simp only [Option.some.injEq] at hr
  exact (hrt t).1 hr.symm

/-- Family "Ab c" (Windows, and "M" for Mac), subfamily "c", full name "Ü" for Mac with padding, PostScript name that
is not UTF-16. -/
def sample : List UInt8 := table
  [rec6 1 0 0 1 1 8, rec6 3 1 0x409 1 8 0, rec6 3 1 0x809 2 2 6, rec6 1 0 0 4 2 9, rec6 3 1 0x409 6 2 11]
  [0, 0x41, 0, 0x62, 0, 0x20, 0, 0x63, 0x4D, 0xDC, 0, 0xD8, 0]

example : Spec.Accepted sample := by decide

example : init sample = some (.ok ⟨[0xC3, 0x9C], [0x41, 0x62, 0x20, 0x63], [], [], false, true, true⟩) := by decide +kernel

/-- The hypotheses of `C60_names_partial` hold for it. -/
example : (∀ i t, ¬ Spec.Gives sample 21 i t) ∧ ∀ i t, ¬ Spec.Gives sample 22 i t := by
  have h : ∀ i, i < FaceMetrics.Spec.word sample 2 → (Spec.record sample i).id ≠ 21 ∧ (Spec.record sample i).id ≠ 22 := by
    decide +kernel
  exact ⟨fun i t hg => (h i hg.1).1 hg.2.1, fun i t hg => (h i hg.1).2 hg.2.1⟩

/-- A surrogate pair and padding, with an odd byte at the end. -/
example : convertInto (List.replicate 14 0xAA) (isUtf16 3) [0xD8, 0x3D, 0xDE, 0x00, 0, 0, 0x41] =
    some (some [0xF0, 0x9F, 0x98, 0x80]) := by decide +kernel

/-- A null character inside is an error. -/
example : convertInto (List.replicate 6 0xAA) (isUtf16 1) [0x41, 0, 0x42] = some none := by decide +kernel

/-- Tables that are rejected. -/
example : init [] = some (.error .missing) := by decide +kernel
example : init (two 2 ++ sample.drop 2) = some (.error .invalidData) := by decide +kernel
example : ¬ Spec.Accepted (sample.take 60) ∧ init (sample.take 60) = some (.error .invalidData) := by decide +kernel

/-- Family "A" and family "B" of the model of weight, width and slope. -/
def wws : List UInt8 := table [rec6 3 1 0x409 1 2 0, rec6 3 1 0x409 21 2 2] [0, 0x41, 0, 0x42]

/-- A font with both the names 1 and 21, without the typographic name, gets the name 21 as its family, although it is
to be used only if there is no other choice (`otname.cpp:151-152`): the bits are iterated in increasing order, and the
last name that is stored wins. -/
theorem C60_wws_counterexample : Spec.Accepted wws ∧ Spec.IsFirst wws [16, 1, 21] [0x41] ∧
    init wws = some (.ok { family := [0x42] }) := by
  refine ⟨by decide, ?_, by decide +kernel⟩
  have h16 : ∀ i, i < FaceMetrics.Spec.word wws 2 → (Spec.record wws i).id ≠ 16 := by decide +kernel
  have h1 : ∀ i, i < FaceMetrics.Spec.word wws 2 → (Spec.record wws i).id = 1 → i = 0 := by decide +kernel
  refine Or.inr ⟨fun i u hg => h16 i hg.1 hg.2.1, Or.inl ⟨0, ⟨by decide +kernel, by decide +kernel, by decide +kernel,
    [0, 0x41], by decide +kernel, isText_of (by decide) (by decide +kernel)⟩, ?_⟩⟩
  intro j u hg
  have hj := h1 j hg.1 hg.2.1
  subst hj
  refine ⟨?_, fun h => absurd h (by omega)⟩
  have hp : ¬ ((Spec.record wws 0).platform = 1) := by decide +kernel
  unfold Spec.level
  rw [if_neg (fun h => hp h.1), if_neg (fun h => hp h.1)]

end Blend2D.NameTable
