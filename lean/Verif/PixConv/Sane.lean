import Verif.PixConv.Lemmas

/-!
# Accepted formats
-/
namespace Blend2D.PixConv
open Spec Pixel Bits

/-- What `check` establishes about a component. -/
theorem check_some {d : Nat} {need isA : Bool} {c : Ch} {s s' : Acc} (h : check d need isA c s = some s') :
    (need = false ∧ c = ⟨0, 0⟩ ∧ s' = s) ∨
    (need = true ∧ 1 ≤ c.size ∧ c.size ≤ 16 ∧ c.shift + c.size ≤ d ∧
      s' = { masks := s.masks ||| lsb c.size * 2 ^ c.shift
             overlap := s.overlap || decide (s.masks &&& lsb c.size * 2 ^ c.shift ≠ 0)
             unaligned := s.unaligned || decide (c.size ≠ 8 ∨ c.shift % 8 ≠ 0)
             crosses := s.crosses || decide (c.shift / 8 ≠ (c.shift + c.size - 1) / 8) } ∧
      (isA = true → s.masks &&& lsb c.size * 2 ^ c.shift = 0)) := by
  unfold check at h
  split at h
  · rename_i h0
    split at h
    · simp at h
    · split at h
      · simp at h
      · rename_i hn hs
        left
        refine ⟨by simpa using hn, ?_, by simpa using h.symm⟩
        cases c
        simp only [Decidable.not_not] at hs h0
        simp [h0, hs]
  · rename_i h0
    right
    split at h
    · simp at h
    · split at h
      · simp at h
      · split at h
        · simp at h
        · rename_i hn h16 hd
          dsimp only at h
          split at h
          · simp at h
          · rename_i hh
            refine ⟨by simpa using hn, by omega, by omega, by omega, by simpa using h.symm, ?_⟩
            intro hA
            by_contra hne
            exact hh ⟨by simpa using hne, hA⟩

/-- The masks collected only grow. -/
theorem check_flags {d : Nat} {need isA : Bool} {c : Ch} {s s' : Acc} (h : check d need isA c s = some s') :
    (s'.unaligned = false → s.unaligned = false ∧ (c.size ≠ 0 → c.size = 8 ∧ c.shift % 8 = 0)) ∧
    (s'.crosses = false → s.crosses = false ∧ (c.size ≠ 0 → c.shift / 8 = (c.shift + c.size - 1) / 8)) ∧
    (s'.overlap = false → s.overlap = false ∧ s.masks &&& lsb c.size * 2 ^ c.shift = 0) ∧
    s'.masks = s.masks ||| lsb c.size * 2 ^ c.shift ∧
    (s.crosses = true → s'.crosses = true) ∧
    (c.size ≠ 0 → c.shift / 8 ≠ (c.shift + c.size - 1) / 8 → s'.crosses = true) := by
  rcases check_some h with ⟨-, rfl, rfl⟩ | ⟨-, -, -, -, rfl, -⟩
  · simp [lsb]
  · simp only [Bool.or_eq_false_iff, decide_eq_false_iff_not, Bool.or_eq_true, decide_eq_true_eq]
    refine ⟨fun h => ⟨h.1, fun _ => by omega⟩, fun h => ⟨h.1, fun _ => by omega⟩, fun h => ⟨h.1, by simpa using h.2⟩, trivial, ?_, ?_⟩
    · intro h; exact Or.inl h
    · intro _ h; exact Or.inr h

/-- The components of an accepted format. -/
structure Facts (f : Fmt) (acc : Acc) : Prop where
  any : f.rgb = true ∨ f.lum = true ∨ f.alpha = true
  masks : acc.masks = lsb f.r.size * 2 ^ f.r.shift ||| lsb f.g.size * 2 ^ f.g.shift ||| lsb f.b.size * 2 ^ f.b.shift |||
    lsb f.a.size * 2 ^ f.a.shift
  rgb : (f.rgb = true ∨ f.lum = true) ∧ 1 ≤ f.r.size ∧ 1 ≤ f.g.size ∧ 1 ≤ f.b.size ∨
    (f.rgb = false ∧ f.lum = false) ∧ f.r = ⟨0, 0⟩ ∧ f.g = ⟨0, 0⟩ ∧ f.b = ⟨0, 0⟩
  alpha : f.alpha = true ∧ 1 ≤ f.a.size ∨ f.alpha = false ∧ f.a = ⟨0, 0⟩
  size : ∀ c ∈ [f.r, f.g, f.b, f.a], c.size ≤ 16 ∧ c.shift + c.size ≤ f.depth
  aligned : acc.unaligned = false → ∀ c ∈ [f.r, f.g, f.b, f.a], c.size ≠ 0 → c.size = 8 ∧ c.shift % 8 = 0
  inside : acc.crosses = false → ∀ c ∈ [f.r, f.g, f.b, f.a], c.size ≠ 0 → c.shift / 8 = (c.shift + c.size - 1) / 8
  outside : acc.crosses = true → ∃ c ∈ [f.r, f.g, f.b, f.a], c.size ≠ 0 ∧ c.shift / 8 ≠ (c.shift + c.size - 1) / 8
  clear : (lsb f.r.size * 2 ^ f.r.shift ||| lsb f.g.size * 2 ^ f.g.shift ||| lsb f.b.size * 2 ^ f.b.shift) &&&
    (lsb f.a.size * 2 ^ f.a.shift) = 0
  apart : acc.overlap = false → lsb f.r.size * 2 ^ f.r.shift &&& lsb f.g.size * 2 ^ f.g.shift = 0 ∧
    (lsb f.r.size * 2 ^ f.r.shift ||| lsb f.g.size * 2 ^ f.g.shift) &&& lsb f.b.size * 2 ^ f.b.shift = 0

theorem check_crosses {d : Nat} {need isA : Bool} {c : Ch} {s s' : Acc} (h : check d need isA c s = some s')
    (hc : s'.crosses = true) : s.crosses = true ∨ c.size ≠ 0 ∧ c.shift / 8 ≠ (c.shift + c.size - 1) / 8 := by
  rcases check_some h with ⟨-, rfl, rfl⟩ | ⟨-, h1, -, -, rfl, -⟩
  · exact Or.inl hc
  · simp only [Bool.or_eq_true, decide_eq_true_eq] at hc
    rcases hc with h | h
    · exact Or.inl h
    · exact Or.inr ⟨by omega, h⟩

theorem checkAll_facts {f : Fmt} {need : Bool × Bool} {acc : Acc} (hn : components f = some need)
    (h : checkAll f need = some acc) : Facts f acc := by
  have hneed : (need.1 = true ↔ f.rgb = true ∨ f.lum = true) ∧ (need.2 = true ↔ f.alpha = true) := by
    unfold components at hn
    revert hn
    cases f.rgb <;> cases f.alpha <;> cases f.lum <;> simp <;> rintro rfl <;> simp
  unfold checkAll at h
  obtain ⟨s1, h1, h⟩ := Option.bind_eq_some_iff.1 h
  obtain ⟨s2, h2, h⟩ := Option.bind_eq_some_iff.1 h
  obtain ⟨s3, h3, h4⟩ := Option.bind_eq_some_iff.1 h
  have f1 := check_flags h1
  have f2 := check_flags h2
  have f3 := check_flags h3
  have f4 := check_flags h4
  have z : ∀ {d : Nat} {n i : Bool} {c : Ch} {s s' : Acc}, check d n i c s = some s' → c.size ≤ 16 ∧ (c.shift + c.size ≤ d) := by
    intro d n i c s s' h
    rcases check_some h with ⟨-, rfl, -⟩ | ⟨-, -, h1, h2, -⟩
    · simp
    · exact ⟨h1, h2⟩
  refine ⟨?_, ?_, ?_, ?_, ?_, ?_, ?_, ?_, ?_, ?_⟩
  · unfold components at hn
    revert hn
    cases f.rgb <;> cases f.alpha <;> cases f.lum <;> simp
  · rw [f4.2.2.2.1, f3.2.2.2.1, f2.2.2.2.1, f1.2.2.2.1]
    simp
  · have k1 := check_some h1
    have k2 := check_some h2
    have k3 := check_some h3
    clear f1 f2 f3 f4 z h1 h2 h3 h4
    cases hb : need.1
    · rw [hb] at k1 k2 k3
      right
      simp only [reduceCtorEq, false_and, or_false, true_and] at k1 k2 k3
      have : ¬ (f.rgb = true ∨ f.lum = true) := by rw [← hneed.1, hb]; simp
      exact ⟨by simpa using this, k1.1, k2.1, k3.1⟩
    · rw [hb] at k1 k2 k3
      left
      simp only [reduceCtorEq, false_and, false_or, true_and] at k1 k2 k3
      exact ⟨hneed.1.1 hb, k1.1, k2.1, k3.1⟩
  · have k4 := check_some h4
    cases hb : need.2
    · rw [hb] at k4
      right
      simp only [reduceCtorEq, false_and, or_false, true_and] at k4
      have : ¬ (f.alpha = true) := by rw [← hneed.2, hb]; simp
      exact ⟨by simpa using this, k4.1⟩
    · rw [hb] at k4
      left
      simp only [reduceCtorEq, false_and, false_or, true_and] at k4
      exact ⟨hneed.2.1 hb, k4.1⟩
  · simp only [List.mem_cons, List.not_mem_nil, or_false]
    rintro c (rfl | rfl | rfl | rfl)
    exacts [z h1, z h2, z h3, z h4]
  · intro hu
    have u3 := f4.1 hu
    have u2 := f3.1 u3.1
    have u1 := f2.1 u2.1
    have u0 := f1.1 u1.1
    simp only [List.mem_cons, List.not_mem_nil, or_false]
    rintro c (rfl | rfl | rfl | rfl)
    exacts [u0.2, u1.2, u2.2, u3.2]
  · intro hu
    have u3 := f4.2.1 hu
    have u2 := f3.2.1 u3.1
    have u1 := f2.2.1 u2.1
    have u0 := f1.2.1 u1.1
    simp only [List.mem_cons, List.not_mem_nil, or_false]
    rintro c (rfl | rfl | rfl | rfl)
    exacts [u0.2, u1.2, u2.2, u3.2]
  · intro hc
    rcases check_crosses h4 hc with hc | hc
    · rcases check_crosses h3 hc with hc | hc
      · rcases check_crosses h2 hc with hc | hc
        · rcases check_crosses h1 hc with hc | hc
          · simp at hc
          · exact ⟨_, by simp, hc⟩
        · exact ⟨_, by simp, hc⟩
      · exact ⟨_, by simp, hc⟩
    · exact ⟨f.a, by simp, hc⟩
  · have e : s3.masks = lsb f.r.size * 2 ^ f.r.shift ||| lsb f.g.size * 2 ^ f.g.shift ||| lsb f.b.size * 2 ^ f.b.shift := by
      rw [f3.2.2.2.1, f2.2.2.2.1, f1.2.2.2.1]
      simp
    rw [← e]
    rcases check_some h4 with ⟨-, e1, -⟩ | ⟨-, -, -, -, -, e1⟩
    · simp [e1, lsb]
    · exact e1 rfl
  · intro ho
    have o3 := f4.2.2.1 ho
    have o2 := f3.2.2.1 o3.1
    have o1 := f2.2.2.1 o2.1
    have e1 : s1.masks = lsb f.r.size * 2 ^ f.r.shift := by
      rw [f1.2.2.2.1]
      simp
    have e2 : s2.masks = lsb f.r.size * 2 ^ f.r.shift ||| lsb f.g.size * 2 ^ f.g.shift := by
      rw [f2.2.2.2.1, e1]
    rw [e1] at o1
    rw [e2] at o2
    exact ⟨o1.2, o2.2⟩

/-- An accepted format that is not indexed. -/
theorem sanitize_some {f s : Fmt} (h : sanitize f = some s) (hi : f.indexed = false) :
    ∃ acc : Acc, Facts f acc ∧ depthOk f.depth = true ∧ f.lum = acc.overlap ∧
      s = finish { f with prem := f.prem && f.alpha } acc (decide (lsb f.depth ≠ acc.masks)) := by
  unfold sanitize at h
  split at h
  · simp at h
  · rename_i hd
    rw [if_neg (by simp [hi])] at h
    obtain ⟨need, hn, h⟩ := Option.bind_eq_some_iff.1 h
    obtain ⟨acc, ha, h⟩ := Option.bind_eq_some_iff.1 h
    refine ⟨acc, checkAll_facts hn ha, by simpa using hd, ?_, ?_⟩
    · dsimp only at h
      split at h
      · simp at h
      · rename_i hl; simpa using hl
    · dsimp only at h
      split at h
      · simp at h
      · split at h
        · simp at h
        · simpa using h.symm

/-- Whole bytes change places when the byte order changes. -/
theorem swapped_field (c : Ch) (l : List UInt8) (h : c.size = 0 ∨ c.size = 8) (hin : c.size ≠ 0 → c.shift / 8 = (c.shift + c.size - 1) / 8)
    (hl : c.shift + c.size ≤ 8 * l.length) :
    field (c.swapped (8 * l.length)) (leVal l) = field c (leVal l.reverse) := by
  unfold Ch.swapped
  split
  · rename_i h0; simp [field, h0, Nat.mod_one]
  · rename_i h0
    have h8 : c.size = 8 := by omega
    have hin := hin h0
    rw [h8] at hin hl
    obtain ⟨k, hk⟩ : ∃ k, c.shift = 8 * k := ⟨c.shift / 8, by omega⟩
    have hkl : k < l.length := by omega
    simp only [field, h8, hk]
    have e1 : 8 * l.length - 8 * k - 8 = 8 * (l.length - 1 - k) := by omega
    rw [e1, Nat.pow_mul, Nat.pow_mul]
    exact (leVal_reverse_byte l k hkl).symm

/-- Two components have no bit in common. -/
def Apart (c d : Ch) : Prop := c.size = 0 ∨ d.size = 0 ∨ c.shift + c.size ≤ d.shift ∨ d.shift + d.size ≤ c.shift

theorem mask_testBit (c : Ch) (i : Nat) :
    (lsb c.size * 2 ^ c.shift).testBit i = (decide (c.shift ≤ i) && decide (i - c.shift < c.size)) := by
  rw [Nat.testBit_mul_two_pow, lsb, Nat.testBit_two_pow_sub_one]

theorem apart_of_masks (c d : Ch) (h : lsb c.size * 2 ^ c.shift &&& lsb d.size * 2 ^ d.shift = 0) : Apart c d := by
  by_contra hn
  unfold Apart at hn
  have := congrArg (fun n => n.testBit (max c.shift d.shift)) h
  simp only [Nat.testBit_and, mask_testBit, Nat.zero_testBit] at this
  rw [Bool.and_eq_false_iff] at this
  simp only [Bool.and_eq_false_iff, decide_eq_false_iff_not] at this
  omega

theorem apart_of_or (c d e : Ch) (h : (lsb c.size * 2 ^ c.shift ||| lsb d.size * 2 ^ d.shift) &&& lsb e.size * 2 ^ e.shift = 0) :
    Apart c e ∧ Apart d e := by
  rw [Nat.and_or_distrib_right, Nat.or_eq_zero_iff] at h
  exact ⟨apart_of_masks _ _ h.1, apart_of_masks _ _ h.2⟩

theorem Facts.apartA {f : Fmt} {acc : Acc} (F : Facts f acc) : Apart f.r f.a ∧ Apart f.g f.a ∧ Apart f.b f.a := by
  have h := F.clear
  rw [Nat.and_or_distrib_right, Nat.or_eq_zero_iff] at h
  have h2 := apart_of_or _ _ _ h.1
  exact ⟨h2.1, h2.2, apart_of_masks _ _ h.2⟩

theorem Facts.apartRgb {f : Fmt} {acc : Acc} (F : Facts f acc) (h : acc.overlap = false) :
    Apart f.r f.g ∧ Apart f.r f.b ∧ Apart f.g f.b :=
  ⟨apart_of_masks _ _ (F.apart h).1, apart_of_or _ _ _ (F.apart h).2⟩

theorem apart_swapped (n : Nat) (c d : Ch) (h : Apart c d) (hc : c.shift + c.size ≤ n) (hd : d.shift + d.size ≤ n) :
    Apart (c.swapped n) (d.swapped n) := by
  unfold Apart at *
  unfold Ch.swapped
  split <;> split <;> (try dsimp only) <;> omega

theorem full_masks : ∀ i j k l : Fin 4, (i ≠ j ∧ i ≠ k ∧ i ≠ l ∧ j ≠ k ∧ j ≠ l ∧ k ≠ l) →
    lsb 8 * 2 ^ (8 * i.val) ||| lsb 8 * 2 ^ (8 * j.val) ||| lsb 8 * 2 ^ (8 * k.val) ||| lsb 8 * 2 ^ (8 * l.val) = lsb 32 := by
  decide +kernel

/-- Four whole bytes leave no bit undefined. -/
theorem Facts.full {f : Fmt} {acc : Acc} (F : Facts f acc) (hl : f.lum = acc.overlap) (h32 : f.depth = 32)
    (ha : acc.unaligned = false) (h1 : f.rgb = true) (h2 : f.lum = false) (h3 : f.alpha = true) : lsb f.depth = acc.masks := by
  have A := F.aligned ha
  have W := F.size
  simp only [List.mem_cons, List.not_mem_nil, or_false, forall_eq_or_imp, forall_eq] at A W
  have P := F.apartA
  have R := F.apartRgb (hl.symm.trans h2)
  have hr : (1 ≤ f.r.size ∧ 1 ≤ f.g.size ∧ 1 ≤ f.b.size) ∧ 1 ≤ f.a.size := by
    refine ⟨?_, ?_⟩
    · rcases F.rgb with ⟨-, h⟩ | ⟨h, -⟩
      · exact h
      · rw [h1] at h; simp at h
    · rcases F.alpha with ⟨-, h⟩ | ⟨h, -⟩
      · exact h
      · rw [h3] at h; simp at h
  have ar := A.1 (by omega)
  have ag := A.2.1 (by omega)
  have ab := A.2.2.1 (by omega)
  have aa := A.2.2.2 (by omega)
  rw [h32] at W
  unfold Apart at P R
  have er : f.r.shift = 8 * (f.r.shift / 8) := by omega
  have eg : f.g.shift = 8 * (f.g.shift / 8) := by omega
  have eb : f.b.shift = 8 * (f.b.shift / 8) := by omega
  have ea : f.a.shift = 8 * (f.a.shift / 8) := by omega
  rw [F.masks, h32, ar.1, ag.1, ab.1, aa.1, er, eg, eb, ea]
  have := full_masks ⟨f.r.shift / 8, by omega⟩ ⟨f.g.shift / 8, by omega⟩ ⟨f.b.shift / 8, by omega⟩ ⟨f.a.shift / 8, by omega⟩
    (by simp only [ne_eq, Fin.mk.injEq]; omega)
  exact this.symm

/-- What a converter relies on. -/
structure Sane (f s : Fmt) : Prop where
  any : f.rgb = true ∨ f.lum = true ∨ f.alpha = true
  depth : s.depth = f.depth
  depth_le : f.depth ≤ 32
  rgb : s.rgb = f.rgb
  lum : s.lum = f.lum
  alpha : s.alpha = f.alpha
  prem : s.prem = (f.prem && f.alpha)
  indexed : s.indexed = false
  fits : Fits s
  hasRgb : (f.rgb = true ∨ f.lum = true) ∧ 1 ≤ s.r.size ∧ 1 ≤ s.g.size ∧ 1 ≤ s.b.size ∨
    (f.rgb = false ∧ f.lum = false) ∧ s.r.size = 0 ∧ s.g.size = 0 ∧ s.b.size = 0
  hasAlpha : f.alpha = true ∧ 1 ≤ s.a.size ∨ f.alpha = false ∧ s.a = ⟨0, 0⟩
  aligned : s.aligned = true → ∀ c ∈ [s.r, s.g, s.b, s.a], c.size ≠ 0 → c.size = 8 ∧ c.shift % 8 = 0
  within : ∀ c ∈ [s.r, s.g, s.b, s.a], c.shift + c.size ≤ f.depth
  field : ∀ l : List UInt8, 8 * l.length = f.depth →
    field s.r (number s.swap l) = field f.r (number f.swap l) ∧ field s.g (number s.swap l) = field f.g (number f.swap l) ∧
    field s.b (number s.swap l) = field f.b (number f.swap l) ∧ field s.a (number s.swap l) = field f.a (number f.swap l)
  sizes : s.r.size = f.r.size ∧ s.g.size = f.g.size ∧ s.b.size = f.b.size ∧ s.a.size = f.a.size
  swap8 : s.depth ≤ 8 → s.swap = false
  swapA : s.aligned = true → s.swap = false
  apartA : Apart s.r s.a ∧ Apart s.g s.a ∧ Apart s.b s.a
  apartRgb : f.lum = false → Apart s.r s.g ∧ Apart s.r s.b ∧ Apart s.g s.b
  full : f.depth = 32 → s.aligned = true → f.rgb = true → f.lum = false → f.alpha = true → s.undef = false
  depth_mem : f.depth = 1 ∨ f.depth = 2 ∨ f.depth = 4 ∨ f.depth = 8 ∨ f.depth = 16 ∨ f.depth = 24 ∨ f.depth = 32

theorem swapped_size (d : Nat) (c : Ch) : (c.swapped d).size = c.size := by
  unfold Ch.swapped
  split <;> rfl

theorem swapped_zero (d : Nat) : (⟨0, 0⟩ : Ch).swapped d = ⟨0, 0⟩ := rfl

theorem swapped_within (d : Nat) (c : Ch) (h : c.shift + c.size ≤ d) : (c.swapped d).shift + (c.swapped d).size ≤ d := by
  unfold Ch.swapped
  split
  · exact h
  · dsimp only; omega

theorem swapped_aligned (d : Nat) (c : Ch) (hd : d % 8 = 0) (h : c.shift + c.size ≤ d) (ha : c.size ≠ 0 → c.size = 8 ∧ c.shift % 8 = 0)
    (h0 : (c.swapped d).size ≠ 0) : (c.swapped d).size = 8 ∧ (c.swapped d).shift % 8 = 0 := by
  rw [swapped_size] at h0
  obtain ⟨h8, hm⟩ := ha h0
  refine ⟨by rw [swapped_size, h8], ?_⟩
  unfold Ch.swapped
  rw [if_neg h0]
  dsimp only
  omega

theorem number_one (b : Bool) (l : List UInt8) (h : l.length ≤ 1) : number b l = leVal l := by
  rw [number_eq]
  match l, h with
  | [], _ => simp
  | [x], _ => simp

theorem depth_cases {d : Nat} (h : depthOk d = true) : d = 1 ∨ d = 2 ∨ d = 4 ∨ d = 8 ∨ d = 16 ∨ d = 24 ∨ d = 32 := by
  simpa [depthOk] using h

theorem sane {f s : Fmt} (h : sanitize f = some s) (hi : f.indexed = false) (hs : SwapOk f) : Sane f s := by
  obtain ⟨acc, F, hd, hl, rfl⟩ := sanitize_some h hi
  have hd := depth_cases hd
  have hd32 : f.depth ≤ 32 := by omega
  have hd8 : ¬ f.depth ≤ 8 → f.depth % 8 = 0 := by omega
  have FA := F.apartA
  have FU : f.depth = 32 → (!acc.unaligned) = true → f.rgb = true → f.lum = false → f.alpha = true →
      decide (lsb f.depth ≠ acc.masks) = false := by
    intro k1 k2 k3 k4 k5
    have := F.full hl k1 (by simpa using k2) k3 k4 k5
    simp [this]
  have FR := fun h => F.apartRgb (hl.symm.trans h)
  have F3 : ∀ c ∈ [f.r, f.g, f.b, f.a], c.shift + c.size ≤ f.depth := fun c hc => (F.size c hc).2
  by_cases hsw : f.swap = true
  · by_cases h8 : f.depth ≤ 8
    · have e : finish { f with prem := f.prem && f.alpha } acc (decide (lsb f.depth ≠ acc.masks)) =
          { f with prem := f.prem && f.alpha, swap := false, aligned := !acc.unaligned, undef := decide (lsb f.depth ≠ acc.masks) } := by
        simp [finish, hsw, h8]
      rw [e]
      have S := F.size
      simp only [List.mem_cons, List.not_mem_nil, or_false, forall_eq_or_imp, forall_eq] at S
      refine ⟨F.any, rfl, hd32, rfl, rfl, rfl, rfl, hi, ⟨⟨S.1.1, by dsimp only; clear hd; omega⟩, ⟨S.2.1.1, by dsimp only; clear hd; omega⟩,
        ⟨S.2.2.1.1, by dsimp only; clear hd; omega⟩, ⟨S.2.2.2.1, by dsimp only; clear hd; omega⟩⟩, ?_, F.alpha, ?_, F3, ?_, ⟨rfl, rfl, rfl, rfl⟩, fun _ => rfl, fun _ => rfl, FA, FR, FU, hd⟩
      · rcases F.rgb with h | ⟨h, h1, h2, h3⟩
        · exact Or.inl h
        · exact Or.inr ⟨h, by simp [h1], by simp [h2], by simp [h3]⟩
      · intro ha
        exact F.aligned (by simpa using ha)
      · intro l hl
        rw [number_one false l (by omega), number_one f.swap l (by omega)]
        exact ⟨rfl, rfl, rfl, rfl⟩
    · by_cases hc : acc.crosses = true
      · have e : finish { f with prem := f.prem && f.alpha } acc (decide (lsb f.depth ≠ acc.masks)) =
            { f with prem := f.prem && f.alpha, aligned := !acc.unaligned, undef := decide (lsb f.depth ≠ acc.masks) } := by
          simp [finish, hsw, h8, hc]
        rw [e]
        have S := F.size
        simp only [List.mem_cons, List.not_mem_nil, or_false, forall_eq_or_imp, forall_eq] at S
        refine ⟨F.any, rfl, hd32, rfl, rfl, rfl, rfl, hi, ⟨⟨S.1.1, by dsimp only; clear hd; omega⟩, ⟨S.2.1.1, by dsimp only; clear hd; omega⟩,
          ⟨S.2.2.1.1, by dsimp only; clear hd; omega⟩, ⟨S.2.2.2.1, by dsimp only; clear hd; omega⟩⟩, ?_, F.alpha, ?_, F3, ?_, ⟨rfl, rfl, rfl, rfl⟩,
          fun h => absurd h h8, fun h => by
            obtain ⟨k, hm, h0, hx⟩ := F.outside hc
            have := F.aligned (by simpa using h) k hm h0
            omega, FA, FR, FU, hd⟩
        · rcases F.rgb with h | ⟨h, h1, h2, h3⟩
          · exact Or.inl h
          · exact Or.inr ⟨h, by simp [h1], by simp [h2], by simp [h3]⟩
        · intro ha
          exact F.aligned (by simpa using ha)
        · intro l hl
          exact ⟨rfl, rfl, rfl, rfl⟩
      · have hc : acc.crosses = false := by simpa using hc
        have e : finish { f with prem := f.prem && f.alpha } acc (decide (lsb f.depth ≠ acc.masks)) =
            { f with
              prem := f.prem && f.alpha, swap := false
              r := f.r.swapped f.depth, g := f.g.swapped f.depth, b := f.b.swapped f.depth, a := f.a.swapped f.depth
              aligned := !acc.unaligned, undef := decide (lsb f.depth ≠ acc.masks) } := by
          simp [finish, hsw, h8, hc]
        rw [e]
        have hin := F.inside hc
        have hsz : ∀ c ∈ [f.r, f.g, f.b, f.a], c.size = 0 ∨ c.size = 8 := by
          rcases hs hsw with ⟨c, hm, h0, hx⟩ | h
          · exact absurd (hin c hm h0) hx
          · exact h
        have S := F.size
        simp only [List.mem_cons, List.not_mem_nil, or_false, forall_eq_or_imp, forall_eq] at S hin hsz
        have W := fun c hc => swapped_within f.depth c hc
        have A := F.aligned
        simp only [List.mem_cons, List.not_mem_nil, or_false, forall_eq_or_imp, forall_eq] at A
        refine ⟨F.any, rfl, hd32, rfl, rfl, rfl, rfl, hi, ⟨⟨?_, ?_⟩, ⟨?_, ?_⟩, ⟨?_, ?_⟩, ⟨?_, ?_⟩⟩, ?_, ?_, ?_, ?_, ?_,
          ⟨swapped_size _ _, swapped_size _ _, swapped_size _ _, swapped_size _ _⟩, fun _ => rfl, fun _ => rfl,
          ⟨apart_swapped _ _ _ FA.1 S.1.2 S.2.2.2.2, apart_swapped _ _ _ FA.2.1 S.2.1.2 S.2.2.2.2,
            apart_swapped _ _ _ FA.2.2 S.2.2.1.2 S.2.2.2.2⟩,
          fun h => ⟨apart_swapped _ _ _ (FR h).1 S.1.2 S.2.1.2, apart_swapped _ _ _ (FR h).2.1 S.1.2 S.2.2.1.2,
            apart_swapped _ _ _ (FR h).2.2 S.2.1.2 S.2.2.1.2⟩, FU, hd⟩
        · rw [swapped_size]; exact S.1.1
        · have := W f.r S.1.2; dsimp only; clear hd; omega
        · rw [swapped_size]; exact S.2.1.1
        · have := W f.g S.2.1.2; dsimp only; clear hd; omega
        · rw [swapped_size]; exact S.2.2.1.1
        · have := W f.b S.2.2.1.2; dsimp only; clear hd; omega
        · rw [swapped_size]; exact S.2.2.2.1
        · have := W f.a S.2.2.2.2; dsimp only; clear hd; omega
        · simp only [swapped_size]
          rcases F.rgb with h | ⟨h, h1, h2, h3⟩
          · exact Or.inl h
          · exact Or.inr ⟨h, by simp [h1], by simp [h2], by simp [h3]⟩
        · simp only [swapped_size]
          rcases F.alpha with h | ⟨h, h1⟩
          · exact Or.inl h
          · exact Or.inr ⟨h, by rw [h1, swapped_zero]⟩
        · intro ha
          have A := A (by simpa using ha)
          simp only [List.mem_cons, List.not_mem_nil, or_false, forall_eq_or_imp, forall_eq]
          exact ⟨swapped_aligned _ _ (hd8 h8) S.1.2 A.1, swapped_aligned _ _ (hd8 h8) S.2.1.2 A.2.1,
            swapped_aligned _ _ (hd8 h8) S.2.2.1.2 A.2.2.1, swapped_aligned _ _ (hd8 h8) S.2.2.2.2 A.2.2.2⟩
        · simp only [List.mem_cons, List.not_mem_nil, or_false, forall_eq_or_imp, forall_eq]
          exact ⟨W _ S.1.2, W _ S.2.1.2, W _ S.2.2.1.2, W _ S.2.2.2.2⟩
        · intro l hl
          have n1 : number false l = leVal l := by rw [number_eq]; rfl
          have n2 : number f.swap l = leVal l.reverse := by rw [number_eq, hsw]; rfl
          have T : ∀ c : Ch, (c.size = 0 ∨ c.size = 8) → (c.size ≠ 0 → c.shift / 8 = (c.shift + c.size - 1) / 8) →
              c.shift + c.size ≤ f.depth →
              Spec.field (c.swapped f.depth) (number false l) = Spec.field c (number f.swap l) := by
            intro c k1 k2 k3
            rw [n1, n2, ← hl]
            exact swapped_field c l k1 k2 (by rw [hl]; exact k3)
          exact ⟨T _ hsz.1 hin.1 S.1.2, T _ hsz.2.1 hin.2.1 S.2.1.2, T _ hsz.2.2.1 hin.2.2.1 S.2.2.1.2,
            T _ hsz.2.2.2 hin.2.2.2 S.2.2.2.2⟩
  · have e : finish { f with prem := f.prem && f.alpha } acc (decide (lsb f.depth ≠ acc.masks)) =
        { f with prem := f.prem && f.alpha, aligned := !acc.unaligned, undef := decide (lsb f.depth ≠ acc.masks) } := by
      simp [finish, hsw]
    rw [e]
    have S := F.size
    simp only [List.mem_cons, List.not_mem_nil, or_false, forall_eq_or_imp, forall_eq] at S
    refine ⟨F.any, rfl, hd32, rfl, rfl, rfl, rfl, hi, ⟨⟨S.1.1, by dsimp only; clear hd; omega⟩, ⟨S.2.1.1, by dsimp only; clear hd; omega⟩,
      ⟨S.2.2.1.1, by dsimp only; clear hd; omega⟩, ⟨S.2.2.2.1, by dsimp only; clear hd; omega⟩⟩, ?_, F.alpha, ?_, F3, ?_, ⟨rfl, rfl, rfl, rfl⟩,
      fun _ => by simpa using hsw, fun _ => by simpa using hsw, FA, FR, FU, hd⟩
    · rcases F.rgb with h | ⟨h, h1, h2, h3⟩
      · exact Or.inl h
      · exact Or.inr ⟨h, by simp [h1], by simp [h2], by simp [h3]⟩
    · intro ha
      exact F.aligned (by simpa using ha)
    · intro l hl
      exact ⟨rfl, rfl, rfl, rfl⟩

end Blend2D.PixConv
