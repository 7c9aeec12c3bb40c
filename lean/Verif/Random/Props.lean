import Verif.Random.Model
import Mathlib.Data.Rat.Defs
import Mathlib.Tactic.NormNum
import Mathlib.Tactic.Linarith
import Mathlib.Tactic.FieldSimp
import Mathlib.Tactic.Positivity
import Mathlib.Data.Fintype.EquivFin
import Mathlib.Data.Fintype.Prod
import Mathlib.Data.Fintype.Pigeonhole
import Mathlib.Tactic.Ring

/-!
# The generator never degenerates (C28)
-/

namespace Blend2D.Random

/-! ## Specification of IEEE-754 binary64 values -/

/-- The value of a positive normal double from its bit pattern. -/
def normalValue (bits : BitVec 64) : Rat :=
  let e : Nat := (bits.toNat / 2 ^ 52) % 2 ^ 11
  let m : Nat := bits.toNat % 2 ^ 52
  (1 + m / 2 ^ 52) * 2 ^ e / 2 ^ 1023

/-- A positive normal bit pattern: sign clear, exponent field neither 0 nor all ones. -/
def IsPosNormal (bits : BitVec 64) : Prop :=
  bits.toNat < 2 ^ 63 ∧ 0 < (bits.toNat / 2 ^ 52) % 2 ^ 11 ∧ (bits.toNat / 2 ^ 52) % 2 ^ 11 < 2 ^ 11 - 1

/-! ## Injectivity -/

theorem xor_shr_inj {w k : Nat} (hk : 0 < k) {a b : BitVec w} (h : a ^^^ (a >>> k) = b ^^^ (b >>> k)) :
    a = b := by
  have key : ∀ n i, w ≤ i + n → a.getLsbD i = b.getLsbD i := by
    intro n
    induction n with
    | zero =>
      intro i hi
      rw [BitVec.getLsbD_of_ge _ _ (by omega), BitVec.getLsbD_of_ge _ _ (by omega)]
    | succ n ih =>
      intro i hi
      have h1 := ih (k + i) (by omega)
      have h2 := congrArg (fun z => z.getLsbD i) h
      simp only [BitVec.getLsbD_xor, BitVec.getLsbD_ushiftRight, h1] at h2
      revert h2
      cases a.getLsbD i <;> cases b.getLsbD i <;> cases b.getLsbD (k + i) <;> simp
  apply BitVec.eq_of_getLsbD_eq
  intro i hi
  exact key w i (by omega)

theorem xor_shl_inj {w k : Nat} (hk : 0 < k) {a b : BitVec w} (h : a ^^^ (a <<< k) = b ^^^ (b <<< k)) :
    a = b := by
  have key : ∀ n i, i < n → a.getLsbD i = b.getLsbD i := by
    intro n
    induction n with
    | zero => intro i hi; omega
    | succ n ih =>
      intro i hi
      have h2 := congrArg (fun z => z.getLsbD i) h
      simp only [BitVec.getLsbD_xor, BitVec.getLsbD_shiftLeft] at h2
      by_cases hik : i < k
      · simpa [hik] using h2
      · have h1 := ih (i - k) (by omega)
        rw [h1] at h2
        revert h2
        generalize (decide (i < w) && !decide (i < k) && b.getLsbD (i - k)) = z
        cases a.getLsbD i <;> cases b.getLsbD i <;> cases z <;> simp
  apply BitVec.eq_of_getLsbD_eq
  intro i hi
  exact key (i + 1) i (by omega)

/-- **C28.** Two different states never step to the same state: the generator is a
permutation of its state space. -/
theorem C28_step_injective (s t : State) (h : next s = next t) : s = t := by
  simp only [next, State.mk.injEq] at h
  obtain ⟨h1, h2⟩ := h
  have hy := xor_shr_inj (by decide) h1
  rw [h1] at h2
  have h3 := BitVec.xor_left_inj _ |>.1 h2
  have h4 := xor_shr_inj (by decide) h3
  have hx := xor_shl_inj (by decide) h4
  cases s; cases t; simp_all

/-- **C28.** Whatever the seed and however many numbers have been taken, the state is not
all-zero (so the stream can not get stuck at zero). -/
theorem C28_never_zero (seed : BitVec 64) (n : Nat) : steps n (resetSeed seed) ≠ ⟨0, 0⟩ := by
  induction n with
  | zero =>
    intro h
    have hx : (resetSeed seed).x = 0 := by rw [show steps 0 (resetSeed seed) = resetSeed seed from rfl] at h; rw [h]
    simp only [resetSeed, splitmix] at hx
    split at hx
    · contradiction
    · exact absurd hx (by decide)
  | succ n ih =>
    intro h
    apply ih
    apply C28_step_injective
    rw [show next (steps n (resetSeed seed)) = ⟨0, 0⟩ from h]
    decide

theorem steps_eq_iterate (n : Nat) (s : State) : steps n s = next^[n] s := by
  induction n with
  | zero => rfl
  | succ n ih => rw [Function.iterate_succ_apply', ← ih]; rfl

/-- The finitely many states. -/
instance : Finite State := by
  apply Finite.of_injective (β := Fin (2 ^ 64) × Fin (2 ^ 64)) (fun s => (s.x.toFin, s.y.toFin))
  intro a b h
  simp only [Prod.mk.injEq, BitVec.toFin_inj] at h
  cases a; cases b; simp_all

/-- **C28.** The stream has no transient part: from every state the generator comes back
to that very state after some number of steps. -/
theorem C28_purely_periodic (s : State) : ∃ n, 0 < n ∧ steps n s = s := by
  have hinj : Function.Injective next := fun a b h => C28_step_injective a b h
  obtain ⟨i, j, hij, heq⟩ := Finite.exists_ne_map_eq_of_infinite (fun n : Nat => next^[n] s)
  have key : ∀ i j, i < j → next^[i] s = next^[j] s → ∃ n, 0 < n ∧ steps n s = s := by
    intro i j hlt h
    refine ⟨j - i, by omega, ?_⟩
    have : next^[i] (next^[j - i] s) = next^[i] s := by
      rw [← Function.iterate_add_apply, h]; congr 1; omega
    rw [steps_eq_iterate]
    exact hinj.iterate i this
  rcases Nat.lt_or_gt_of_ne hij with h | h
  · exact key i j h heq
  · exact key j i h heq.symm

/-! ## Doubles -/

theorem or_exp (m : Nat) (hm : m < 2 ^ 52) : m ||| 0x3FF0000000000000 = 0x3FF * 2 ^ 52 + m := by
  have := Nat.shiftLeft_add_eq_or_of_lt hm 0x3FF
  rw [Nat.shiftLeft_eq] at this
  rw [this, Nat.or_comm]

/-- **C28.** `next_double` is in `[0, 1)`: the bit pattern it builds is a normal double in
`[1, 2)`, and the difference to `1.0` is a multiple of `2^-52` below one with at most 53
significant bits, hence exactly representable and not changed by rounding; it is the
fraction given by the upper 52 bits of the 64-bit number. -/
theorem C28_double_in_unit_interval (s : State) :
    IsPosNormal (doubleBits s) ∧
    0 ≤ normalValue (doubleBits s) - 1 ∧ normalValue (doubleBits s) - 1 < 1 ∧
    normalValue (doubleBits s) - 1 = ((nextU64 s).toNat / 2 ^ 12 : Nat) / 2 ^ 52 ∧
    (nextU64 s).toNat / 2 ^ 12 < 2 ^ 53 := by
  have hm : (nextU64 s).toNat / 2 ^ 12 < 2 ^ 52 := by have := (nextU64 s).isLt; omega
  have hb : (doubleBits s).toNat = 0x3FF * 2 ^ 52 + (nextU64 s).toNat / 2 ^ 12 := by
    rw [← or_exp _ hm]
    simp [doubleBits, Nat.shiftRight_eq_div_pow]
  have he : ((doubleBits s).toNat / 2 ^ 52) % 2 ^ 11 = 1023 := by rw [hb]; omega
  have hr : (doubleBits s).toNat % 2 ^ 52 = (nextU64 s).toNat / 2 ^ 12 := by rw [hb]; omega
  obtain ⟨m, hmm⟩ : ∃ m, (nextU64 s).toNat / 2 ^ 12 = m := ⟨_, rfl⟩
  rw [hmm] at hm hb hr ⊢
  have hv : normalValue (doubleBits s) - 1 = (m : Rat) / 2 ^ 52 := by
    unfold normalValue
    simp only [he, hr]
    have : (2 : Rat) ^ 1023 ≠ 0 := by positivity
    field_simp
    ring
  have hmq : (m : Rat) < 2 ^ 52 := by exact_mod_cast hm
  refine ⟨⟨by rw [hb]; omega, by rw [he]; decide, by rw [he]; decide⟩, ?_, ?_, hv, by omega⟩
  · rw [hv]; positivity
  · rw [hv, div_lt_one (by positivity)]; exact hmq

/-- Non-vacuity: the state of seed zero. -/
example : resetSeed 0 = ⟨0xe220a8397b1dcdaf#64, 0x6e789e6aa1b965f4#64⟩ := by decide
example : splitmix 0 = 0x1F0A2BE71D163FA0#64 := by decide

end Blend2D.Random
