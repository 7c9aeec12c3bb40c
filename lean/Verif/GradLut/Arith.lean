import Verif.GradLut.Model
import Verif.GradLut.Spec
import Mathlib.Tactic.Linarith
import Mathlib.Tactic.Ring
import Mathlib.Tactic.Positivity
import Mathlib.Algebra.Order.Floor.Ring
import Mathlib.Algebra.Order.Ring.Abs
import Mathlib.Tactic.Push

/-!
# Stepping from one component to another
-/

namespace Blend2D.GradLut

open Spec

/-- The quotient that is added in every step, between zero and the whole distance. -/
theorem tdiv_bounds (D : Int) (n : Nat) (hn : 0 < n) :
    (0 ≤ D → 0 ≤ D.tdiv n ∧ n * D.tdiv n ≤ D ∧ D < n * D.tdiv n + n) ∧
    (D ≤ 0 → D.tdiv n ≤ 0 ∧ D ≤ n * D.tdiv n ∧ n * D.tdiv n - n < D) := by
  have hn' : (0 : Int) < n := by exact_mod_cast hn
  constructor
  · intro h
    rw [Int.tdiv_eq_ediv_of_nonneg h]
    refine ⟨Int.ediv_nonneg h hn'.le, Int.mul_ediv_self_le hn'.ne', ?_⟩
    have := Int.lt_mul_ediv_self_add (x := D) hn'
    linarith
  · intro h
    have e : D.tdiv n = -((-D) / n) := by
      rw [← Int.tdiv_eq_ediv_of_nonneg (by omega), Int.neg_tdiv, neg_neg]
    rw [e]
    have h1 : 0 ≤ (-D) / (n : Int) := Int.ediv_nonneg (by omega) hn'.le
    have h2 : (n : Int) * ((-D) / n) ≤ -D := Int.mul_ediv_self_le hn'.ne'
    have h3 := Int.lt_mul_ediv_self_add (x := -D) hn'
    refine ⟨by omega, by linarith, by linarith⟩

/-- The component after `k` of `n` steps from `a` to `b`, in units of `1 / (2 * H)`. -/
def fix (H : Nat) (a b n k : Nat) : Int :=
  (a * (2 * H) + H : Int) + k * ((b * (2 * H) : Int) - a * (2 * H)).tdiv n

theorem fix_range (H a b n k : Nat) (hn : 0 < n) (hk : k ≤ n) :
    ((min a b : Nat) : Int) * (2 * H) + H ≤ fix H a b n k ∧ fix H a b n k ≤ ((max a b : Nat) : Int) * (2 * H) + H := by
  obtain ⟨h1, h2⟩ := tdiv_bounds ((b * (2 * H) : Int) - a * (2 * H)) n hn
  have hk' : (k : Int) ≤ n := by exact_mod_cast hk
  have hk0 : (0 : Int) ≤ k := by omega
  unfold fix
  generalize ht : ((b * (2 * H) : Int) - a * (2 * H)).tdiv n = t at *
  rcases Nat.le_total a b with h | h
  · have hab : (a : Int) * (2 * H) ≤ b * (2 * H) := by
      have : (a : Int) ≤ b := by exact_mod_cast h
      exact mul_le_mul_of_nonneg_right this (by positivity)
    obtain ⟨g1, g2, _⟩ := h1 (by linarith)
    rw [min_eq_left h, max_eq_right h]
    have e1 : 0 ≤ (k : Int) * t := mul_nonneg hk0 g1
    have e2 : (k : Int) * t ≤ n * t := mul_le_mul_of_nonneg_right hk' g1
    constructor <;> linarith
  · have hab : (b : Int) * (2 * H) ≤ a * (2 * H) := by
      have : (b : Int) ≤ a := by exact_mod_cast h
      exact mul_le_mul_of_nonneg_right this (by positivity)
    obtain ⟨g1, g2, _⟩ := h2 (by linarith)
    rw [min_eq_right h, max_eq_left h]
    have e1 : (k : Int) * t ≤ 0 := mul_nonpos_of_nonneg_of_nonpos hk0 g1
    have e2 : (n : Int) * t ≤ k * t := mul_le_mul_of_nonpos_right hk' g1
    constructor <;> linarith

/-- The error of the stepped component. -/
theorem fix_near (H a b n k : Nat) (hn : 0 < n) (hH : 0 < H) :
    2 * (H : Int) * |(n : Int) * (fix H a b n k / (2 * H)) - (n * a + k * ((b : Int) - a))| ≤ n * H + k * (n - 1) := by
  have hb := tdiv_bounds ((b * (2 * H) : Int) - a * (2 * H)) n hn
  have hk0 : (0 : Int) ≤ k := by omega
  have hn0 : (0 : Int) ≤ n := by omega
  have hH' : (0 : Int) < 2 * H := by omega
  generalize hx : fix H a b n k / (2 * H) = x
  have x1 : (2 * H : Int) * x ≤ fix H a b n k := hx ▸ Int.mul_ediv_self_le hH'.ne'
  have x2 : fix H a b n k < (2 * H : Int) * x + 2 * H := hx ▸ Int.lt_mul_ediv_self_add hH'
  unfold fix at x1 x2
  generalize ht : ((b * (2 * H) : Int) - a * (2 * H)).tdiv n = t at *
  have he : ∃ e : Int, k * ((b * (2 * H) : Int) - a * (2 * H)) = k * (n * t) + e ∧ -(k * (n - 1) : Int) ≤ e ∧ e ≤ k * (n - 1) := by
    refine ⟨k * (((b * (2 * H) : Int) - a * (2 * H)) - n * t), by ring, ?_, ?_⟩
    · rw [← mul_neg]
      apply mul_le_mul_of_nonneg_left _ hk0
      rcases le_total 0 ((b * (2 * H) : Int) - a * (2 * H)) with h | h
      · have := hb.1 h; omega
      · have := hb.2 h; omega
    · apply mul_le_mul_of_nonneg_left _ hk0
      rcases le_total 0 ((b * (2 * H) : Int) - a * (2 * H)) with h | h
      · have := hb.1 h; omega
      · have := hb.2 h; omega
  obtain ⟨e, he, e1, e2⟩ := he
  have y1 := mul_le_mul_of_nonneg_left x1 hn0
  have y2 : (n : Int) * (a * (2 * H) + H + k * t) ≤ n * (2 * H * x + 2 * H) := mul_le_mul_of_nonneg_left x2.le hn0
  rw [← abs_of_pos hH', ← abs_mul, abs_le]
  constructor <;> nlinarith

/-- The last step is exact. -/
theorem near_end {p q a b n x : Nat} (hpq : p < q) (hn : 0 < n) (h : Near p q a b n n x) : x = b := by
  unfold Near at h
  have e : (n : Int) * x - (n * a + n * ((b : Int) - a)) = n * ((x : Int) - b) := by ring
  rw [e, abs_mul] at h
  have hn' : (0 : Int) < n := by omega
  rw [abs_of_pos hn'] at h
  by_contra hne
  have h1 : 1 ≤ |(x : Int) - b| := Int.one_le_abs (by omega)
  have hpq' : (p : Int) < q := by omega
  have : (p : Int) * n < q * (n * |(x : Int) - b|) := by
    calc (p : Int) * n < q * n := mul_lt_mul_of_pos_right hpq' hn'
      _ = q * (n * 1) := by ring
      _ ≤ _ := mul_le_mul_of_nonneg_left (mul_le_mul_of_nonneg_left h1 hn'.le) (by omega)
  linarith

/-- So is the first one. -/
theorem near_zero {p q a b n x : Nat} (hpq : p < q) (hn : 0 < n) (h : Near p q a b 0 n x) : x = a := by
  apply near_end (a := a) hpq hn
  unfold Near at h ⊢
  have e : (n : Int) * x - (n * a + n * ((a : Int) - a)) = n * x - (n * a + (0 : Nat) * ((b : Int) - a)) := by
    push_cast; ring
  rw [e]; exact h

theorem near_self (p q a b k n : Nat) (h : k = 0 ∨ a = b) : Near p q a b k n a := by
  unfold Near
  rcases h with h | h <;> subst h <;> simp <;> positivity

theorem fix32 (a b n k : Nat) (hn : 0 < n) (hk : k ≤ n) (h : n < 2048) :
    Near 1 2 a b k n (fix 4194304 a b n k / 8388608).toNat := by
  have h1 := fix_near 4194304 a b n k hn (by omega)
  have hr := fix_range 4194304 a b n k hn hk
  unfold Near
  have hpos : 0 ≤ fix 4194304 a b n k / 8388608 := by
    apply Int.ediv_nonneg _ (by omega)
    have : (0 : Int) ≤ ((min a b : Nat) : Int) := by omega
    generalize ((min a b : Nat) : Int) = m at *
    have := hr.1
    norm_num at this; omega
  rw [Int.toNat_of_nonneg hpos]
  norm_num at h1 ⊢
  generalize |(n : Int) * (fix 4194304 a b n k / 8388608) - (n * a + k * ((b : Int) - a))| = y at *
  have hkn : (k : Int) * (n - 1) ≤ 2047 * 2046 := by
    apply mul_le_mul <;> omega
  omega

theorem fix64 (a b n k : Nat) (hn : 0 < n) (hk : k ≤ n) (h : n < 1024) :
    Near 17 32 a b k n (fix 16384 a b n k / 32768).toNat := by
  have h1 := fix_near 16384 a b n k hn (by omega)
  have hr := fix_range 16384 a b n k hn hk
  unfold Near
  have hpos : 0 ≤ fix 16384 a b n k / 32768 := by
    apply Int.ediv_nonneg _ (by omega)
    have : (0 : Int) ≤ ((min a b : Nat) : Int) := by omega
    generalize ((min a b : Nat) : Int) = m at *
    have := hr.1
    norm_num at this; omega
  rw [Int.toNat_of_nonneg hpos]
  norm_num at h1 ⊢
  generalize |(n : Int) * (fix 16384 a b n k / 32768) - (n * a + k * ((b : Int) - a))| = y at *
  have hkn : (k : Int) * (n - 1) ≤ n * 1022 := by
    apply mul_le_mul <;> omega
  omega

theorem roundToInt_eq (x : ℚ) : roundToInt x = ⌊x + 1 / 2⌋ := by
  unfold roundToInt nearbyToInt
  simp only
  have hlt := Int.lt_floor_add_one (x + 1 / 2)
  have hle := Int.floor_le (x + 1 / 2)
  split
  · rename_i h
    have : ((⌊x + 1 / 2⌋ - 1 : Int) : ℚ) - x = -1 / 2 := by push_cast; linarith [h.1]
    simp only [this, if_true]; omega
  · rename_i h
    rw [if_neg]
    · omega
    · intro h'
      have : (⌊x + 1 / 2⌋ : ℚ) = x - 1 / 2 := by linarith
      linarith

/-! ## The 32-bit registers -/

theorem sdiv32_toNat (x0 x1 : UInt32) (n : Nat) (h0 : x0.toNat < 2147483648) (h1 : x1.toNat < 2147483648) :
    ((sdiv32 (x1 - x0) n).toNat : Int) = ((x1.toNat : Int) - x0.toNat).tdiv n % 4294967296 := by
  have hs : (if (x1 - x0).toNat < 2147483648 then ((x1 - x0).toNat : Int) else ((x1 - x0).toNat : Int) - 4294967296)
      = (x1.toNat : Int) - x0.toNat := by
    rw [UInt32.toNat_sub]
    norm_num
    split <;> omega
  unfold sdiv32
  simp only [hs]
  rw [UInt32.toNat_ofNat']
  generalize ((x1.toNat : Int) - x0.toNat).tdiv n = t
  have := Int.emod_nonneg t (b := 4294967296) (by omega)
  have := Int.emod_lt_of_pos t (b := 4294967296) (by omega)
  norm_num
  omega

/-- The register after `k` steps. -/
theorem comp_pos (H a b n : Nat) (x0 x1 half : UInt32) (hx0 : x0.toNat = a * (2 * H)) (hx1 : x1.toNat = b * (2 * H)) (hh : half.toNat = H)
    (ha : a * (2 * H) + H < 2147483648) (hb : b * (2 * H) + H < 2147483648) (hn : 0 < n) :
    ∀ k ≤ n, ((Comp.step^[k] (Comp.start x0 x1 half n)).pos.toNat : Int) = fix H a b n k ∧
      (Comp.step^[k] (Comp.start x0 x1 half n)).inc = sdiv32 (x1 - x0) n := by
  intro k
  have hsd := sdiv32_toNat x0 x1 n (by omega) (by omega)
  induction k with
  | zero =>
    intro _
    refine ⟨?_, rfl⟩
    show (((x0 + half).toNat : Nat) : Int) = _
    rw [UInt32.toNat_add, hx0, hh, Nat.mod_eq_of_lt (by omega)]
    simp [fix]
  | succ k ih =>
    intro hk
    obtain ⟨i1, i2⟩ := ih (by omega)
    rw [Function.iterate_succ_apply']
    refine ⟨?_, i2⟩
    show (((Comp.step^[k] (Comp.start x0 x1 half n)).pos + (Comp.step^[k] (Comp.start x0 x1 half n)).inc).toNat : Int) = _
    rw [i2, UInt32.toNat_add]
    have hr := fix_range H a b n (k + 1) hn hk
    have hstep : fix H a b n (k + 1) = fix H a b n k + ((b * (2 * H) : Int) - a * (2 * H)).tdiv n := by
      unfold fix; push_cast; ring
    rw [hx0, hx1] at hsd
    push_cast at hsd ⊢
    rw [i1, hsd]
    have e : (fix H a b n k + ((b * (2 * H) : Int) - a * (2 * H)).tdiv n % 4294967296) % 4294967296 = fix H a b n (k + 1) % 4294967296 := by
      rw [hstep, Int.add_emod_emod]
    rw [e]
    apply Int.emod_eq_of_lt
    · refine le_trans ?_ hr.1
      positivity
    · refine lt_of_le_of_lt hr.2 ?_
      rcases Nat.le_total a b with h | h
      · rw [max_eq_right h]; zify at hb; omega
      · rw [max_eq_left h]; zify at ha; omega

end Blend2D.GradLut
