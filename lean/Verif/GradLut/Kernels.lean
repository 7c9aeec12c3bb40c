import Verif.GradLut.Arith
import Verif.Pixel.Lemmas
import Verif.Pixel.Lemmas64
import Mathlib.Tactic.IntervalCases

/-!
# The inner loops produce the blended pixels
-/

namespace Blend2D.GradLut

open Blend2D.Pixel Blend2D.Pixel.Spec Spec Bits

theorem Ramp.iter (s : Ramp) (k : Nat) :
    Ramp.step^[k] s = { r := Comp.step^[k] s.r, g := Comp.step^[k] s.g, b := Comp.step^[k] s.b, a := Comp.step^[k] s.a, opq := s.opq } := by
  induction k generalizing s with
  | zero => rfl
  | succ k ih => rw [Function.iterate_succ_apply, ih]; rfl

theorem and_mask23 (x : Nat) : x &&& 2139095040 = x / 8388608 % 256 * 8388608 := by
  apply Nat.eq_of_testBit_eq
  intro i
  have e : (2139095040 : Nat) = (2 ^ 8 - 1) <<< 23 := by decide
  rw [e, show (8388608 : Nat) = 2 ^ 23 from rfl, show (256 : Nat) = 2 ^ 8 from rfl, ← Nat.shiftLeft_eq, ← Nat.shiftRight_eq_div_pow]
  simp only [Nat.testBit_and, Nat.testBit_shiftLeft, Nat.testBit_two_pow_sub_one, Nat.testBit_mod_two_pow, Nat.testBit_shiftRight]
  by_cases h : 23 ≤ i
  · rw [show 23 + (i - 23) = i by omega]
    by_cases h2 : i - 23 < 8 <;> simp [h, h2]
  · simp [h]

theorem and_mask15 (x : Nat) : x &&& 2147450880 = x / 32768 % 65536 * 32768 := by
  apply Nat.eq_of_testBit_eq
  intro i
  have e : (2147450880 : Nat) = (2 ^ 16 - 1) <<< 15 := by decide
  rw [e, show (32768 : Nat) = 2 ^ 15 from rfl, show (65536 : Nat) = 2 ^ 16 from rfl, ← Nat.shiftLeft_eq, ← Nat.shiftRight_eq_div_pow]
  simp only [Nat.testBit_and, Nat.testBit_shiftLeft, Nat.testBit_two_pow_sub_one, Nat.testBit_mod_two_pow, Nat.testBit_shiftRight]
  by_cases h : 15 ≤ i
  · rw [show 15 + (i - 15) = i by omega]
    by_cases h2 : i - 15 < 16 <;> simp [h, h2]
  · simp [h]

theorem mask32_toNat : mask32.toNat = 2139095040 := by decide
theorem mask64_toNat : mask64.toNat = 2147450880 := by decide
theorem half32_toNat : ((1 : UInt32) <<< 22).toNat = 4194304 := by decide
theorem half64_toNat : ((1 : UInt32) <<< 14).toNat = 16384 := by decide

/-! ## 32-bit -/

theorem place32_r (c : UInt32) : ((c <<< 7) &&& mask32).toNat = chan 2 c.toNat * (2 * 4194304) := by
  have := c.toNat_lt
  rw [UInt32.toNat_and, mask32_toNat, and_mask23, (chan_vals _).2.2.1]
  simp only [UInt32.toNat_shiftLeft, UInt32.reduceToNat, Nat.shiftLeft_eq, Nat.reducePow, Nat.reduceMod]
  omega

theorem place32_g (c : UInt32) : ((c <<< 15) &&& mask32).toNat = chan 1 c.toNat * (2 * 4194304) := by
  have := c.toNat_lt
  rw [UInt32.toNat_and, mask32_toNat, and_mask23, (chan_vals _).2.1]
  simp only [UInt32.toNat_shiftLeft, UInt32.reduceToNat, Nat.shiftLeft_eq, Nat.reducePow, Nat.reduceMod]
  omega

theorem place32_b (c : UInt32) : ((c <<< 23) &&& mask32).toNat = chan 0 c.toNat * (2 * 4194304) := by
  have := c.toNat_lt
  rw [UInt32.toNat_and, mask32_toNat, and_mask23, (chan_vals _).1]
  simp only [UInt32.toNat_shiftLeft, UInt32.reduceToNat, Nat.shiftLeft_eq, Nat.reducePow, Nat.reduceMod]
  omega

theorem place32_a (c : UInt32) : ((c >>> 1) &&& mask32).toNat = chan 3 c.toNat * (2 * 4194304) := by
  have := c.toNat_lt
  rw [UInt32.toNat_and, mask32_toNat, and_mask23, (chan_vals _).2.2.2]
  simp only [UInt32.toNat_shiftRight, UInt32.reduceToNat, Nat.shiftRight_eq_div_pow, Nat.reducePow, Nat.reduceMod]
  omega

/-- A register after `k` steps holds the interpolated component. -/
theorem reg32 (a b n k : Nat) (x0 x1 : UInt32) (ha : a ≤ 255) (hb : b ≤ 255) (hx0 : x0.toNat = a * (2 * 4194304)) (hx1 : x1.toNat = b * (2 * 4194304))
    (hn : 0 < n) (hk : k ≤ n) (hn' : n < 2048) :
    ∃ x ≤ 255, Near 1 2 a b k n x ∧ min a b ≤ x ∧ (Comp.step^[k] (Comp.start x0 x1 ((1 : UInt32) <<< 22) n)).pos.toNat / 8388608 = x ∧
      (Comp.step^[k] (Comp.start x0 x1 ((1 : UInt32) <<< 22) n)).pos.toNat < 2147483648 := by
  have h1 := (comp_pos 4194304 a b n x0 x1 _ hx0 hx1 half32_toNat (by omega) (by omega) hn k hk).1
  have h2 := fix32 a b n k hn hk hn'
  have h3 := fix_range 4194304 a b n k hn hk
  generalize (Comp.step^[k] (Comp.start x0 x1 ((1 : UInt32) <<< 22) n)).pos.toNat = z at *
  rw [← h1] at h2 h3
  have hm : ((max a b : Nat) : Int) ≤ 255 := by exact_mod_cast max_le ha hb
  generalize ((max a b : Nat) : Int) = M at *
  generalize min a b = m at *
  norm_num at h3
  have e : ((z : Int) / 8388608).toNat = z / 8388608 := by omega
  rw [e] at h2
  exact ⟨z / 8388608, by omega, h2, by omega, rfl, by omega⟩

theorem outOpaque32_toNat (s : Ramp) : (outOpaque32 s).toNat = pack4 255 (s.r.pos.toNat / 8388608 % 256) (s.g.pos.toNat / 8388608 % 256) (s.b.pos.toNat / 8388608 % 256) := by
  unfold outOpaque32
  simp only [UInt32.toNat_add, UInt32.toNat_shiftRight, UInt32.toNat_and, mask32_toNat, and_mask23, UInt32.reduceToNat, Nat.shiftRight_eq_div_pow,
    Nat.reducePow, Nat.reduceMod]
  unfold pack4
  omega

theorem place_back (x : Nat) (h : x ≤ 255) : x % 256 * 8388608 / 8388608 = x := by omega

theorem lane_pair (R B : Nat) (hR : R ≤ 255) (hB : B ≤ 255) : (B + R % 256 * 8388608 / 128) % 4294967296 = R * 65536 + B := by omega

theorem green_lane (g : Nat) (h : g ≤ 65025) :
    ((g % 4294967296 + 128) % 4294967296 + (((g % 4294967296 + 128) % 4294967296 / 16777216 % 256 * 16777216 + (g % 4294967296 + 128) % 4294967296 / 256 % 256 * 256) / 256)) % 4294967296 / 16777216 % 256 = 0 ∧
    ((g % 4294967296 + 128) % 4294967296 + (((g % 4294967296 + 128) % 4294967296 / 16777216 % 256 * 16777216 + (g % 4294967296 + 128) % 4294967296 / 256 % 256 * 256) / 256)) % 4294967296 / 256 % 256 = r255 g := by
  unfold r255
  have e1 : (g % 4294967296 + 128) % 4294967296 = g + 128 := by omega
  rw [e1]
  have e2 : (g + 128) / 16777216 % 256 = 0 := by omega
  have e3 : (0 * 16777216 + (g + 128) / 256 % 256 * 256) / 256 = (g + 128) / 256 := by omega
  rw [e2, e3]
  have e4 : (g + 128 + (g + 128) / 256) % 4294967296 = g + 128 + (g + 128) / 256 := by omega
  rw [e4]
  have h2 : (g + 128) / 256 ≤ 254 := by omega
  constructor
  · rw [Nat.div_eq_of_lt (by omega)]
  · omega

theorem rb_lane (u v : Nat) (hu : u ≤ 65025) (hv : v ≤ 65025) (y : Nat) (hy : y = ((u * 65536 + v) % 4294967296 + 8388736) % 4294967296) :
    (y + (y / 16777216 % 256 * 16777216 + y / 256 % 256 * 256) / 256) % 4294967296 / 16777216 % 256 = r255 u ∧
    (y + (y / 16777216 % 256 * 16777216 + y / 256 % 256 * 256) / 256) % 4294967296 / 256 % 256 = r255 v := by
  have l1 := lane_hi u v hu hv
  have l2 := lane_lo u v hu hv
  rw [← hy] at l1 l2
  have e : (y / 16777216 % 256 * 16777216 + y / 256 % 256 * 256) / 256 = y / 256 / 65536 % 256 * 65536 + y / 256 % 256 := by omega
  rw [e]
  exact ⟨l1, l2⟩

theorem sum_pack (A r g b : Nat) (hA : A ≤ 255) (hr : r ≤ 255) (hg : g ≤ 255) (hb : b ≤ 255) :
    ((r * 16777216 + b * 256) / 256 + (0 * 16777216 + g * 256 + A * 16777216 % 4294967296) % 4294967296) % 4294967296 = pack4 A r g b := by
  unfold pack4; omega

theorem outAlpha32_toNat (s : Ramp) (R G B A : Nat) (hr : s.r.pos.toNat / 8388608 = R) (hg : s.g.pos.toNat / 8388608 = G)
    (hb : s.b.pos.toNat / 8388608 = B) (ha : s.a.pos.toNat / 8388608 = A) (hR : R ≤ 255) (hG : G ≤ 255) (hB : B ≤ 255) (hA : A ≤ 255) :
    (outAlpha32 s).toNat = pack4 A (r255 (R * A)) (r255 (G * A)) (r255 (B * A)) := by
  unfold outAlpha32
  simp only [UInt32.toNat_add, UInt32.toNat_mul, UInt32.toNat_shiftRight, UInt32.toNat_shiftLeft, UInt32.toNat_and, mask32_toNat, and_mask23, UInt32.reduceToNat, Nat.shiftRight_eq_div_pow,
    Nat.shiftLeft_eq, Nat.reducePow, Nat.reduceMod, and_FF00FF00, hr, hg, hb, ha]
  have hRA : R * A ≤ 65025 := byte_mul_le hR hA
  have hGA : G * A ≤ 65025 := byte_mul_le hG hA
  have hBA : B * A ≤ 65025 := byte_mul_le hB hA
  rw [place_back A hA, place_back G hG, place_back B hB, lane_pair R B hR hB]
  have x1 : (R * 65536 + B) * A = (R * A) * 65536 + B * A := by
    rw [Nat.add_mul, Nat.mul_right_comm]
  rw [x1]
  obtain ⟨l1, l2⟩ := rb_lane (R * A) (B * A) hRA hBA _ rfl
  obtain ⟨l3, l4⟩ := green_lane (G * A) hGA
  rw [l1, l2, l3, l4]
  exact sum_pack _ _ _ _ hA (r255_le _ hRA) (r255_le _ hGA) (r255_le _ hBA)

theorem blend32_of (c d : UInt32) (k n : Nat) (p : UInt32) (R G B A : Nat) (hR : R ≤ 255) (hG : G ≤ 255) (hB : B ≤ 255) (hA : A ≤ 255)
    (nR : Near 1 2 (chan 2 c.toNat) (chan 2 d.toNat) k n R) (nG : Near 1 2 (chan 1 c.toNat) (chan 1 d.toNat) k n G)
    (nB : Near 1 2 (chan 0 c.toNat) (chan 0 d.toNat) k n B) (nA : Near 1 2 (chan 3 c.toNat) (chan 3 d.toNat) k n A)
    (hp : p.toNat = pack4 A (r255 (R * A)) (r255 (G * A)) (r255 (B * A))) : Blend32 c d k n p := by
  have hRA : R * A ≤ 65025 := byte_mul_le hR hA
  have hGA : G * A ≤ 65025 := byte_mul_le hG hA
  have hBA : B * A ≤ 65025 := byte_mul_le hB hA
  have l1 := r255_le _ hRA
  have l2 := r255_le _ hGA
  have l3 := r255_le _ hBA
  obtain ⟨c0, c1, c2, c3⟩ := chan_pack4 A (r255 (R * A)) (r255 (G * A)) (r255 (B * A)) (by omega) (by omega) (by omega) (by omega)
  rw [← hp] at c0 c1 c2 c3
  refine ⟨fun i => match i with | 0 => B | 1 => G | 2 => R | _ => A, ?_, c3, ?_⟩
  · intro i hi
    interval_cases i
    · exact ⟨hB, nB⟩
    · exact ⟨hG, nG⟩
    · exact ⟨hR, nR⟩
    · exact ⟨hA, nA⟩
  · intro i hi
    rw [c3]
    interval_cases i
    · rw [c0]; exact ⟨r255_nearest _ hBA, r255_mul_le _ _ hB hA⟩
    · rw [c1]; exact ⟨r255_nearest _ hGA, r255_mul_le _ _ hG hA⟩
    · rw [c2]; exact ⟨r255_nearest _ hRA, r255_mul_le _ _ hR hA⟩

theorem prem32 (c d : UInt32) (k n : Nat) (h : k = 0 ∨ c = d) : Blend32 c d k n (prgb32.prem c) := by
  have e : ∀ i, k = 0 ∨ chan i c.toNat = chan i d.toNat := fun i => h.imp id (fun h => by rw [h])
  exact blend32_of c d k n _ _ _ _ _ (chan_le _ _) (chan_le _ _) (chan_le _ _) (chan_le _ _) (near_self _ _ _ _ _ _ (e 2)) (near_self _ _ _ _ _ _ (e 1))
    (near_self _ _ _ _ _ _ (e 0)) (near_self _ _ _ _ _ _ (e 3)) (cvtPrgb_toNat c)

/-- Opaque colours. -/
theorem opq32 (c d : UInt32) (h : (0xFF000000 : UInt32) ≤ c &&& d) : chan 3 c.toNat = 255 ∧ chan 3 d.toNat = 255 := by
  have h1 : (0xFF000000 : UInt32).toNat ≤ (c &&& d).toNat := h
  rw [UInt32.toNat_and] at h1
  have h2 : c.toNat &&& d.toNat ≤ c.toNat := Nat.and_le_left
  have h3 : c.toNat &&& d.toNat ≤ d.toNat := Nat.and_le_right
  have e : (0xFF000000 : UInt32).toNat = 4278190080 := rfl
  have := c.toNat_lt
  have := d.toNat_lt
  rw [e] at h1
  rw [(chan_vals _).2.2.2, (chan_vals _).2.2.2]
  omega

theorem ramp32 (c d : UInt32) (k n : Nat) (hn : 0 < n) (hk : k ≤ n) (hn' : n < 2048) :
    Blend32 c d k n (prgb32.out (prgb32.step^[k] (prgb32.start c d n))) := by
  obtain ⟨R, hR, nR, _, pR, _⟩ := reg32 _ _ n k _ _ (chan_le 2 c.toNat) (chan_le 2 d.toNat) (place32_r c) (place32_r d) hn hk hn'
  obtain ⟨G, hG, nG, _, pG, _⟩ := reg32 _ _ n k _ _ (chan_le 1 c.toNat) (chan_le 1 d.toNat) (place32_g c) (place32_g d) hn hk hn'
  obtain ⟨B, hB, nB, _, pB, _⟩ := reg32 _ _ n k _ _ (chan_le 0 c.toNat) (chan_le 0 d.toNat) (place32_b c) (place32_b d) hn hk hn'
  obtain ⟨A, hA, nA, mA, pA, _⟩ := reg32 _ _ n k _ _ (chan_le 3 c.toNat) (chan_le 3 d.toNat) (place32_a c) (place32_a d) hn hk hn'
  show Blend32 c d k n (if (Ramp.step^[k] (start32 c d n)).opq then outOpaque32 (Ramp.step^[k] (start32 c d n)) else outAlpha32 (Ramp.step^[k] (start32 c d n)))
  rw [Ramp.iter]
  by_cases ho : (start32 c d n).opq = true
  · rw [if_pos ho]
    obtain ⟨o1, o2⟩ := opq32 c d (of_decide_eq_true ho)
    have eA : A = 255 := by rw [o1, o2] at mA; simp at mA; omega
    apply blend32_of c d k n _ R G B A hR hG hB hA nR nG nB nA
    rw [outOpaque32_toNat, eA, r255_mul_255 R hR, r255_mul_255 G hG, r255_mul_255 B hB]
    show pack4 255 ((Comp.step^[k] _).pos.toNat / 8388608 % 256) ((Comp.step^[k] _).pos.toNat / 8388608 % 256) ((Comp.step^[k] _).pos.toNat / 8388608 % 256) = _
    unfold start32
    rw [pR, pG, pB, Nat.mod_eq_of_lt (by omega), Nat.mod_eq_of_lt (by omega), Nat.mod_eq_of_lt (by omega)]
  · rw [if_neg ho]
    apply blend32_of c d k n _ R G B A hR hG hB hA nR nG nB nA
    exact outAlpha32_toNat _ R G B A pR pG pB pA hR hG hB hA

theorem end32 (c d : UInt32) (n : Nat) (p : UInt32) (hn : 0 < n) (h : Blend32 c d n n p) : Blend32 d d 0 1 p := by
  obtain ⟨x, h1, h2⟩ := h
  refine ⟨x, fun i hi => ⟨(h1 i hi).1, ?_⟩, h2⟩
  have := near_end (by omega) hn (h1 i hi).2
  rw [this]
  exact near_self _ _ _ _ _ _ (Or.inl rfl)

/-! ## 64-bit -/

theorem place64_r (c : UInt64) : ((c >>> 17).toUInt32 &&& mask64).toNat = chan16 2 c.toNat * (2 * 16384) := by
  have := c.toNat_lt
  rw [UInt32.toNat_and, mask64_toNat, and_mask15, (chan16_vals _).2.2.1]
  simp only [UInt64.toNat_toUInt32, UInt64.toNat_shiftRight, UInt64.reduceToNat, Nat.shiftRight_eq_div_pow, Nat.reducePow, Nat.reduceMod]
  omega

theorem place64_g (c : UInt64) : ((c >>> 1).toUInt32 &&& mask64).toNat = chan16 1 c.toNat * (2 * 16384) := by
  have := c.toNat_lt
  rw [UInt32.toNat_and, mask64_toNat, and_mask15, (chan16_vals _).2.1]
  simp only [UInt64.toNat_toUInt32, UInt64.toNat_shiftRight, UInt64.reduceToNat, Nat.shiftRight_eq_div_pow, Nat.reducePow, Nat.reduceMod]
  omega

theorem place64_b (c : UInt64) : ((c <<< 15).toUInt32 &&& mask64).toNat = chan16 0 c.toNat * (2 * 16384) := by
  have := c.toNat_lt
  rw [UInt32.toNat_and, mask64_toNat, and_mask15, (chan16_vals _).1]
  simp only [UInt64.toNat_toUInt32, UInt64.toNat_shiftLeft, UInt64.reduceToNat, Nat.shiftLeft_eq, Nat.reducePow, Nat.reduceMod]
  omega

theorem place64_a (c : UInt64) : ((c >>> 33).toUInt32 &&& mask64).toNat = chan16 3 c.toNat * (2 * 16384) := by
  have := c.toNat_lt
  rw [UInt32.toNat_and, mask64_toNat, and_mask15, (chan16_vals _).2.2.2]
  simp only [UInt64.toNat_toUInt32, UInt64.toNat_shiftRight, UInt64.reduceToNat, Nat.shiftRight_eq_div_pow, Nat.reducePow, Nat.reduceMod]
  omega

/-- A register after `k` steps holds the interpolated component. -/
theorem reg64 (a b n k : Nat) (x0 x1 : UInt32) (ha : a ≤ 65535) (hb : b ≤ 65535) (hx0 : x0.toNat = a * (2 * 16384)) (hx1 : x1.toNat = b * (2 * 16384))
    (hn : 0 < n) (hk : k ≤ n) (hn' : n < 1024) :
    ∃ x ≤ 65535, Near 17 32 a b k n x ∧ min a b ≤ x ∧ (Comp.step^[k] (Comp.start x0 x1 ((1 : UInt32) <<< 14) n)).pos.toNat / 32768 = x := by
  have h1 := (comp_pos 16384 a b n x0 x1 _ hx0 hx1 half64_toNat (by omega) (by omega) hn k hk).1
  have h2 := fix64 a b n k hn hk hn'
  have h3 := fix_range 16384 a b n k hn hk
  generalize (Comp.step^[k] (Comp.start x0 x1 ((1 : UInt32) <<< 14) n)).pos.toNat = z at *
  rw [← h1] at h2 h3
  have hm : ((max a b : Nat) : Int) ≤ 65535 := by exact_mod_cast max_le ha hb
  generalize ((max a b : Nat) : Int) = M at *
  generalize min a b = m at *
  norm_num at h3
  have e : ((z : Int) / 32768).toNat = z / 32768 := by omega
  rw [e] at h2
  exact ⟨z / 32768, by omega, h2, by omega, rfl⟩

theorem pack64_or4 (A R G B : Nat) (hR : R < 65536) (hG : G < 65536) (hB : B < 65536) :
    A * 281474976710656 ||| R * 4294967296 ||| G * 65536 ||| B = pack64 A R G B := by
  have h1 := or_disjoint (A * 281474976710656) (R * 4294967296) 48 (Nat.mul_mod_left _ _) (by omega)
  have h2 := or_disjoint (A * 281474976710656 + R * 4294967296) (G * 65536) 32 (by omega) (by omega)
  have h3 := or_disjoint (A * 281474976710656 + R * 4294967296 + G * 65536) B 16 (by omega) (by omega)
  rw [h1, h2, h3]
  unfold pack64; omega

theorem place64_back (x : Nat) (h : x ≤ 65535) : x % 65536 * 32768 * 131072 % 18446744073709551616 = x * 4294967296 ∧
    x % 65536 * 32768 * 2 % 18446744073709551616 = x * 65536 ∧ x % 65536 * 32768 / 32768 = x := by
  refine ⟨by omega, by omega, by omega⟩

theorem outOpaque64_toNat (s : Ramp) (R G B : Nat) (hr : s.r.pos.toNat / 32768 = R) (hg : s.g.pos.toNat / 32768 = G)
    (hb : s.b.pos.toNat / 32768 = B) (hR : R ≤ 65535) (hG : G ≤ 65535) (hB : B ≤ 65535) :
    (outOpaque64 s).toNat = pack64 65535 R G B := by
  unfold outOpaque64
  simp only [UInt64.toNat_or, UInt64.toNat_shiftLeft, UInt64.toNat_shiftRight, UInt32.toNat_toUInt64, UInt32.toNat_and, mask64_toNat, and_mask15, UInt64.reduceToNat, Nat.shiftRight_eq_div_pow,
    Nat.shiftLeft_eq, Nat.reducePow, Nat.reduceMod, hr, hg, hb]
  rw [(place64_back R hR).1, (place64_back G hG).2.1, (place64_back B hB).2.2, Nat.or_comm _ 18446462598732840960, show (18446462598732840960 : Nat) = 65535 * 281474976710656 from rfl, ← Nat.or_assoc, ← Nat.or_assoc]
  exact pack64_or4 _ _ _ _ (by omega) (by omega) (by omega)

theorem mul65535 {R A : Nat} (hR : R ≤ 65535) (hA : A ≤ 65535) : R * A ≤ 65535 * 65535 := Nat.mul_le_mul hR hA

theorem outAlpha64_toNat (s : Ramp) (R G B A : Nat) (hr : s.r.pos.toNat / 32768 = R) (hg : s.g.pos.toNat / 32768 = G)
    (hb : s.b.pos.toNat / 32768 = B) (ha : s.a.pos.toNat / 32768 = A) (hR : R ≤ 65535) (hG : G ≤ 65535) (hB : B ≤ 65535) (hA : A ≤ 65535) :
    (outAlpha64 s).toNat = pack64 A (r65535 (R * A)) (r65535 (G * A)) (r65535 (B * A)) := by
  have key : ∀ (x : UInt32) (X : Nat), x.toNat / 32768 = X → X ≤ 65535 → (udiv65535 ((x >>> 15) * (s.a.pos >>> 15))).toNat = r65535 (X * A) := by
    intro x X hx hX
    have hm := mul65535 hX hA
    have e : ((x >>> 15) * (s.a.pos >>> 15)).toNat = X * A := by
      simp only [UInt32.toNat_mul, UInt32.toNat_shiftRight, UInt32.reduceToNat, Nat.shiftRight_eq_div_pow, Nat.reducePow, Nat.reduceMod, hx, ha]
      exact Nat.mod_eq_of_lt (by omega)
    rw [udiv65535_toNat _ (by rw [e]; exact hm), e]
  have kr := key _ R hr hR
  have kg := key _ G hg hG
  have kb := key _ B hb hB
  have lr := r65535_le _ (mul65535 hR hA)
  have lg := r65535_le _ (mul65535 hG hA)
  have lb := r65535_le _ (mul65535 hB hA)
  have ka : (s.a.pos >>> 15).toNat = A := by
    simp only [UInt32.toNat_shiftRight, UInt32.reduceToNat, Nat.shiftRight_eq_div_pow, Nat.reducePow, Nat.reduceMod, ha]
  unfold outAlpha64
  simp only [UInt64.toNat_or, UInt64.toNat_shiftLeft, UInt32.toNat_toUInt64, UInt64.reduceToNat, Nat.shiftLeft_eq, Nat.reducePow, Nat.reduceMod, kr, kg, kb, ka]
  rw [Nat.mod_eq_of_lt (a := A * 281474976710656) (by omega), Nat.mod_eq_of_lt (a := _ * 4294967296) (by omega), Nat.mod_eq_of_lt (a := _ * 65536) (by omega)]
  exact pack64_or4 _ _ _ _ (by omega) (by omega) (by omega)

theorem blend64_of (c d : UInt64) (k n : Nat) (p : UInt64) (R G B A : Nat) (hR : R ≤ 65535) (hG : G ≤ 65535) (hB : B ≤ 65535) (hA : A ≤ 65535)
    (nR : Near 17 32 (chan16 2 c.toNat) (chan16 2 d.toNat) k n R) (nG : Near 17 32 (chan16 1 c.toNat) (chan16 1 d.toNat) k n G)
    (nB : Near 17 32 (chan16 0 c.toNat) (chan16 0 d.toNat) k n B) (nA : Near 17 32 (chan16 3 c.toNat) (chan16 3 d.toNat) k n A)
    (hp : p.toNat = pack64 A (r65535 (R * A)) (r65535 (G * A)) (r65535 (B * A))) : Blend64 c d k n p := by
  have hRA := mul65535 hR hA
  have hGA := mul65535 hG hA
  have hBA := mul65535 hB hA
  have l1 := r65535_le _ hRA
  have l2 := r65535_le _ hGA
  have l3 := r65535_le _ hBA
  obtain ⟨c0, c1, c2, c3⟩ := chan16_pack64 A (r65535 (R * A)) (r65535 (G * A)) (r65535 (B * A)) (by omega) (by omega) (by omega) (by omega)
  rw [← hp] at c0 c1 c2 c3
  refine ⟨fun i => match i with | 0 => B | 1 => G | 2 => R | _ => A, ?_, c3, ?_⟩
  · intro i hi
    interval_cases i
    · exact ⟨hB, nB⟩
    · exact ⟨hG, nG⟩
    · exact ⟨hR, nR⟩
    · exact ⟨hA, nA⟩
  · intro i hi
    rw [c3]
    interval_cases i
    · rw [c0]; exact ⟨r65535_nearest _ hBA, r65535_mul_le _ _ hB hA⟩
    · rw [c1]; exact ⟨r65535_nearest _ hGA, r65535_mul_le _ _ hG hA⟩
    · rw [c2]; exact ⟨r65535_nearest _ hRA, r65535_mul_le _ _ hR hA⟩

theorem cvtPrgb64_toNat (c : UInt64) : (cvtPrgb64FromArgb64 c).toNat = pack64 (chan16 3 c.toNat) (r65535 (chan16 2 c.toNat * chan16 3 c.toNat))
    (r65535 (chan16 1 c.toNat * chan16 3 c.toNat)) (r65535 (chan16 0 c.toNat * chan16 3 c.toNat)) := by
  have := c.toNat_lt
  have e : ((c >>> 48).toUInt32).toNat = chan16 3 c.toNat := by
    rw [(chan16_vals _).2.2.2]
    simp only [UInt64.toNat_toUInt32, UInt64.toNat_shiftRight, UInt64.reduceToNat, Nat.shiftRight_eq_div_pow, Nat.reducePow, Nat.reduceMod]
    omega
  unfold cvtPrgb64FromArgb64
  rw [cvtPrgb64With_toNat _ _ (by rw [e]; exact chan16_le _ _), e]

theorem prem64 (c d : UInt64) (k n : Nat) (h : k = 0 ∨ c = d) : Blend64 c d k n (prgb64.prem c) := by
  have e : ∀ i, k = 0 ∨ chan16 i c.toNat = chan16 i d.toNat := fun i => h.imp id (fun h => by rw [h])
  exact blend64_of c d k n _ _ _ _ _ (chan16_le _ _) (chan16_le _ _) (chan16_le _ _) (chan16_le _ _) (near_self _ _ _ _ _ _ (e 2)) (near_self _ _ _ _ _ _ (e 1))
    (near_self _ _ _ _ _ _ (e 0)) (near_self _ _ _ _ _ _ (e 3)) (cvtPrgb64_toNat c)

/-- Opaque colours. -/
theorem opq64 (c d : UInt64) (h : (c &&& d) &&& 0xFFFF000000000000 = 0xFFFF000000000000) : chan16 3 c.toNat = 65535 ∧ chan16 3 d.toNat = 65535 := by
  have h1 : ((c &&& d) &&& 0xFFFF000000000000).toNat = 18446462598732840960 := by rw [h]; rfl
  rw [UInt64.toNat_and, UInt64.toNat_and] at h1
  have h0 : (c.toNat &&& d.toNat) &&& (0xFFFF000000000000 : UInt64).toNat ≤ c.toNat &&& d.toNat := Nat.and_le_left
  have h2 : c.toNat &&& d.toNat ≤ c.toNat := Nat.and_le_left
  have h3 : c.toNat &&& d.toNat ≤ d.toNat := Nat.and_le_right
  have := c.toNat_lt
  have := d.toNat_lt
  rw [h1] at h0
  rw [(chan16_vals _).2.2.2, (chan16_vals _).2.2.2]
  omega

theorem ramp64 (c d : UInt64) (k n : Nat) (hn : 0 < n) (hk : k ≤ n) (hn' : n < 1024) :
    Blend64 c d k n (prgb64.out (prgb64.step^[k] (prgb64.start c d n))) := by
  obtain ⟨R, hR, nR, _, pR⟩ := reg64 _ _ n k _ _ (chan16_le 2 c.toNat) (chan16_le 2 d.toNat) (place64_r c) (place64_r d) hn hk hn'
  obtain ⟨G, hG, nG, _, pG⟩ := reg64 _ _ n k _ _ (chan16_le 1 c.toNat) (chan16_le 1 d.toNat) (place64_g c) (place64_g d) hn hk hn'
  obtain ⟨B, hB, nB, _, pB⟩ := reg64 _ _ n k _ _ (chan16_le 0 c.toNat) (chan16_le 0 d.toNat) (place64_b c) (place64_b d) hn hk hn'
  obtain ⟨A, hA, nA, mA, pA⟩ := reg64 _ _ n k _ _ (chan16_le 3 c.toNat) (chan16_le 3 d.toNat) (place64_a c) (place64_a d) hn hk hn'
  show Blend64 c d k n (if (Ramp.step^[k] (start64 c d n)).opq then outOpaque64 (Ramp.step^[k] (start64 c d n)) else outAlpha64 (Ramp.step^[k] (start64 c d n)))
  rw [Ramp.iter]
  by_cases ho : (start64 c d n).opq = true
  · rw [if_pos ho]
    obtain ⟨o1, o2⟩ := opq64 c d (eq_of_beq ho)
    have eA : A = 65535 := by rw [o1, o2] at mA; simp at mA; omega
    apply blend64_of c d k n _ R G B A hR hG hB hA nR nG nB nA
    rw [eA, r65535_mul_65535 R hR, r65535_mul_65535 G hG, r65535_mul_65535 B hB]
    exact outOpaque64_toNat _ R G B pR pG pB hR hG hB
  · rw [if_neg ho]
    apply blend64_of c d k n _ R G B A hR hG hB hA nR nG nB nA
    exact outAlpha64_toNat _ R G B A pR pG pB pA hR hG hB hA

theorem end64 (c d : UInt64) (n : Nat) (p : UInt64) (hn : 0 < n) (h : Blend64 c d n n p) : Blend64 d d 0 1 p := by
  obtain ⟨x, h1, h2⟩ := h
  refine ⟨x, fun i hi => ⟨(h1 i hi).1, ?_⟩, h2⟩
  have := near_end (by omega) hn (h1 i hi).2
  rw [this]
  exact near_self _ _ _ _ _ _ (Or.inl rfl)

theorem pieces1 (x : Nat) (h : x < 18446744073709551616) : x / 72057594037927936 % 4294967296 * 16777216 % 4294967296 = x / 72057594037927936 % 256 * 16777216 := by omega
theorem pieces2 (x : Nat) : x / 1099511627776 % 256 % 4294967296 * 65536 % 4294967296 = x / 1099511627776 % 256 * 65536 := by omega
theorem pieces3 (x : Nat) : x / 16777216 % 256 % 4294967296 * 256 % 4294967296 = x / 16777216 % 256 * 256 := by omega
theorem pieces4 (x : Nat) : x / 256 % 256 % 4294967296 = x / 256 % 256 := by omega

theorem rgba32FromRgba64_chan (x : UInt64) (i : Nat) (hi : i < 4) : chan i (rgba32FromRgba64 x).toNat = chan16 i x.toNat / 256 := by
  have hx := x.toNat_lt
  have e : (rgba32FromRgba64 x).toNat = pack4 (x.toNat / 72057594037927936 % 256) (x.toNat / 1099511627776 % 256) (x.toNat / 16777216 % 256) (x.toNat / 256 % 256) := by
    unfold rgba32FromRgba64
    simp only [UInt32.toNat_or, UInt32.toNat_shiftLeft, UInt64.toNat_toUInt32, UInt64.toNat_and, UInt64.toNat_shiftRight, UInt64.reduceToNat, UInt32.reduceToNat, Nat.shiftRight_eq_div_pow,
      Nat.shiftLeft_eq, Nat.reducePow, Nat.reduceMod, and_255]
    rw [Nat.or_comm _ (_ * 16777216 % 4294967296), ← Nat.or_assoc, ← Nat.or_assoc]
    rw [pieces1 _ hx, pieces2, pieces3, pieces4]
    exact pack_or _ _ _ _ (by omega) (by omega) (by omega)
  obtain ⟨c0, c1, c2, c3⟩ := chan_pack4 (x.toNat / 72057594037927936 % 256) (x.toNat / 1099511627776 % 256) (x.toNat / 16777216 % 256) (x.toNat / 256 % 256)
    (by omega) (by omega) (by omega) (by omega)
  obtain ⟨d0, d1, d2, d3⟩ := chan16_vals x.toNat
  rw [e]
  interval_cases i
  · rw [c0, d0]; omega
  · rw [c1, d1]; omega
  · rw [c2, d2]; omega
  · rw [c3, d3]; omega

end Blend2D.GradLut
