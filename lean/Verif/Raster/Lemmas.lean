import Verif.Raster.Spec
import Mathlib.Tactic.Ring
import Mathlib.Tactic.Linarith
import Mathlib.Tactic.SplitIfs

/-! # Lemmas on error terms and on the cover of a scanline -/

namespace Blend2D.Raster
open Spec

/-- The error term that the rasterizer keeps beside a rounded quotient. -/
def errOf (n d : Int) : Int := round n d * d + d / 2 - 1 - n

theorem round_bounds (n : Int) {d : Int} (hd : 0 < d) :
    round n d * d ≤ n + (d + 1) / 2 ∧ n + (d + 1) / 2 < round n d * d + d := by
  unfold round
  have h1 := Int.mul_ediv_add_emod (n + (d + 1) / 2) d
  have h2 := Int.emod_nonneg (n + (d + 1) / 2) (by omega : d ≠ 0)
  have h3 := Int.emod_lt_of_pos (n + (d + 1) / 2) hd
  have h4 : d * ((n + (d + 1) / 2) / d) = (n + (d + 1) / 2) / d * d := Int.mul_comm _ _
  omega

theorem errOf_range (n : Int) {d : Int} (hd : 0 < d) : 0 ≤ errOf n d ∧ errOf n d < d := by
  have h := round_bounds n hd
  unfold errOf
  omega

theorem mul_lt_cancel {a b d : Int} (hd : 0 < d) (h : a * d < b * d) : a < b := by
  by_contra hc
  have : b * d ≤ a * d := Int.mul_le_mul_of_nonneg_right (by omega) (by omega)
  omega

theorem round_unique {n d t : Int} (hd : 0 < d) (h0 : 0 ≤ t * d + d / 2 - 1 - n) (h1 : t * d + d / 2 - 1 - n < d) :
    t = round n d := by
  have h := round_bounds n hd
  have a : t < round n d + 1 := by
    apply mul_lt_cancel hd
    have : (round n d + 1) * d = round n d * d + d := by ring
    omega
  have b : round n d < t + 1 := by
    apply mul_lt_cancel hd
    have : (t + 1) * d = t * d + d := by ring
    omega
  omega

theorem accStep_round {d : Int} (hd : 0 < d) (a n l r m : Int) (hr0 : 0 ≤ r) (hr : r < d) (hm : m = n + (l * d + r)) :
    accStep (a + l) (errOf n d) r d = (a + (round m d - round n d), errOf m d) := by
  have he := errOf_range n hd
  unfold accStep
  split_ifs with h
  · have hu : round n d + l + 1 = round m d := by
      apply round_unique hd
      · have : (round n d + l + 1) * d = round n d * d + l * d + d := by ring
        unfold errOf at he h
        omega
      · have : (round n d + l + 1) * d = round n d * d + l * d + d := by ring
        unfold errOf at he h
        omega
    refine Prod.ext ?_ ?_
    · show a + l + 1 = _
      omega
    · show errOf n d - r + d = errOf m d
      unfold errOf
      rw [← hu]
      have : (round n d + l + 1) * d = round n d * d + l * d + d := by ring
      omega
  · have hu : round n d + l = round m d := by
      apply round_unique hd
      · have : (round n d + l) * d = round n d * d + l * d := by ring
        unfold errOf at he h
        omega
      · have : (round n d + l) * d = round n d * d + l * d := by ring
        unfold errOf at he h
        omega
    refine Prod.ext ?_ ?_
    · show a + l = _
      omega
    · show errOf n d - r = errOf m d
      unfold errOf
      rw [← hu]
      have : (round n d + l) * d = round n d * d + l * d := by ring
      omega

theorem accStep_start {d : Int} (hd : 0 < d) (p : Int) :
    accStep (p / d) (d / 2 - 1 - p % d) 0 d = (round p d, errOf p d) := by
  have h1 := Int.mul_ediv_add_emod p d
  have h2 := Int.emod_nonneg p (by omega : d ≠ 0)
  have h3 := Int.emod_lt_of_pos p hd
  have h4 : d * (p / d) = p / d * d := Int.mul_comm _ _
  unfold accStep
  split_ifs with h
  · have hu : p / d + 1 = round p d := by
      apply round_unique hd
      · have : (p / d + 1) * d = p / d * d + d := by ring
        omega
      · have : (p / d + 1) * d = p / d * d + d := by ring
        omega
    refine Prod.ext hu ?_
    show d / 2 - 1 - p % d - 0 + d = _
    unfold errOf
    rw [← hu]
    have : (p / d + 1) * d = p / d * d + d := by ring
    omega
  · have hu : p / d = round p d := by
      apply round_unique hd <;> omega
    refine Prod.ext hu ?_
    show d / 2 - 1 - p % d - 0 = _
    unfold errOf
    rw [← hu]
    omega

theorem accMulti_round {d : Int} (hd : 0 < d) (a n r c m : Int) (hm : m = n + r * c) (h0 : 0 ≤ r * c) :
    accMulti a (errOf n d) r d c = (a + (round m d - round n d), errOf m d) := by
  have he := errOf_range n hd
  unfold accMulti
  split_ifs with h
  · generalize hq : (-(errOf n d - r * c) + d - 1) / d = q
    have h1 := Int.mul_ediv_add_emod (-(errOf n d - r * c) + d - 1) d
    have h2 := Int.emod_nonneg (-(errOf n d - r * c) + d - 1) (by omega : d ≠ 0)
    have h3 := Int.emod_lt_of_pos (-(errOf n d - r * c) + d - 1) hd
    rw [hq] at h1
    have h4 : d * q = q * d := Int.mul_comm _ _
    have hu : round n d + q = round m d := by
      apply round_unique hd
      · have : (round n d + q) * d = round n d * d + q * d := by ring
        unfold errOf at *
        omega
      · have : (round n d + q) * d = round n d * d + q * d := by ring
        unfold errOf at *
        omega
    refine Prod.ext ?_ ?_
    · show a + q = _
      omega
    · show errOf n d - r * c + d * q = errOf m d
      unfold errOf
      rw [← hu]
      have : (round n d + q) * d = round n d * d + q * d := by ring
      omega
  · have hu : round n d = round m d := by
      apply round_unique hd
      · unfold errOf at *
        omega
      · unfold errOf at *
        omega
    refine Prod.ext ?_ ?_
    · show a = _
      omega
    · show errOf n d - r * c = errOf m d
      unfold errOf
      rw [← hu]
      omega

theorem round_mono {n m d : Int} (hd : 0 < d) (h : n ≤ m) : round n d ≤ round m d := by
  unfold round
  exact Int.ediv_le_ediv hd (by omega)

/-- The sign as a factor. -/
def sgn (neg : Bool) : Int := if neg then -1 else 1

theorem sg_eq (neg : Bool) (v : Int) : sg neg v = sgn neg * v := by
  cases neg <;> simp [sg, sgn]

@[simp] theorem acc_nil (y x : Int) : acc y x [] = 0 := rfl

@[simp] theorem acc_mark (y x y' a b : Int) (l : List Ev) : acc y x (.mark y' a b :: l) = acc y x l := rfl
@[simp] theorem acc_bit (y x y' a : Int) (l : List Ev) : acc y x (bit y' a :: l) = acc y x l := rfl
@[simp] theorem acc_bits (y x y' a b : Int) (l : List Ev) : acc y x (bits y' a b :: l) = acc y x l := rfl
@[simp] theorem acc_minX (y x a : Int) (l : List Ev) : acc y x (.minX a :: l) = acc y x l := rfl
@[simp] theorem acc_maxX (y x a : Int) (l : List Ev) : acc y x (.maxX a :: l) = acc y x l := rfl
@[simp] theorem acc_cell (y x y' x' v : Int) (l : List Ev) :
    acc y x (.cell y' x' v :: l) = (if y' = y ∧ x' ≤ x then v else 0) + acc y x l := rfl

@[simp] theorem acc_append (y x : Int) (l m : List Ev) : acc y x (l ++ m) = acc y x l + acc y x m := by
  induction l with
  | nil => simp
  | cons e l ih => cases e <;> simp [ih, Int.add_assoc]

/-- What one merge adds to the accumulated cells. -/
def mergeAt (e c a x : Int) : Int := if x < e then 0 else if x = e then c * 512 - a else c * 512

@[simp] theorem acc_merge (y x y' e c a : Int) :
    acc y x (merge y' e c a) = if y' = y then mergeAt e c a x else 0 := by
  unfold merge mergeAt
  simp only [acc_cell, acc_nil]
  by_cases hy : y' = y
  · simp only [hy, true_and, if_true]
    split_ifs <;> omega
  · simp [hy]

/-- The cover of a scanline in which the edge stays in one column. -/
theorem cover_single {p0 p1 : Pt} {k e a b : Int} (hh : top p0 k < bottom p1 k) (ha : xAt p0 p1 (top p0 k) = a)
    (hb : xAt p0 p1 (bottom p1 k) = b) (h0 : 256 * e ≤ a) (h1 : a ≤ 256 * e + 256) (h2 : 256 * e ≤ b)
    (h3 : b ≤ 256 * e + 256) (x : Int) :
    cover p0 p1 k x = mergeAt e (bottom p1 k - top p0 k)
      ((bottom p1 k - top p0 k) * ((a - 256 * e) + (b - 256 * e))) x := by
  unfold cover leftOf clamp mergeAt
  simp only [ha, hb, if_pos hh]
  clear ha hb
  by_cases c1 : x < e
  · rw [if_pos (by omega : 256 * x ≤ min a b), if_pos (by omega : 256 * x + 256 ≤ min a b), if_pos c1]
    ring
  · by_cases c2 : x = e
    · subst c2
      rw [if_pos (by omega : 256 * x ≤ min a b), if_neg (by omega : ¬ x < x), if_pos rfl]
      have e1 : max (min a b) (min (256 * x) (max a b)) = min a b := by omega
      have e2 : max (min a b) (min (256 * x + 256) (max a b)) = max a b := by omega
      rw [e1, e2]
      have e3 : min a b + max a b = a + b := by omega
      by_cases c3 : 256 * x + 256 ≤ min a b
      · rw [if_pos c3]
        have : a = 256 * x + 256 := by omega
        have : b = 256 * x + 256 := by omega
        subst a b
        ring
      · rw [if_neg c3, if_pos (by omega : max a b ≤ 256 * x + 256)]
        have e4 : max a b = a + b - min a b := by omega
        rw [e4]
        ring
    · rw [if_neg c1, if_neg c2]
      by_cases c3 : 256 * x ≤ min a b
      · have ea : a = 256 * x := by omega
        have eb : b = 256 * x := by omega
        subst a b
        rw [if_pos c3, if_neg (by omega : ¬ 256 * x + 256 ≤ min (256 * x) (256 * x)),
          if_pos (by omega : max (256 * x) (256 * x) ≤ 256 * x + 256)]
        have e1 : max (min (256 * x) (256 * x)) (min (256 * x) (max (256 * x) (256 * x))) = 256 * x := by omega
        have e2 : max (min (256 * x) (256 * x)) (min (256 * x + 256) (max (256 * x) (256 * x))) = 256 * x := by omega
        rw [e1, e2]
        ring
      · rw [if_neg c3, if_pos (by omega : max a b ≤ 256 * x), if_neg (by omega : ¬ 256 * x + 256 ≤ min a b),
          if_pos (by omega : max a b ≤ 256 * x + 256)]
        ring

/-- The cover of a scanline in which the edge goes right over several columns, `e` to `f`. -/
theorem cover_ltr {p0 p1 : Pt} {k e f a b : Int} (hh : top p0 k < bottom p1 k) (ha : xAt p0 p1 (top p0 k) = a)
    (hb : xAt p0 p1 (bottom p1 k) = b) (hef : e < f) (h0 : 256 * e ≤ a) (h1 : a < 256 * e + 256) (h2 : 256 * f < b)
    (h3 : b ≤ 256 * f + 256) (x : Int) :
    cover p0 p1 k x =
      if x < e then 0
      else if x = e then (yAt p0 p1 (256 * e + 256) - top p0 k) * (512 - ((a - 256 * e) + 256))
      else if x < f then (yAt p0 p1 (256 * x) - top p0 k) * 512 + (yAt p0 p1 (256 * x + 256) - yAt p0 p1 (256 * x)) * 256
      else if x = f then (yAt p0 p1 (256 * f) - top p0 k) * 512
        + (bottom p1 k - yAt p0 p1 (256 * f)) * (512 - (b - 256 * f))
      else (bottom p1 k - top p0 k) * 512 := by
  unfold cover leftOf clamp
  simp only [ha, hb, if_pos hh, if_pos (by omega : a ≤ b)]
  have m1 : min a b = a := by omega
  have m2 : max a b = b := by omega
  rw [m1, m2]
  by_cases c1 : x < e
  · rw [if_pos c1, if_pos (by omega : 256 * x ≤ a), if_pos (by omega : 256 * x + 256 ≤ a)]
    ring
  · rw [if_neg c1]
    by_cases c2 : x = e
    · subst c2
      rw [if_pos rfl, if_pos (by omega : 256 * x ≤ a), if_neg (by omega : ¬ 256 * x + 256 ≤ a),
        if_neg (by omega : ¬ b ≤ 256 * x + 256)]
      have e1 : max a (min (256 * x) b) = a := by omega
      have e2 : max a (min (256 * x + 256) b) = 256 * x + 256 := by omega
      rw [e1, e2]
      ring
    · rw [if_neg c2, if_neg (by omega : ¬ 256 * x ≤ a), if_neg (by omega : ¬ 256 * x + 256 ≤ a)]
      by_cases c3 : x < f
      · rw [if_pos c3, if_neg (by omega : ¬ b ≤ 256 * x), if_neg (by omega : ¬ b ≤ 256 * x + 256)]
        have e1 : max a (min (256 * x) b) = 256 * x := by omega
        have e2 : max a (min (256 * x + 256) b) = 256 * x + 256 := by omega
        rw [e1, e2]
        ring
      · rw [if_neg c3]
        by_cases c4 : x = f
        · subst c4
          rw [if_pos rfl, if_neg (by omega : ¬ b ≤ 256 * x), if_pos (by omega : b ≤ 256 * x + 256)]
          have e1 : max a (min (256 * x) b) = 256 * x := by omega
          have e2 : max a (min (256 * x + 256) b) = b := by omega
          rw [e1, e2]
          ring
        · rw [if_neg c4, if_pos (by omega : b ≤ 256 * x), if_pos (by omega : b ≤ 256 * x + 256)]
          ring

/-- The cover of a scanline in which the edge goes left over several columns, `e` down to `f`. -/
theorem cover_rtl {p0 p1 : Pt} {k e f a b : Int} (hh : top p0 k < bottom p1 k) (ha : xAt p0 p1 (top p0 k) = a)
    (hb : xAt p0 p1 (bottom p1 k) = b) (hef : f < e) (h0 : 256 * e < a) (h1 : a ≤ 256 * e + 256) (h2 : 256 * f ≤ b)
    (h3 : b < 256 * f + 256) (x : Int) :
    cover p0 p1 k x =
      if x < f then 0
      else if x = f then (bottom p1 k - yAt p0 p1 (256 * f + 256)) * (512 - ((b - 256 * f) + 256))
      else if x < e then
        (bottom p1 k - yAt p0 p1 (256 * x)) * 512 + (yAt p0 p1 (256 * x) - yAt p0 p1 (256 * x + 256)) * 256
      else if x = e then (bottom p1 k - yAt p0 p1 (256 * e)) * 512
        + (yAt p0 p1 (256 * e) - top p0 k) * (512 - (a - 256 * e))
      else (bottom p1 k - top p0 k) * 512 := by
  unfold cover leftOf clamp
  simp only [ha, hb, if_pos hh, if_neg (by omega : ¬ a ≤ b)]
  have m1 : min a b = b := by omega
  have m2 : max a b = a := by omega
  rw [m1, m2]
  by_cases c1 : x < f
  · rw [if_pos c1, if_pos (by omega : 256 * x ≤ b), if_pos (by omega : 256 * x + 256 ≤ b)]
    ring
  · rw [if_neg c1]
    by_cases c2 : x = f
    · subst c2
      rw [if_pos rfl, if_pos (by omega : 256 * x ≤ b), if_neg (by omega : ¬ 256 * x + 256 ≤ b),
        if_neg (by omega : ¬ a ≤ 256 * x + 256)]
      have e1 : max b (min (256 * x) a) = b := by omega
      have e2 : max b (min (256 * x + 256) a) = 256 * x + 256 := by omega
      rw [e1, e2]
      ring
    · rw [if_neg c2, if_neg (by omega : ¬ 256 * x ≤ b), if_neg (by omega : ¬ 256 * x + 256 ≤ b)]
      by_cases c3 : x < e
      · rw [if_pos c3, if_neg (by omega : ¬ a ≤ 256 * x), if_neg (by omega : ¬ a ≤ 256 * x + 256)]
        have e1 : max b (min (256 * x) a) = 256 * x := by omega
        have e2 : max b (min (256 * x + 256) a) = 256 * x + 256 := by omega
        rw [e1, e2]
        ring
      · rw [if_neg c3]
        by_cases c4 : x = e
        · subst c4
          rw [if_pos rfl, if_neg (by omega : ¬ a ≤ 256 * x), if_pos (by omega : a ≤ 256 * x + 256)]
          have e1 : max b (min (256 * x) a) = 256 * x := by omega
          have e2 : max b (min (256 * x + 256) a) = a := by omega
          rw [e1, e2]
          ring
        · rw [if_neg c4, if_pos (by omega : a ≤ 256 * x), if_pos (by omega : a ≤ 256 * x + 256)]
          ring

end Blend2D.Raster
