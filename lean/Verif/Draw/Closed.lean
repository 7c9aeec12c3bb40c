import Verif.Draw.Edges

/-! # Closed shapes cover nothing right of all their points -/

namespace Blend2D.Draw
open Raster Raster.Spec Spec

theorem xAt_le {p q : Pt} {M : Int} (hp : p.x ≤ M) (hq : q.x ≤ M) (y : Int) : xAt p q y ≤ M := by
  unfold xAt
  by_cases c1 : y ≤ p.y
  · rw [if_pos c1]; exact hp
  rw [if_neg c1]
  by_cases c2 : q.y ≤ y
  · rw [if_pos c2]; exact hq
  rw [if_neg c2]
  have hd : 0 < q.y - p.y := by omega
  by_cases c3 : p.x ≤ q.x
  · rw [if_pos c3]
    have : round ((q.x - p.x) * (y - p.y)) (q.y - p.y) ≤ q.x - p.x := by
      unfold Raster.Spec.round
      refine Int.lt_add_one_iff.1 (Int.ediv_lt_of_lt_mul hd ?_)
      have h1 : (q.x - p.x) * (y - p.y) ≤ (q.x - p.x) * (q.y - p.y) := Int.mul_le_mul_of_nonneg_left (by omega) (by omega)
      have h2 : (q.x - p.x + 1) * (q.y - p.y) = (q.x - p.x) * (q.y - p.y) + (q.y - p.y) := by ring
      omega
    omega
  · rw [if_neg c3]
    have : 0 ≤ round ((p.x - q.x) * (y - p.y)) (q.y - p.y) := by
      unfold Raster.Spec.round
      refine Int.ediv_nonneg ?_ (by omega)
      have h1 : 0 ≤ (p.x - q.x) * (y - p.y) := Int.mul_nonneg (by omega) (by omega)
      omega
    omega

theorem cover_right {p q : Pt} {w : Int} (hp : p.x ≤ 256 * w) (hq : q.x ≤ 256 * w) {y x : Int} (hx : w ≤ x) :
    cover p q y x = 512 * height p q y := by
  unfold height
  by_cases c : top p y < bottom q y
  · rw [C49_right c (by
      have h1 := xAt_le hp hq (top p y)
      have h2 := xAt_le hp hq (bottom q y)
      omega)]
    rw [show max 0 (bottom q y - top p y) = bottom q y - top p y by omega]
  · unfold cover
    rw [if_neg c, show max 0 (bottom q y - top p y) = 0 by omega]
    rfl

theorem chain_right {W : Box} {y x : Int} (hx : W.w ≤ x) : ∀ (l : List Pt), InW W l → chain l y x = 512 * chainHeight l y := by
  intro l
  induction l with
  | nil => intro _; rfl
  | cons p l ih =>
    intro h
    cases l with
    | nil => rfl
    | cons q l =>
      rw [chain, chainHeight, ih h.tail, cover_right (h p (by simp)).1.2 (h q (by simp)).1.2 hx]
      omega

/-- The coverage of a closed shape is zero right of all its points. -/
theorem shape_right {W : Box} {y x : Int} (hx : W.w ≤ x) : ∀ (vs : List Vec), (∀ v ∈ vs, InW W v.pts) →
    shape vs y x = 512 * winding vs y := by
  intro vs
  induction vs with
  | nil => intro _; rfl
  | cons v vs ih =>
    intro h
    rw [shape, winding, ih fun v hv => h v (List.mem_cons_of_mem _ hv), chain_right hx _ (h v (by simp))]
    have : sgn v.neg * (512 * chainHeight v.pts y) = 512 * (sgn v.neg * chainHeight v.pts y) := by ring
    omega

theorem shape_append (l m : List Vec) (y x : Int) : shape (l ++ m) y x = shape l y x + shape m y x := by
  induction l with
  | nil => simp [shape]
  | cons v l ih => simp only [List.cons_append, shape, ih]; omega

/-- A chain that starts at or below scanline `k` covers nothing above `k`. -/
theorem shape_above {k y : Int} (x : Int) (hy : y < k) : ∀ (vs : List Vec),
    (∀ v ∈ vs, Down v.pts ∧ ∃ p l, v.pts = p :: l ∧ k ≤ p.y / 256) → shape vs y x = 0 := by
  intro vs
  induction vs with
  | nil => intro _; rfl
  | cons v vs ih =>
    intro h
    obtain ⟨h1, p, l, h2, h3⟩ := h v (by simp)
    rw [shape, ih fun v hv => h v (List.mem_cons_of_mem _ hv), h2, chain_above (h2 ▸ h1) x (by omega)]
    simp

theorem chain_below {W : Box} {y : Int} (x : Int) (hy : (W.y - 1) / 256 < y) : ∀ (l : List Pt), InW W l → chain l y x = 0 := by
  intro l
  induction l with
  | nil => intro _; rfl
  | cons p l ih =>
    intro h
    cases l with
    | nil => rfl
    | cons q l =>
      have hq := (h q (by simp)).2
      rw [chain, ih h.tail, cover_outside x (Or.inr (by omega))]
      rfl

theorem shape_below {W : Box} {y : Int} (x : Int) (hy : (W.y - 1) / 256 < y) : ∀ (vs : List Vec), (∀ v ∈ vs, InW W v.pts) →
    shape vs y x = 0 := by
  intro vs
  induction vs with
  | nil => intro _; rfl
  | cons v vs ih =>
    intro h
    rw [shape, ih fun v hv => h v (List.mem_cons_of_mem _ hv), chain_below x hy _ (h v (by simp))]
    simp

end Blend2D.Draw
