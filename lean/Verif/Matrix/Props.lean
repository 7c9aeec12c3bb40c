import Verif.Matrix.Model
import Mathlib.Tactic.Linarith
import Mathlib.Tactic.NormNum
import Mathlib.Algebra.Order.Ring.Rat

/-!
# Transformations compose as documented (C29)
-/

namespace Blend2D.Matrix

/-! ## Specification: the geometric meaning of the operations -/

section
variable {K : Type} [Field K]

/-- Moves by `(tx, ty)`. -/
def geoTranslate (tx ty : K) (p : Pt K) : Pt K := ⟨p.x + tx, p.y + ty⟩
/-- Multiplies the coordinates. -/
def geoScale (sx sy : K) (p : Pt K) : Pt K := ⟨p.x * sx, p.y * sy⟩
/-- Shears: `x` grows with `y` (angle `ax`) and `y` grows with `x` (angle `ay`). -/
def geoSkew (f : Trig K) (ax ay : K) (p : Pt K) : Pt K := ⟨p.x + p.y * f.tan ax, p.y + p.x * f.tan ay⟩
/-- Rotates about the origin. -/
def geoRotate (f : Trig K) (angle : K) (p : Pt K) : Pt K :=
  ⟨p.x * f.cos angle - p.y * f.sin angle, p.x * f.sin angle + p.y * f.cos angle⟩
/-- Rotates about the point `(cx, cy)`. -/
def geoRotateAbout (f : Trig K) (angle cx cy : K) (p : Pt K) : Pt K :=
  geoTranslate cx cy (geoRotate f angle (geoTranslate (-cx) (-cy) p))

/-- What an operation has to do to the mapping of points: operations are applied before the
transformation, "post" operations after it. -/
def geoOp (f : Trig K) (a : Pt K → Pt K) : Op K → Pt K → Pt K
  | .reset => id
  | .assign b => mapPoint b
  | .translate x y => a ∘ geoTranslate x y
  | .scale x y => a ∘ geoScale x y
  | .skew x y => a ∘ geoSkew f x y
  | .rotate angle => a ∘ geoRotate f angle
  | .rotatePt angle cx cy => a ∘ geoRotateAbout f angle cx cy
  | .transform b => a ∘ mapPoint b
  | .postTranslate x y => geoTranslate x y ∘ a
  | .postScale x y => geoScale x y ∘ a
  | .postSkew x y => geoSkew f x y ∘ a
  | .postRotate angle => geoRotate f angle ∘ a
  | .postRotatePt angle cx cy => geoRotateAbout f angle cx cy ∘ a
  | .postTransform b => mapPoint b ∘ a

/-! ## Operations -/

/-- **C29**: every operation changes the transformation as documented. -/
theorem C29_apply_op (f : Trig K) (a : Mat K) (op : Op K) (p : Pt K) :
    mapPoint (applyOp f a op) p = geoOp f (mapPoint a) op p := by
  cases op <;>
    simp only [geoOp, applyOp, mapPoint, identity, geoTranslate, geoScale, geoSkew, geoRotate, geoRotateAbout,
      Function.comp, id] <;>
    first
      | rfl
      | (obtain ⟨x, y⟩ := p; congr 1 <;> ring)

/-- **C29**: so does every sequence of operations. -/
theorem C29_apply_op_sequence (f : Trig K) (a : Mat K) (ops : List (Op K)) (p : Pt K) :
    mapPoint (ops.foldl (applyOp f) a) p = (ops.foldl (geoOp f) (mapPoint a)) p := by
  induction ops generalizing a with
  | nil => rfl
  | cons op ops ih =>
    rw [List.foldl_cons, List.foldl_cons, ih]
    have : mapPoint (applyOp f a op) = geoOp f (mapPoint a) op := funext (C29_apply_op f a op)
    rw [this]

/-- **C29**: the product of two matrices maps points by the first, then by the second; the internal
`multiply`, `BL_TRANSFORM_OP_TRANSFORM` and `BL_TRANSFORM_OP_POST_TRANSFORM` agree, and
multiplication is associative. -/
theorem C29_multiply (f : Trig K) (a b c : Mat K) (p : Pt K) :
    mapPoint (multiply a b) p = mapPoint b (mapPoint a p) ∧
    applyOp f a (.postTransform b) = multiply a b ∧ applyOp f b (.transform a) = multiply a b ∧
    multiply (multiply a b) c = multiply a (multiply b c) := by
  refine ⟨?_, rfl, rfl, ?_⟩
  · simp only [mapPoint, multiply]; congr 1 <;> ring
  · simp only [multiply]; congr 1 <;> ring

/-- **C29**: vectors are differences of points. -/
theorem C29_map_vector (m : Mat K) (p q : Pt K) :
    mapVector m ⟨q.x - p.x, q.y - p.y⟩ =
      ⟨(mapPoint m q).x - (mapPoint m p).x, (mapPoint m q).y - (mapPoint m p).y⟩ := by
  simp only [mapVector, mapPoint]; congr 1 <;> ring

/-- **C29**: matrices initialized to translation, scaling, skewing and rotation (about the origin). -/
theorem C29_reset_to (f : Trig K) (x y angle : K) (p : Pt K) :
    mapPoint identity p = p ∧ mapPoint (setTranslation x y) p = geoTranslate x y p ∧
    mapPoint (setScaling x y) p = geoScale x y p ∧ mapPoint (setSkewing f x y) p = geoSkew f x y p ∧
    mapPoint (setRotation f angle 0 0) p = geoRotate f angle p := by
  simp only [identity, setTranslation, setScaling, setSkewing, setRotation, mapPoint, geoTranslate, geoScale, geoSkew,
    geoRotate]
  refine ⟨?_, ?_, ?_, ?_, ?_⟩
  · obtain ⟨a, b⟩ := p; simp
  · congr 1 <;> ring
  · congr 1 <;> ring
  · congr 1 <;> ring
  · congr 1 <;> ring

/-- **C29, partial**: `reset_to_rotation(angle, x, y)` is documented as a rotation around the point `[x, y]`.
What it does is to rotate about the origin and then to translate by `(x, y)`.  Missing: that this
is the documented rotation, which is false unless the point is the origin, see
`C29_reset_to_rotation_moves_its_centre`. -/
theorem C29_reset_to_rotation_partial (f : Trig K) (angle x y : K) (p : Pt K) :
    mapPoint (setRotation f angle x y) p = geoTranslate x y (geoRotate f angle p) := by
  simp only [setRotation, mapPoint, geoTranslate, geoRotate]
  congr 1 <;> ring

/-- Rotating by 90 degrees around `(1, 0)` moves `(1, 0)` to `(1, 1)`. -/
theorem C29_reset_to_rotation_moves_its_centre :
    ∃ (f : Trig ℚ) (angle x y : ℚ), f.sin angle ^ 2 + f.cos angle ^ 2 = 1 ∧
      geoRotateAbout f angle x y ⟨x, y⟩ = ⟨x, y⟩ ∧ mapPoint (setRotation f angle x y) ⟨x, y⟩ ≠ ⟨x, y⟩ := by
  refine ⟨⟨fun _ => 1, fun _ => 0, fun _ => 0⟩, 0, 1, 0, by norm_num, ?_, ?_⟩
  · simp [geoRotateAbout, geoTranslate, geoRotate]
  · simp [setRotation, mapPoint]

/-! ## Inverse -/

/-- **C29**: an inverted matrix undoes the transformation, both ways. -/
theorem C29_invert [DecidableEq K] {a b : Mat K} (h : invert a = some b) (p : Pt K) :
    mapPoint b (mapPoint a p) = p ∧ mapPoint a (mapPoint b p) = p := by
  unfold invert at h
  simp only at h
  split at h
  · simp at h
  · next hd =>
    injection h with h
    subst h
    obtain ⟨x, y⟩ := p
    simp only [mapPoint, div_eq_mul_inv]
    have hi := mul_inv_cancel₀ hd
    generalize (a.m00 * a.m11 - a.m01 * a.m10)⁻¹ = i at *
    refine ⟨?_, ?_⟩
    · congr 1
      · linear_combination x * hi
      · linear_combination y * hi
    · congr 1
      · linear_combination (x - a.m20) * hi
      · linear_combination (y - a.m21) * hi

/-- **C29**: inversion is refused exactly for the matrices that have no inverse: those that map two different
points to the same point. -/
theorem C29_invert_refused_iff_singular [DecidableEq K] (a : Mat K) :
    invert a = none ↔ ∃ p q, p ≠ q ∧ mapPoint a p = mapPoint a q := by
  constructor
  · intro h
    have hd : a.m00 * a.m11 - a.m01 * a.m10 = 0 := by
      unfold invert at h
      simp only at h
      split at h
      · assumption
      · simp at h
    have hz : mapPoint a ⟨0, 0⟩ = ⟨a.m20, a.m21⟩ := by simp [mapPoint]
    by_cases h1 : a.m11 = 0 ∧ a.m01 = 0
    · by_cases h2 : a.m10 = 0 ∧ a.m00 = 0
      · refine ⟨⟨1, 0⟩, ⟨0, 0⟩, by simp, ?_⟩
        simp [mapPoint, h1, h2]
      · refine ⟨⟨a.m10, -a.m00⟩, ⟨0, 0⟩, ?_, ?_⟩
        · intro he
          injection he with e1 e2
          exact h2 ⟨e1, neg_eq_zero.1 e2⟩
        · rw [hz]
          simp only [mapPoint]
          congr 1
          · ring
          · rw [h1.1, h1.2]; ring
    · refine ⟨⟨a.m11, -a.m01⟩, ⟨0, 0⟩, ?_, ?_⟩
      · intro he
        injection he with e1 e2
        exact h1 ⟨e1, neg_eq_zero.1 e2⟩
      · rw [hz]
        simp only [mapPoint]
        congr 1
        · linear_combination hd
        · ring
  · rintro ⟨p, q, hne, he⟩
    cases h : invert a with
    | none => rfl
    | some b =>
      exfalso
      apply hne
      have h1 := (C29_invert h p).1
      have h2 := (C29_invert h q).1
      rw [← h1, he, h2]

/-! ## Classification -/

theorem getType_spec [DecidableEq K] (m : Mat K) :
    (getType m = .identity → m = identity) ∧
    (getType m = .translate → m.m00 = 1 ∧ m.m01 = 0 ∧ m.m10 = 0 ∧ m.m11 = 1) ∧
    (getType m = .scale → m.m01 = 0 ∧ m.m10 = 0) ∧
    (getType m = .swap → m.m00 = 0 ∧ m.m11 = 0) ∧
    (getType m = .invalid → det m = 0) := by
  obtain ⟨a, b, c, d, e, f⟩ := m
  unfold getType
  simp only
  by_cases ha : a = 0 <;> by_cases hb : b = 0 <;> by_cases hc : c = 0 <;> by_cases hd : d = 0 <;>
    simp only [ha, hb, hc, hd, ne_eq, not_true_eq_false, not_false_eq_true, if_true, if_false] <;>
    simp [validTab, identity, det, ha, hb, hc, hd] <;>
    (repeat' split) <;>
    simp_all

/-- **C29**: the type of a matrix is sound: the specialized code selected by it maps every point as the
matrix does, in the portable and in the SSE2 implementation, whatever the number of points. -/
theorem C29_map_array [DecidableEq K] (m : Mat K) (src : List (Pt K)) :
    mapArray m src = src.map (mapPoint m) ∧ mapArraySse m src = src.map (mapPoint m) := by
  obtain ⟨h1, h2, h3, h4, _⟩ := getType_spec m
  have key : ∀ p, mapTyped (getType m) m p = mapPoint m p := by
    intro p
    cases ht : getType m with
    | identity => rw [h1 ht]; simp [mapTyped, mapPoint, identity]
    | translate =>
      obtain ⟨g1, g2, g3, g4⟩ := h2 ht
      simp [mapTyped, mapPoint, g1, g2, g3, g4]
    | scale =>
      obtain ⟨g1, g2⟩ := h3 ht
      simp [mapTyped, mapPoint, g1, g2]
    | swap =>
      obtain ⟨g1, g2⟩ := h4 ht
      simp [mapTyped, mapPoint, g1, g2]
    | affine => rfl
    | invalid => rfl
  have hsse : ∀ t p, mapTypedSse t m p = mapTyped t m p := by
    intro t p
    cases t <;> simp [mapTypedSse, mapTyped, vadd, vmul, vswap, make128]
    · ring
    · ring
  have hloop : ∀ (f : Pt K → Pt K) (l : List (Pt K)), mapLoopSse f l = l.map f := by
    intro f l
    induction l using mapLoopSse.induct with
    | case1 a b c d r ih => simp [mapLoopSse, ih]
    | case2 a r hne ih =>
      rw [mapLoopSse]
      · simp [ih]
      · exact hne
    | case3 => rfl
  have hp : mapArray m src = src.map (mapPoint m) := by
    unfold mapArray
    simp only
    apply List.map_congr_left
    intro p _
    split
    · exact key p
    · rfl
  refine ⟨hp, ?_⟩
  rw [← hp]
  unfold mapArraySse mapArray
  simp only
  rw [hloop]
  apply List.map_congr_left
  intro p _
  exact hsse _ p

/-- **C29**: the type is what it says: the structure of the matrix for the named types, and only degenerate
matrices are classified as invalid. -/
theorem C29_type_sound [DecidableEq K] (m : Mat K) :
    (getType m = .identity ↔ m = identity) ∧
    (getType m = .translate → ∃ x y, m = setTranslation x y) ∧
    (getType m = .scale → m.m01 = 0 ∧ m.m10 = 0) ∧
    (getType m = .swap → m.m00 = 0 ∧ m.m11 = 0) ∧
    (getType m = .invalid → ∃ p q, p ≠ q ∧ mapPoint m p = mapPoint m q) := by
  obtain ⟨h1, h2, h3, h4, h5⟩ := getType_spec m
  refine ⟨⟨h1, ?_⟩, ?_, h3, h4, ?_⟩
  · intro h; subst h
    simp [getType, identity, validTab]
  · intro h
    obtain ⟨g1, g2, g3, g4⟩ := h2 h
    exact ⟨m.m20, m.m21, by cases m; simp_all [setTranslation]⟩
  · intro h
    rw [← C29_invert_refused_iff_singular]
    unfold invert
    simp only
    have h0 : m.m00 * m.m11 - m.m01 * m.m10 = 0 := h5 h
    rw [if_pos h0]

end

/-- The converse is false: some degenerate matrices are not classified as invalid although the documentation
says `Invalid/degenerate matrix`. -/
theorem C29_degenerate_matrix_classified_affine :
    ∃ m : Mat ℚ, getType m = .affine ∧ invert m = none := by
  exact ⟨⟨0, 0, 1, 1, 0, 0⟩, by decide +kernel, by decide +kernel⟩

/-! ## Boxes -/

section
variable {K : Type} [Field K] [LinearOrder K] [IsStrictOrderedRing K]

/-- The point lies in the box. -/
def InBox (b : Box K) (p : Pt K) : Prop := b.x0 ≤ p.x ∧ p.x ≤ b.x1 ∧ b.y0 ≤ p.y ∧ p.y ≤ b.y1

theorem mul_range {a b x k : K} (h1 : a ≤ x) (h2 : x ≤ b) : min (a * k) (b * k) ≤ x * k ∧ x * k ≤ max (a * k) (b * k) := by
  rcases le_total 0 k with hk | hk
  · have e1 := mul_le_mul_of_nonneg_right h1 hk
    have e2 := mul_le_mul_of_nonneg_right h2 hk
    exact ⟨le_trans (min_le_left _ _) e1, le_trans e2 (le_max_right _ _)⟩
  · have e1 := mul_le_mul_of_nonpos_right h1 hk
    have e2 := mul_le_mul_of_nonpos_right h2 hk
    exact ⟨le_trans (min_le_right _ _) e2, le_trans e1 (le_max_left _ _)⟩

/-- **C29**: the bounding box of a transformed box contains every transformed point of the box. -/
theorem C29_map_box_contains (t : Mat K) (b : Box K) (p : Pt K) (h : InBox b p) : InBox (mapBox t b) (mapPoint t p) := by
  obtain ⟨h1, h2, h3, h4⟩ := h
  obtain ⟨a1, a2⟩ := mul_range (k := t.m00) h1 h2
  obtain ⟨b1, b2⟩ := mul_range (k := t.m10) h3 h4
  obtain ⟨c1, c2⟩ := mul_range (k := t.m01) h1 h2
  obtain ⟨d1, d2⟩ := mul_range (k := t.m11) h3 h4
  unfold InBox mapBox mapPoint
  simp only
  refine ⟨?_, ?_, ?_, ?_⟩ <;> linarith

theorem min_attained {a b k : K} (h : a ≤ b) : ∃ x, a ≤ x ∧ x ≤ b ∧ x * k = min (a * k) (b * k) := by
  rcases min_choice (a * k) (b * k) with h' | h'
  · exact ⟨a, le_refl _, h, h'.symm⟩
  · exact ⟨b, h, le_refl _, h'.symm⟩

theorem max_attained {a b k : K} (h : a ≤ b) : ∃ x, a ≤ x ∧ x ≤ b ∧ x * k = max (a * k) (b * k) := by
  rcases max_choice (a * k) (b * k) with h' | h'
  · exact ⟨a, le_refl _, h, h'.symm⟩
  · exact ⟨b, h, le_refl _, h'.symm⟩

/-- **C29**: and it is the smallest one: every box that contains all transformed points contains it. -/
theorem C29_map_box_tight (t : Mat K) (b c : Box K) (hx : b.x0 ≤ b.x1) (hy : b.y0 ≤ b.y1)
    (hc : ∀ p, InBox b p → InBox c (mapPoint t p)) :
    c.x0 ≤ (mapBox t b).x0 ∧ (mapBox t b).x1 ≤ c.x1 ∧ c.y0 ≤ (mapBox t b).y0 ∧ (mapBox t b).y1 ≤ c.y1 := by
  unfold mapBox
  simp only
  refine ⟨?_, ?_, ?_, ?_⟩
  · obtain ⟨x, x1, x2, x3⟩ := min_attained (k := t.m00) hx
    obtain ⟨y, y1, y2, y3⟩ := min_attained (k := t.m10) hy
    rw [← x3, ← y3]
    exact (hc ⟨x, y⟩ ⟨x1, x2, y1, y2⟩).1
  · obtain ⟨x, x1, x2, x3⟩ := max_attained (k := t.m00) hx
    obtain ⟨y, y1, y2, y3⟩ := max_attained (k := t.m10) hy
    rw [← x3, ← y3]
    exact (hc ⟨x, y⟩ ⟨x1, x2, y1, y2⟩).2.1
  · obtain ⟨x, x1, x2, x3⟩ := min_attained (k := t.m01) hx
    obtain ⟨y, y1, y2, y3⟩ := min_attained (k := t.m11) hy
    rw [← x3, ← y3]
    exact (hc ⟨x, y⟩ ⟨x1, x2, y1, y2⟩).2.2.1
  · obtain ⟨x, x1, x2, x3⟩ := max_attained (k := t.m01) hx
    obtain ⟨y, y1, y2, y3⟩ := max_attained (k := t.m11) hy
    rw [← x3, ← y3]
    exact (hc ⟨x, y⟩ ⟨x1, x2, y1, y2⟩).2.2.2

theorem line {a c x k t : K} (hac : a ≤ c) (hk : k ≠ 0) :
    (min (a * k + t) (c * k + t) ≤ x * k + t ∧ x * k + t ≤ max (a * k + t) (c * k + t) ↔ a ≤ x ∧ x ≤ c) := by
  rcases lt_or_gt_of_ne hk with hk | hk
  · have m1 : c * k + t ≤ a * k + t := by
      have := mul_le_mul_of_nonpos_right hac hk.le; linarith
    rw [min_eq_right m1, max_eq_left m1, add_le_add_iff_right, add_le_add_iff_right,
      mul_le_mul_right_of_neg hk, mul_le_mul_right_of_neg hk]
    exact And.comm
  · have m1 : a * k + t ≤ c * k + t := by
      have := mul_le_mul_of_nonneg_right hac hk.le; linarith
    rw [min_eq_left m1, max_eq_right m1, add_le_add_iff_right, add_le_add_iff_right,
      mul_le_mul_iff_of_pos_right hk, mul_le_mul_iff_of_pos_right hk]

theorem not_singular {t : Mat K}
    (ht : getType t = .identity ∨ getType t = .translate ∨ getType t = .scale ∨ getType t = .swap) :
    t.m00 * t.m11 - t.m01 * t.m10 ≠ 0 := by
  intro hd
  obtain ⟨a, bb, c, d, e, f⟩ := t
  simp only at hd
  rcases ht with ht | ht | ht | ht <;>
  · unfold getType at ht
    simp only at ht
    by_cases ha : a = 0 <;> by_cases hb : bb = 0 <;> by_cases hc : c = 0 <;> by_cases hdd : d = 0 <;>
      simp [validTab, ha, hb, hc, hdd] at ht <;> simp_all

/-- **C29**: for matrices of type identity, translate, scale or swap the image of a box is exactly the box
computed by the fast path, so `fill_rect` may use it. -/
theorem C29_map_box_scaled_swapped (t : Mat K) (b : Box K)
    (ht : getType t = .identity ∨ getType t = .translate ∨ getType t = .scale ∨ getType t = .swap) (q : Pt K)
    (hx : b.x0 ≤ b.x1) (hy : b.y0 ≤ b.y1) :
    InBox (mapBoxScaledSwapped t b) q ↔ ∃ p, InBox b p ∧ mapPoint t p = q := by
  obtain ⟨h1, h2, h3, h4, _⟩ := getType_spec t
  have hd := not_singular ht
  have hns : invert t ≠ none := by
    unfold invert
    simp only
    rw [if_neg hd]
    simp
  obtain ⟨u, hu⟩ := Option.ne_none_iff_exists'.1 hns
  have hinv := C29_invert hu
  -- the shape of the matrix
  have hshape : (t.m01 = 0 ∧ t.m10 = 0) ∨ (t.m00 = 0 ∧ t.m11 = 0) := by
    rcases ht with h | h | h | h
    · rw [h1 h]; left; exact ⟨rfl, rfl⟩
    · left; exact ⟨(h2 h).2.1, (h2 h).2.2.1⟩
    · left; exact h3 h
    · right; exact h4 h
  have key : ∀ p, InBox (mapBoxScaledSwapped t b) (mapPoint t p) ↔ InBox b p := by
    intro p
    unfold InBox mapBoxScaledSwapped mapPoint
    simp only
    rcases hshape with ⟨e1, e2⟩ | ⟨e1, e2⟩
    · rw [e1, e2] at hd ⊢
      have k0 : t.m00 ≠ 0 := by intro h; rw [h] at hd; simp at hd
      have k1 : t.m11 ≠ 0 := by intro h; rw [h] at hd; simp at hd
      simp only [mul_zero, add_zero, zero_add]
      have l1 := line (x := p.x) (t := t.m20) hx k0
      have l2 := line (x := p.y) (t := t.m21) hy k1
      constructor
      · rintro ⟨g1, g2, g3, g4⟩
        exact ⟨(l1.1 ⟨g1, g2⟩).1, (l1.1 ⟨g1, g2⟩).2, l2.1 ⟨g3, g4⟩⟩
      · rintro ⟨g1, g2, g3, g4⟩
        exact ⟨(l1.2 ⟨g1, g2⟩).1, (l1.2 ⟨g1, g2⟩).2, l2.2 ⟨g3, g4⟩⟩
    · rw [e1, e2] at hd ⊢
      have k0 : t.m01 ≠ 0 := by intro h; rw [h] at hd; simp at hd
      have k1 : t.m10 ≠ 0 := by intro h; rw [h] at hd; simp at hd
      simp only [mul_zero, add_zero, zero_add]
      have l1 := line (x := p.x) (t := t.m21) hx k0
      have l2 := line (x := p.y) (t := t.m20) hy k1
      constructor
      · rintro ⟨g1, g2, g3, g4⟩
        exact ⟨(l1.1 ⟨g3, g4⟩).1, (l1.1 ⟨g3, g4⟩).2, l2.1 ⟨g1, g2⟩⟩
      · rintro ⟨g1, g2, g3, g4⟩
        exact ⟨(l2.2 ⟨g3, g4⟩).1, (l2.2 ⟨g3, g4⟩).2, l1.2 ⟨g1, g2⟩⟩
  constructor
  · intro hq
    refine ⟨mapPoint u q, ?_, (hinv q).2⟩
    rw [← key, (hinv q).2]
    exact hq
  · rintro ⟨p, hp, rfl⟩
    exact (key p).2 hp

end

/-! ### The hypotheses are met -/

example : getType (⟨0, 2, -3, 0, 5, 7⟩ : Mat ℚ) = .swap := by decide +kernel
example : getType (⟨2, 0, 0, -3, 5, 7⟩ : Mat ℚ) = .scale := by decide +kernel
example : (invert (⟨2, 1, 0, -3, 5, 7⟩ : Mat ℚ)).isSome = true := by decide +kernel
example : getType (⟨1, 1, 0, 0, 0, 0⟩ : Mat ℚ) = .affine := by decide +kernel
example : getType (⟨0, 1, 0, 1, 0, 0⟩ : Mat ℚ) = .invalid := by decide +kernel

end Blend2D.Matrix
