import Mathlib.Tactic.Ring
import Mathlib.Tactic.Linarith
import Mathlib.Tactic.FieldSimp
import Mathlib.Tactic.NormNum
import Verif.CompOp.Spec

/-!
# C12: simplification of composition operators preserves the result
-/

namespace Blend2D.CompOp

/-- The statement of the property for one table entry, all pixels and all coverages. -/
def Preserved (ε : ℝ) (op : Op) (d s : Fmt) (dst src : Mem) (m : ℝ) : Prop :=
  ∃ i r r', simplify op d s = some i ∧ composeInfo ε i dst src m = some r ∧
    compose ε op d s dst src m = some r' ∧ SamePixel d r r'

section
variable {ε : ℝ} {m : ℝ} {d s : Fmt} {dst src : Mem}

/-- Evaluates the table and both compositions. -/
macro "crunch" : tactic => `(tactic| (
  simp only [Preserved, simplify, simplifyFuel, make, reduceCtorEq, and_self, and_true, and_false, false_and, true_and,
    or_true, or_false, true_or, false_or, if_true, if_false, composeInfo, compose, read, solidPx, blend, Px.scale, union,
    Option.bind_eq_bind, Option.bind_some, Option.some.injEq, ↓reduceIte, Option.bind,
    exists_eq_left', SamePixel, store, Px.mk.injEq, exists_and_left]))

set_option hygiene false in
/-- Goes through all destination and source formats. -/
macro "formats" : tactic => `(tactic| (
  rcases hd with rfl | rfl | rfl <;> cases s <;> cases dst <;> cases src <;> simp only [Valid] at h1 h2 <;>
    (try (exact h1.elim)) <;> (try (exact h2.elim)) <;> rename_i u v))

set_option hygiene false in
/-- Closes what is left. -/
macro "finish" : tactic => `(tactic| first
  | exact ⟨_, rfl⟩
  | ring1
  | (refine ⟨?_, ?_⟩ <;> ring1)
  | (obtain ⟨rfl, rfl⟩ := h2; ring1)
  | (obtain ⟨rfl, rfl⟩ := h2; refine ⟨?_, ?_⟩ <;> ring1)
  | (obtain ⟨rfl, -, -⟩ := h2; ring1)
  | (obtain ⟨rfl, -, -⟩ := h2; refine ⟨?_, ?_⟩ <;> ring1)
  | (obtain ⟨rfl, -, -⟩ := h2; exact ⟨_, rfl⟩)
  | (obtain ⟨rfl, rfl⟩ := h2; simp; done)
  | (obtain ⟨rfl, -, -⟩ := h2; simp; done))

theorem srcOver_ok (hd : IsDst d) (h1 : Valid d dst) (h2 : Valid s src) : Preserved ε .srcOver d s dst src m := by
  formats
  all_goals crunch
  all_goals try finish

theorem srcCopy_ok (hd : IsDst d) (h1 : Valid d dst) (h2 : Valid s src) : Preserved ε .srcCopy d s dst src m := by
  formats
  all_goals crunch
  all_goals try finish

theorem srcIn_ok (hd : IsDst d) (h1 : Valid d dst) (h2 : Valid s src) : Preserved ε .srcIn d s dst src m := by
  formats
  all_goals crunch
  all_goals try finish

theorem srcOut_ok (hd : IsDst d) (h1 : Valid d dst) (h2 : Valid s src) : Preserved ε .srcOut d s dst src m := by
  formats
  all_goals crunch
  all_goals try finish

theorem srcAtop_ok (hd : IsDst d) (h1 : Valid d dst) (h2 : Valid s src) : Preserved ε .srcAtop d s dst src m := by
  formats
  all_goals crunch
  all_goals try finish

theorem dstOver_ok (hd : IsDst d) (h1 : Valid d dst) (h2 : Valid s src) : Preserved ε .dstOver d s dst src m := by
  formats
  all_goals crunch
  all_goals try finish

theorem dstCopy_ok (hd : IsDst d) (h1 : Valid d dst) (h2 : Valid s src) : Preserved ε .dstCopy d s dst src m := by
  formats
  all_goals crunch
  all_goals try finish

theorem dstIn_ok (hd : IsDst d) (h1 : Valid d dst) (h2 : Valid s src) (he : ¬ (d = .xrgb32 ∧ s = .zero32)) :
    Preserved ε .dstIn d s dst src m := by
  formats
  all_goals crunch
  all_goals try finish
  exact absurd ⟨rfl, rfl⟩ he

theorem dstOut_ok (hd : IsDst d) (h1 : Valid d dst) (h2 : Valid s src) : Preserved ε .dstOut d s dst src m := by
  formats
  all_goals crunch
  all_goals try finish

theorem dstAtop_ok (hd : IsDst d) (h1 : Valid d dst) (h2 : Valid s src) : Preserved ε .dstAtop d s dst src m := by
  formats
  all_goals crunch
  all_goals try finish

theorem xor_ok (hd : IsDst d) (h1 : Valid d dst) (h2 : Valid s src) : Preserved ε .xor d s dst src m := by
  formats
  all_goals crunch
  all_goals try finish

theorem clear_ok (hd : IsDst d) (h1 : Valid d dst) (h2 : Valid s src) : Preserved ε .clear d s dst src m := by
  formats
  all_goals crunch
  all_goals try finish

theorem plus_ok (hd : IsDst d) (h1 : Valid d dst) (h2 : Valid s src) :
    Preserved ε .plus d s dst src m := by
  formats
  all_goals crunch
  all_goals try finish
  · obtain ⟨rfl, rfl⟩ := h2
    refine ⟨?_, ?_⟩ <;> rw [min_eq_right] <;> linarith [h1.1, h1.2.1, h1.2.2]
  · obtain ⟨rfl, rfl⟩ := h2
    rw [min_eq_right] <;> linarith [h1.1, h1.2]
  · obtain ⟨rfl, rfl⟩ := h2
    rw [min_eq_right] <;> linarith [h1.1, h1.2]

theorem minus_ok (hd : IsDst d) (h1 : Valid d dst) (h2 : Valid s src) :
    Preserved ε .minus d s dst src m := by
  formats
  all_goals crunch
  all_goals try finish
  · obtain ⟨rfl, rfl⟩ := h2
    refine ⟨?_, by ring1⟩
    rw [max_eq_right] <;> linarith [h1.1]
  · obtain ⟨rfl, rfl⟩ := h2
    rw [max_eq_right] <;> linarith [h1.1]

theorem modulate_ok (hd : IsDst d) (h1 : Valid d dst) (h2 : Valid s src) : Preserved ε .modulate d s dst src m := by
  formats
  all_goals crunch
  all_goals try finish

theorem multiply_ok (hd : IsDst d) (h1 : Valid d dst) (h2 : Valid s src) : Preserved ε .multiply d s dst src m := by
  formats
  all_goals crunch
  all_goals try finish

theorem screen_ok (hd : IsDst d) (h1 : Valid d dst) (h2 : Valid s src) : Preserved ε .screen d s dst src m := by
  formats
  all_goals crunch
  all_goals try finish

theorem overlay_ok (hd : IsDst d) (h1 : Valid d dst) (h2 : Valid s src) : Preserved ε .overlay d s dst src m := by
  formats
  all_goals crunch
  all_goals try finish

theorem darken_ok (hd : IsDst d) (h1 : Valid d dst) (h2 : Valid s src) (hm : 0 ≤ m ∧ m ≤ 1) :
    Preserved ε .darken d s dst src m := by
  formats
  all_goals crunch
  all_goals try finish
  · refine ⟨?_, by ring1⟩
    rename_i x
    have hw : 0 ≤ v * m := mul_nonneg h2.1 hm.1
    have hq : u * (v * m) ≤ x * (v * m) := mul_le_mul_of_nonneg_right h1.2.1 hw
    have hu := mul_nonneg h1.1 hw
    have hx := mul_nonneg (h1.1.trans h1.2.1) hw
    rw [min_eq_right (by linarith)]; ring1
  · have hw : 0 ≤ v * m := mul_nonneg h2.1 hm.1
    have hq : u * (v * m) ≤ 1 * (v * m) := mul_le_mul_of_nonneg_right h1.2 hw
    have hu := mul_nonneg h1.1 hw
    have hx := hw
    rw [min_eq_right (by linarith)]; ring1

theorem lighten_ok (hd : IsDst d) (h1 : Valid d dst) (h2 : Valid s src) (hm : 0 ≤ m ∧ m ≤ 1) :
    Preserved ε .lighten d s dst src m := by
  formats
  all_goals crunch
  all_goals try finish
  · refine ⟨?_, by ring1⟩
    rename_i x
    have hw : 0 ≤ v * m := mul_nonneg h2.1 hm.1
    have hq : u * (v * m) ≤ x * (v * m) := mul_le_mul_of_nonneg_right h1.2.1 hw
    have hu := mul_nonneg h1.1 hw
    have hx := mul_nonneg (h1.1.trans h1.2.1) hw
    rw [max_eq_left (by linarith)]; ring1
  · have hw : 0 ≤ v * m := mul_nonneg h2.1 hm.1
    have hq : u * (v * m) ≤ 1 * (v * m) := mul_le_mul_of_nonneg_right h1.2 hw
    have hu := mul_nonneg h1.1 hw
    have hx := hw
    rw [max_eq_left (by linarith)]; ring1

theorem colorDodge_ok (hd : IsDst d) (h1 : Valid d dst) (h2 : Valid s src) (he : s = .a8 → d = .a8) :
    Preserved ε .colorDodge d s dst src m := by
  formats
  all_goals crunch
  all_goals try finish
  · cases he rfl
  · cases he rfl

theorem colorBurn_ok (hd : IsDst d) (h1 : Valid d dst) (h2 : Valid s src) (hε : 0 < ε) (hm : 0 ≤ m ∧ m ≤ 1)
    (he : s = .a8 → d ≠ .a8 → ∀ a, src = .p8 a → a * m = 0 ∨ ε ≤ a * m) :
    Preserved ε .colorBurn d s dst src m := by
  formats
  all_goals crunch
  all_goals try finish
  · refine ⟨?_, by ring1⟩
    rename_i x
    have hw : 0 ≤ v * m := mul_nonneg h2.1 hm.1
    have hq : u * (v * m) ≤ x * (v * m) := mul_le_mul_of_nonneg_right h1.2.1 hw
    have hu := mul_nonneg h1.1 hw
    have hx := mul_nonneg (h1.1.trans h1.2.1) hw
    have hz : (x - u) * (v * m) * (v * m) / max (v * m) ε = (x - u) * (v * m) := by
      rcases he rfl (by simp) v rfl with h0 | h0
      · rw [h0]; simp
      · rw [max_eq_left h0]
        have : v * m ≠ 0 := by linarith
        field_simp
    rw [hz, min_eq_right (by linarith)]; ring1
  · have hw : 0 ≤ v * m := mul_nonneg h2.1 hm.1
    have hq : u * (v * m) ≤ 1 * (v * m) := mul_le_mul_of_nonneg_right h1.2 hw
    have hu := mul_nonneg h1.1 hw
    have hx := hw
    have hz : (1 - u) * (v * m) * (v * m) / max (v * m) ε = (1 - u) * (v * m) := by
      rcases he rfl (by simp) v rfl with h0 | h0
      · rw [h0]; simp
      · rw [max_eq_left h0]
        have : v * m ≠ 0 := by linarith
        field_simp
    rw [hz, min_eq_right (by linarith)]; ring1

theorem linearBurn_ok (hd : IsDst d) (h1 : Valid d dst) (h2 : Valid s src) :
    Preserved ε .linearBurn d s dst src m := by
  formats
  all_goals crunch
  all_goals try finish
  · refine ⟨?_, by ring1⟩
    rename_i x
    have h3 : v * x ≤ v * 1 := mul_le_mul_of_nonneg_left h1.2.2 h2.1
    have h4 : v * (1 - x) ≤ 1 * (1 - x) := mul_le_mul_of_nonneg_right h2.2 (by linarith [h1.2.2])
    rw [min_eq_right (by linarith [h1.2.1]), max_eq_right (by linarith [h1.1])]; ring1
  · obtain ⟨rfl, rfl⟩ := h2
    refine ⟨?_, by ring1⟩
    rw [min_eq_right (by linarith [h1.2.1, h1.2.2]), max_eq_right (by linarith [h1.1])]; ring1
  · rw [min_eq_right (by linarith [h1.2]), max_eq_right (by linarith [h1.1])]; ring1
  · obtain ⟨rfl, rfl⟩ := h2
    rw [min_eq_right (by linarith [h1.2]), max_eq_right (by linarith [h1.1])]; ring1

theorem linearLight_ok (hd : IsDst d) (h1 : Valid d dst) (h2 : Valid s src) (hm : 0 ≤ m ∧ m ≤ 1) :
    Preserved ε .linearLight d s dst src m := by
  formats
  all_goals crunch
  all_goals try finish
  · refine ⟨?_, by ring1⟩
    rename_i x
    have hw : 0 ≤ v * m := mul_nonneg h2.1 hm.1
    have hq : u * (v * m) ≤ x * (v * m) := mul_le_mul_of_nonneg_right h1.2.1 hw
    have hu := mul_nonneg h1.1 hw
    have hx := mul_nonneg (h1.1.trans h1.2.1) hw
    rw [max_eq_left (by linarith), min_eq_right (by linarith)]; ring1
  · have hw : 0 ≤ v * m := mul_nonneg h2.1 hm.1
    have hq : u * (v * m) ≤ 1 * (v * m) := mul_le_mul_of_nonneg_right h1.2 hw
    have hu := mul_nonneg h1.1 hw
    have hx := hw
    rw [max_eq_left (by linarith), min_eq_right (by linarith)]; ring1

theorem pinLight_ok (hd : IsDst d) (h1 : Valid d dst) (h2 : Valid s src) (hm : 0 ≤ m ∧ m ≤ 1) :
    Preserved ε .pinLight d s dst src m := by
  formats
  all_goals crunch
  all_goals try finish
  · refine ⟨?_, by ring1⟩
    rename_i x
    have hw : 0 ≤ v * m := mul_nonneg h2.1 hm.1
    have hq : u * (v * m) ≤ x * (v * m) := mul_le_mul_of_nonneg_right h1.2.1 hw
    have hu := mul_nonneg h1.1 hw
    have hx := mul_nonneg (h1.1.trans h1.2.1) hw
    by_cases h : 2 * (v * m) ≤ v * m
    · have h0 : v * m = 0 := by linarith
      simp only [h, ↓reduceIte]
      rw [h0]; simp
    · simp only [h, ↓reduceIte]
      rw [max_eq_right (by linarith)]; ring1
  · have hw : 0 ≤ v * m := mul_nonneg h2.1 hm.1
    have hq : u * (v * m) ≤ 1 * (v * m) := mul_le_mul_of_nonneg_right h1.2 hw
    have hu := mul_nonneg h1.1 hw
    have hx := hw
    by_cases h : 2 * (v * m) ≤ v * m
    · have h0 : v * m = 0 := by linarith
      simp only [h, ↓reduceIte]
      rw [h0]; simp
    · simp only [h, ↓reduceIte]
      rw [max_eq_right (by linarith)]; ring1

theorem hardLight_ok (hd : IsDst d) (h1 : Valid d dst) (h2 : Valid s src) (hm : 0 ≤ m ∧ m ≤ 1) :
    Preserved ε .hardLight d s dst src m := by
  formats
  all_goals crunch
  all_goals try finish
  · refine ⟨?_, by ring1⟩
    rename_i x
    have hw : 0 ≤ v * m := mul_nonneg h2.1 hm.1
    have hq : u * (v * m) ≤ x * (v * m) := mul_le_mul_of_nonneg_right h1.2.1 hw
    have hu := mul_nonneg h1.1 hw
    have hx := mul_nonneg (h1.1.trans h1.2.1) hw
    by_cases h : 2 * (v * m) ≤ v * m
    · have h0 : v * m = 0 := by linarith
      simp only [h, ↓reduceIte]
      rw [h0]; simp
    · simp only [h, ↓reduceIte]
      ring1
  · have hw : 0 ≤ v * m := mul_nonneg h2.1 hm.1
    have hq : u * (v * m) ≤ 1 * (v * m) := mul_le_mul_of_nonneg_right h1.2 hw
    have hu := mul_nonneg h1.1 hw
    have hx := hw
    by_cases h : 2 * (v * m) ≤ v * m
    · have h0 : v * m = 0 := by linarith
      simp only [h, ↓reduceIte]
      rw [h0]; simp
    · simp only [h, ↓reduceIte]
      ring1

theorem softLight_ok (hd : IsDst d) (h1 : Valid d dst) (h2 : Valid s src) : Preserved ε .softLight d s dst src m := by
  formats
  all_goals crunch
  all_goals try finish

theorem difference_ok (hd : IsDst d) (h1 : Valid d dst) (h2 : Valid s src) : Preserved ε .difference d s dst src m := by
  formats
  all_goals crunch
  all_goals try finish

theorem exclusion_ok (hd : IsDst d) (h1 : Valid d dst) (h2 : Valid s src) : Preserved ε .exclusion d s dst src m := by
  formats
  all_goals crunch
  all_goals try finish

theorem alphaInv_ok (hd : IsDst d) (h1 : Valid d dst) (h2 : Valid s src) : Preserved ε .alphaInv d s dst src m := by
  formats
  all_goals crunch
  all_goals try finish

end

/-- Every operator, every combination of a destination format and a source format, all pixel values and all coverages:
the record of the simplification table exists, can be applied to the memory it is used for, and shows the same pixel as
the operator the user has asked for.

Missing (see the theorems below): `dst-in` of the zero color to an `xrgb32` destination, `color-dodge` of an alpha-only
source, and `color-burn` of an alpha-only source whose alpha is not zero but smaller than the smallest divisor. -/
theorem C12_simplify_partial {ε m : ℝ} {op : Op} {d s : Fmt} {dst src : Mem} (hε : 0 < ε) (hm : 0 ≤ m ∧ m ≤ 1)
    (hd : IsDst d) (h1 : Valid d dst) (h2 : Valid s src)
    (e1 : ¬ (op = .dstIn ∧ d = .xrgb32 ∧ s = .zero32))
    (e2 : op = .colorDodge → s = .a8 → d = .a8)
    (e3 : op = .colorBurn → s = .a8 → d ≠ .a8 → ∀ a, src = .p8 a → a * m = 0 ∨ ε ≤ a * m) :
    ∃ i r r', simplify op d s = some i ∧ composeInfo ε i dst src m = some r ∧
      compose ε op d s dst src m = some r' ∧ SamePixel d r r' := by
  cases op
  · exact srcOver_ok hd h1 h2
  · exact srcCopy_ok hd h1 h2
  · exact srcIn_ok hd h1 h2
  · exact srcOut_ok hd h1 h2
  · exact srcAtop_ok hd h1 h2
  · exact dstOver_ok hd h1 h2
  · exact dstCopy_ok hd h1 h2
  · exact dstIn_ok hd h1 h2 (fun h => e1 ⟨rfl, h⟩)
  · exact dstOut_ok hd h1 h2
  · exact dstAtop_ok hd h1 h2
  · exact xor_ok hd h1 h2
  · exact clear_ok hd h1 h2
  · exact plus_ok hd h1 h2
  · exact minus_ok hd h1 h2
  · exact modulate_ok hd h1 h2
  · exact multiply_ok hd h1 h2
  · exact screen_ok hd h1 h2
  · exact overlay_ok hd h1 h2
  · exact darken_ok hd h1 h2 hm
  · exact lighten_ok hd h1 h2 hm
  · exact colorDodge_ok hd h1 h2 (e2 rfl)
  · exact colorBurn_ok hd h1 h2 hε hm (e3 rfl)
  · exact linearBurn_ok hd h1 h2
  · exact linearLight_ok hd h1 h2 hm
  · exact pinLight_ok hd h1 h2 hm
  · exact hardLight_ok hd h1 h2 hm
  · exact softLight_ok hd h1 h2
  · exact difference_ok hd h1 h2
  · exact exclusion_ok hd h1 h2
  · exact alphaInv_ok hd h1 h2

/-- `dst-in` of the zero color must clear an `xrgb32` destination to black, but the engine treats it as a no-operation:
a white pixel stays white. -/
theorem C12_dst_in_zero_is_nop (ε : ℝ) :
    simplify .dstIn .xrgb32 .zero32 = some ⟨.dstCopy, .none, .none, .alwaysNop⟩ ∧
    composeInfo ε ⟨.dstCopy, .none, .none, .alwaysNop⟩ (.p32 1 1) (.p32 0 0) 1 = some (.p32 1 1) ∧
    compose ε .dstIn .xrgb32 .zero32 (.p32 1 1) (.p32 0 0) 1 = some (.p32 0 0) := by
  refine ⟨rfl, by simp [composeInfo], ?_⟩
  simp [compose, read, store, blend]

/-- `color-dodge` of white to black keeps black, but if the source is an opaque alpha-only pixel (which is white) the
engine replaces it by `src-over`, which makes it white. -/
theorem C12_color_dodge_a8 (ε : ℝ) :
    simplify .colorDodge .prgb32 .a8 = some ⟨.srcOver, .prgb32, .a8, .none⟩ ∧
    composeInfo ε ⟨.srcOver, .prgb32, .a8, .none⟩ (.p32 1 0) (.p8 1) 1 = some (.p32 1 1) ∧
    compose ε .colorDodge .prgb32 .a8 (.p32 1 0) (.p8 1) 1 = some (.p32 1 0) := by
  refine ⟨rfl, ?_, ?_⟩
  · simp [composeInfo, read, solidPx, store, blend, Px.scale]
  · simp [compose, read, store, blend, Px.scale, union]

/-- The fields of a packed record are the ones it was made of, for all operators, formats and solid overrides. -/
theorem C12_packed (op : Fin 64) (d s : Fin 16) (solid : Fin 5) :
    unpackOp (pack op d s solid) = op ∧ unpackDst (pack op d s solid) = d ∧
      unpackSrc (pack op d s solid) = s ∧ unpackSolid (pack op d s solid) = solid := by
  revert op d s solid
  decide +kernel

-- The hypotheses are met by translucent pixels under partial coverage, e.g. `multiply` of an alpha-only source.
example : simplify .multiply .xrgb32 .xrgb32 = some ⟨.modulate, .xrgb32, .prgb32, .none⟩ := rfl
example : simplify .xor .a8 .frgb32 = some ⟨.alphaInv, .a8, .xrgb32, .opaqueWhite⟩ := rfl
example : (0 : ℝ) < 1 / 1000 ∧ IsDst .prgb32 ∧ Valid .prgb32 (.p32 (1 / 2) (1 / 4)) ∧ Valid .xrgb32 (.p32 0 (3 / 4)) := by
  refine ⟨by norm_num, Or.inl rfl, ?_, ?_⟩ <;> norm_num [Valid]
/-- A half transparent red under half coverage. -/
example : compose (1 / 1000) .srcOver .prgb32 .prgb32 (.p32 1 0) (.p32 (1 / 2) (1 / 2)) (1 / 2) =
    some (.p32 1 (1 / 4)) := by
  simp only [compose, read, store, blend, Px.scale, Option.bind_eq_bind, Option.bind_some]; norm_num

end Blend2D.CompOp
