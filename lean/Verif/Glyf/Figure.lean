import Verif.Glyf.Spec
/-! The figure of a contour, step by step. -/
namespace Blend2D.Glyf
open Spec

/-- The vertex of a point. -/
def toV (p : Pt × Bool) : Vtx := if p.2 then .on p.1 else .quad p.1

/-- The points behind `a`, with those in the middle of neighbours. -/
def emit (a : Pt × Bool) : List (Pt × Bool) → List (Pt × Bool)
  | [] => []
  | b :: l => (if !a.2 && !b.2 then [(mid a.1 b.1, true)] else []) ++ b :: emit b l

theorem fill_emit (a : Pt × Bool) (l : List (Pt × Bool)) : fill (a :: l) = a :: emit a l := by
  induction l generalizing a with
  | nil => rfl
  | cons b l ih => rw [fill, ih b, emit]

theorem emit_append (a : Pt × Bool) (l : List (Pt × Bool)) (z : Pt × Bool) :
    emit a (l ++ [z]) = emit a l ++
      (if !(l.getLastD a).2 && !z.2 then [(mid (l.getLastD a).1 z.1, true)] else []) ++ [z] := by
  induction l generalizing a with
  | nil => rfl
  | cons b l ih =>
    simp only [List.cons_append, emit, ih b, List.getLastD_cons, List.append_assoc]

theorem ring_emit (a : Pt × Bool) (l : List (Pt × Bool)) :
    ring (a :: l) = a :: emit a l ++
      (if !(l.getLastD a).2 && !a.2 then [(mid (l.getLastD a).1 a.1, true)] else []) := by
  rw [ring, List.cons_append, fill_emit, emit_append, ← List.cons_append, List.dropLast_concat]
  rfl

theorem emit_last (a : Pt × Bool) (l : List (Pt × Bool)) : (emit a l).getLastD a = l.getLastD a := by
  induction l generalizing a with
  | nil => rfl
  | cons b l ih =>
    rw [emit, List.getLastD_cons, ← ih b]
    split
    · simp only [List.cons_append, List.nil_append, List.getLastD_cons]
    · simp only [List.nil_append, List.getLastD_cons]

theorem figure_cons (a : Pt × Bool) (l : List (Pt × Bool)) :
    figure (a :: l) = .move a.1 :: l.map toV ++ (if (l.getLastD a).2 then [] else [.on a.1]) ++ [.close] := by
  rw [figure]
  have : ((a :: l).getLast?.any (!·.2)) = !(l.getLastD a).2 := by
    rw [List.getLast?_cons]
    simp [List.getLastD_eq_getLast?]
  rw [this]
  cases (l.getLastD a).2 <;> rfl

/-- A contour that starts on the curve. -/
theorem contour_on (a b : Pt × Bool) (l : List (Pt × Bool)) (ha : a.2 = true) :
    Spec.contour (a :: b :: l) = .move a.1 :: (emit a (b :: l)).map toV ++
      (if ((b :: l).getLastD a).2 then [] else [.on a.1]) ++ [.close] := by
  rw [Spec.contour, ring_emit, ha]
  · simp only [Bool.not_true, Bool.and_false, Bool.false_eq_true, if_false, List.append_nil]
    rw [rotate, List.dropWhile_cons, List.takeWhile_cons]
    simp only [ha, Bool.not_true, Bool.false_eq_true, if_false, List.append_nil]
    rw [figure_cons, emit_last]
  · simp
  · intro x hx; simp at hx

/-- A contour that starts off the curve and ends on it. -/
theorem contour_off (a b : Pt × Bool) (l : List (Pt × Bool)) (ha : a.2 = false)
    (hl : ((b :: l).getLastD a).2 = true) :
    ∃ e es, emit a (b :: l) = e :: es ∧
      Spec.contour (a :: b :: l) = .move e.1 :: es.map toV ++ [.quad a.1, .on e.1] ++ [.close] := by
  have he : ∃ e es, emit a (b :: l) = e :: es ∧ e.2 = true := by
    rw [emit]
    cases hb : b.2
    · exact ⟨(mid a.1 b.1, true), b :: emit b l, by simp [ha], rfl⟩
    · exact ⟨b, emit b l, by simp, hb⟩
  obtain ⟨e, es, he, h1⟩ := he
  refine ⟨e, es, he, ?_⟩
  rw [Spec.contour, ring_emit, hl, he]
  · simp only [Bool.not_true, Bool.false_and, Bool.false_eq_true, if_false, List.append_nil]
    rw [rotate, List.dropWhile_cons, List.takeWhile_cons]
    simp only [ha, Bool.not_false, if_true]
    rw [List.dropWhile_cons, List.takeWhile_cons]
    simp only [h1, Bool.not_true, Bool.false_eq_true, if_false, List.cons_append]
    rw [figure_cons]
    simp [List.getLastD_eq_getLast?, ha, toV]
  · simp
  · intro x hx; simp at hx

end Blend2D.Glyf
