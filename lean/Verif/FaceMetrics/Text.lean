import Verif.FaceMetrics.Props
import Mathlib.Tactic.Ring
/-! The metrics of a text. -/
namespace Blend2D.FaceMetrics
open Spec (word sword long)

theorem sumAdvances_eq (l : List Placement) (a : Glyf.Pt) :
    sumAdvances l a = ⟨a.x + (l.map (·.ax)).sum, a.y + (l.map (·.ay)).sum⟩ := by
  induction l generalizing a with
  | nil => simp [sumAdvances]
  | cons p l ih =>
    rw [sumAdvances, ih]
    simp only [List.map_cons, List.sum_cons, Int.cast_add, Glyf.Pt.mk.injEq]
    constructor <;> ring

/-- What is measured once the glyphs are placed. -/
theorem measure_ok {F : Font} {b : Buf} {gs : List Nat} {ps : List Placement} {first g : Nat} {last : Placement}
    (hf : (gs ++ [g]).head? = some first) (hl : ps.length = gs.length)
    (hc : b.content = gs ++ [g]) (hp : b.placements = some (ps ++ [last])) :
    (∀ b0 b1, Spec.glyphBox F.glyf first = some b0 → Spec.glyphBox F.glyf g = some b1 →
      ∃ m, measure F b = .ok m ∧ Spec.IsMetrics (fontMetrics F.face.dm F.size).m00 b0 b1 ps last m) ∧
    ((Spec.glyphBox F.glyf first = none ∨ Spec.glyphBox F.glyf g = none) → measure F b = .error .invalidData) := by
  obtain ⟨rest, hr⟩ : ∃ rest, gs ++ [g] = first :: rest := by
    cases gs with
    | nil => simp only [List.nil_append, List.head?_cons, Option.some.injEq] at hf; exact ⟨[], by rw [hf]; rfl⟩
    | cons x xs => simp only [List.cons_append, List.head?_cons, Option.some.injEq] at hf; exact ⟨xs ++ [g], by rw [← hf]; rfl⟩
  have hlast : (first :: rest).getLast (List.cons_ne_nil _ _) = g := by
    simp only [← hr, List.getLast_append_singleton]
  have hlen : (first :: rest).length = ps.length + 1 := by rw [← hr]; simp [hl]
  have hm : measure F b = (do
      let boxes := [first, g].map (fun gid => ((Glyf.Spec.bytes F.glyf (gid % 65536)).bind Glyf.Spec.box).getD ⟨0, 0, 0, 0⟩)
      if ([first, g].all (fun gid => ((Glyf.Spec.bytes F.glyf (gid % 65536)).bind Glyf.Spec.box).isSome)) = false then .error .invalidData
      else do
        let b0 ← get (boxes[0]?)
        let b1 ← get (boxes[1]?)
        let last ← get ((ps ++ [last])[ps.length]?)
        let adv := sumAdvances (ps ++ [last]) ⟨0, 0⟩
        let lsb : Rat := b0.x0
        let rsb : Rat := last.ax - b1.x1
        let m := fontMetrics F.face.dm F.size
        .ok { advance := ⟨adv.x * m.m00, adv.y * m.m11⟩
              leading := ⟨lsb * m.m00, 0 * m.m11⟩
              trailing := ⟨rsb * m.m00, 0 * m.m11⟩
              x0 := b0.x0 * m.m00, y0 := 0 * m.m11, x1 := (adv.x - rsb) * m.m00, y1 := 0 * m.m11 }) := by
    unfold measure
    rw [hr] at hc
    simp only [hc, hp, hlast, hlen]
    have e1 : get (some (ps ++ [last])) = .ok (ps ++ [last]) := rfl
    rw [e1, ok_bind, if_neg (by simp), ok_bind, Glyf.C56_bounds]
    have e2 : List.take (ps.length + 1) (ps ++ [last]) = ps ++ [last] := List.take_of_length_le (by simp)
    simp only [e2, Nat.add_sub_cancel]
    simp
    rfl
  rw [hm]
  unfold Spec.glyphBox
  constructor
  · intro b0 b1 h0 h1
    simp only [List.all_cons, List.all_nil, List.map_cons, List.map_nil, h0, h1, Option.isSome_some, Option.getD_some,
      Bool.and_true, Bool.true_eq_false, if_false]
    have e3 : (ps ++ [last])[ps.length]? = some last := by simp
    rw [e3]
    refine ⟨_, rfl, ?_⟩
    rw [sumAdvances_eq]
    have e4 : (fontMetrics F.face.dm F.size).m11 = -(fontMetrics F.face.dm F.size).m00 := rfl
    constructor <;> simp only [e4, List.map_append, List.map_cons, List.map_nil, List.sum_append, List.sum_cons,
      List.sum_nil, Int.cast_add, Int.cast_zero, Glyf.Pt.mk.injEq]
    · ring
    · ring
    · constructor <;> ring
    · constructor <;> ring
    · ring
    · ring
    · ring
    · ring
  · rintro (h | h) <;> simp [h]

/-- **C57, texts.**  Whatever the tables, the layout and the size of a font: the metrics of a text, or of glyphs that
are placed already, are those of its glyphs (`Spec.IsMetrics`), nothing is measured if there are none, and it is an
error if the first or the last glyph has no outline.  Nothing is read that was not written.  Partial: the font must
have advances, see `C57_text_counterexample`. -/
theorem C57_text_partial {T : Tables} {F : Font} (h : init T = .ok F.face) (ha : Spec.HasAdvances T)
    (hL : ∀ k, F.layout.gpos = some k → ∀ gs ps, ps.length = gs.length → (k gs ps).length = gs.length)
    {b : Buf} {gs : List Nat} {ps : List Placement}
    (hb : b.content ≠ [] ∧ b.text = true ∧ b.positioned = false ∧ Spec.shaped T F.layout b.content = (gs, ps) ∨
      b.positioned = true ∧ b.content = gs ∧ b.placements = some ps ∧ ps.length = gs.length) :
    (gs = [] → ∃ b', textMetrics F b = .ok (⟨⟨0, 0⟩, ⟨0, 0⟩, ⟨0, 0⟩, 0, 0, 0, 0⟩, b')) ∧
    (∀ first g b0 b1 gs' ps' last, gs.head? = some first → gs = gs' ++ [g] → ps = ps' ++ [last] →
      Spec.glyphBox F.glyf first = some b0 → Spec.glyphBox F.glyf g = some b1 →
      ∃ m b', textMetrics F b = .ok (m, b') ∧ b'.content = gs ∧ b'.placements = some ps ∧ b'.positioned = true ∧
        Spec.IsMetrics (F.size / (Spec.design T).unitsPerEm) b0 b1 ps' last m) ∧
    (∀ first g, gs.head? = some first → gs.getLast? = some g →
      Spec.glyphBox F.glyf first = none ∨ Spec.glyphBox F.glyf g = none → textMetrics F b = .error .invalidData) := by
  -- the buffer that is measured
  obtain ⟨b', hb', hc, hp⟩ : ∃ b', (if b.positioned = false then shape F b else .ok b) = .ok b' ∧ b'.content = gs ∧
      (gs ≠ [] → b'.placements = some ps ∧ b'.positioned = true ∧ ps.length = gs.length) := by
    rcases hb with ⟨h1, h2, h3, h4⟩ | ⟨h1, h2, h3, h4⟩
    · simp only [Spec.shaped, Prod.mk.injEq] at h4
      obtain ⟨hgs, hps⟩ := h4
      rw [if_pos h3]
      unfold shape mapText
      rw [if_neg (by simpa using h1), if_neg (by rw [h2]; simp), ok_bind]
      simp only [hgs]
      unfold position
      simp only []
      by_cases hn : gs = []
      · rw [if_pos (by simp [hn])]
        exact ⟨_, rfl, rfl, fun hn' => absurd hn hn'⟩
      · rw [if_neg (by simpa using hn), if_neg (by simp), if_pos h3, (C57_advances h gs).1 ha]
        rw [hgs] at hps
        cases hk : F.layout.gpos with
        | none =>
          rw [hk] at hps
          simp only [ok_bind]
          exact ⟨_, rfl, rfl, fun _ => ⟨by rw [← hps], rfl, by rw [← hps]; simp⟩⟩
        | some k =>
          rw [hk] at hps
          simp only [ok_bind]
          exact ⟨_, rfl, rfl, fun _ => ⟨by rw [← hps], rfl, by rw [← hps]; exact hL k hk _ _ (by simp)⟩⟩
    · rw [if_neg (by simp [h1])]
      exact ⟨b, rfl, h2, fun _ => ⟨h3, h1, h4⟩⟩
  have ht : textMetrics F b = (do let m ← measure F b'; .ok (m, b')) := by
    unfold textMetrics
    split at hb'
    · rw [if_pos (by assumption), hb', ok_bind]
    · rw [if_neg (by assumption), ok_bind, Except.ok.inj hb']
  have hs : (fontMetrics F.face.dm F.size).m00 = F.size / (Spec.design T).unitsPerEm := by
    have := (C57_font h F.size)
    obtain ⟨hu, -, hm, -⟩ := this
    have hq : ((Spec.design T).unitsPerEm : Rat) ≠ 0 := by
      have : (Spec.design T).unitsPerEm ≠ 0 := by omega
      exact_mod_cast this
    rw [eq_div_iff hq]; exact hm
  rw [ht]
  refine ⟨?_, ?_, ?_⟩
  · intro hn
    unfold measure
    rw [hc, hn]
    exact ⟨b', rfl⟩
  · intro first g b0 b1 gs' ps' last hf hg hl h0 h1
    obtain ⟨p1, p2, p3⟩ := hp (by rw [hg]; simp)
    obtain ⟨m, hm, hi⟩ := (measure_ok (F := F) (b := b') (gs := gs') (ps := ps') (first := first) (g := g) (last := last)
      (by rw [← hg]; exact hf) (by rw [hl, hg] at p3; simpa using p3) (by rw [hc, hg]) (by rw [p1, hl])).1 b0 b1 h0 h1
    rw [hm, ok_bind]
    exact ⟨m, b', rfl, hc, p1, p2, hs ▸ hi⟩
  · intro first g hf hg hx
    obtain ⟨gs', hgs⟩ := List.getLast?_eq_some_iff.1 hg
    obtain ⟨p1, p2, p3⟩ := hp (by rw [hgs]; simp)
    obtain ⟨ps', last, hps⟩ : ∃ ps' last, ps = ps' ++ [last] := by
      have : ps ≠ [] := by rintro rfl; rw [hgs] at p3; simp at p3
      exact ⟨ps.dropLast, ps.getLast this, (List.dropLast_concat_getLast this).symm⟩
    rw [(measure_ok (F := F) (b := b') (gs := gs') (ps := ps') (first := first) (g := g) (last := last)
      (by rw [← hgs]; exact hf) (by rw [hps, hgs] at p3; simpa using p3) (by rw [hc, hgs]) (by rw [p1, hps])).2 hx]
    rfl

end Blend2D.FaceMetrics
