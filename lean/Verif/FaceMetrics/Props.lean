import Verif.FaceMetrics.Lemmas
/-! The metrics of a font are those of its tables. -/
namespace Blend2D.FaceMetrics
open Spec (word sword long)

private theorem any_opt (b : Bool) (l d : List Nat) (hd : d.any (· != 0) = false) :
    (false || b && l.any (· != 0)) = (if b then l else d).any (· != 0) := by
  cases b
  · simp only [Bool.false_and, Bool.or_false, Bool.false_eq_true, if_false]; exact hd.symm
  · simp only [Bool.true_and, Bool.false_or, if_true]

private theorem table_opt (a b : List UInt8) : (if a ≠ [] ∧ b ≠ [] then b else []) = if a = [] then [] else b := by
  by_cases h : a = [] <;> by_cases h' : b = [] <;> simp [h, h']

private theorem count_opt (a b : List UInt8) (n : Nat) :
    (if a ≠ [] ∧ b ≠ [] then n else 0) = if a = [] ∨ b = [] then 0 else n := by
  by_cases h : a = [] <;> by_cases h' : b = [] <;> simp [h, h']

/-- **C57, faces.**  Whatever is in the tables of a font, if `Spec.Valid` says that they can be used: the face is
created, reading inside of the tables only, and has the metrics, the flags, the weight, the stretch, the style and
the classification that its tables have, and keeps the tables of the advances. -/
theorem C57_face {T : Tables} (h : Spec.Valid T) :
    ∃ f, init T = .ok f ∧ f.dm = Spec.design T ∧
      f.glyphCount = Spec.glyphs T ∧ f.revision = long T.head 4 ∧
      f.lastResort = (word T.head 16).testBit 14 ∧ f.baselineY0 = (word T.head 16).testBit 0 ∧
      f.lsbX0 = (word T.head 16).testBit 1 ∧ f.short = decide (word T.head 50 = 0) ∧
      f.typographic = Spec.typographic T ∧
      f.weight = (if Spec.os2 T then Spec.weight (word T.os2 4) else 0) ∧
      f.stretch = (if Spec.os2 T then Spec.stretch (word T.os2 6) else 0) ∧
      f.style = (if Spec.selection T 0 then 2 else if Spec.selection T 9 then 1 else 0) ∧
      f.panose = (if Spec.os2 T then ((T.os2.drop 32).take 10).map UInt8.toNat else List.replicate 10 0) ∧
      f.coverage = (if Spec.os2 T then [long T.os2 42, long T.os2 46, long T.os2 50, long T.os2 54]
        else List.replicate 4 0) ∧
      f.hasPanose = f.panose.any (· != 0) ∧ f.hasCoverage = f.coverage.any (· != 0) ∧
      f.advances = decide (T.hhea ≠ []) ∧
      f.hTable = (if T.hhea = [] then [] else T.hmtx) ∧
      f.hCount = (if T.hhea = [] ∨ T.hmtx = [] then 0 else Spec.records T T.hhea) ∧
      f.vTable = (if T.vhea = [] then [] else T.vmtx) ∧
      f.vCount = (if T.vhea = [] ∨ T.vmtx = [] then 0 else Spec.records T T.vhea) := by
  obtain ⟨h1, h2, h3, h4⟩ := h
  unfold init
  rw [initHead_ok h1, ok_bind, initMaxp_ok h2, ok_bind, initOs2_ok', ok_bind, initPost_ok, ok_bind,
    initH_ok' h3 rfl, ok_bind, initV_ok' h4 rfl]
  refine ⟨_, rfl, ?_⟩
  refine ⟨?_, rfl, rfl, rfl, rfl, rfl, ?_, rfl, rfl, rfl, rfl, rfl, rfl, ?_, ?_, ?_, ?_, ?_, ?_, ?_⟩
  · apply Design.ext <;> simp only [Spec.design, Spec.line, Spec.opt, Bool.false_or, decide_eq_true_eq]
    case descent => split <;> (try split) <;> simp
  · exact beq_eq_decide ..
  · exact any_opt _ _ _ rfl
  · exact any_opt _ _ _ rfl
  · exact Bool.false_or _
  · exact table_opt _ _
  · exact count_opt _ _ _
  · exact table_opt _ _
  · exact count_opt _ _ _

private theorem bad_bind {α β : Type} {x : Except Err α} {k : α → Except Err β} (h : ∃ e, e ≠ .ub ∧ x = .error e) :
    ∃ e, e ≠ .ub ∧ (x >>= k) = .error e := by
  obtain ⟨e, he, rfl⟩ := h
  exact ⟨e, he, rfl⟩

/-- **C57, rejected faces.**  A font whose tables cannot be used is rejected with an error, and without reading
outside of its tables. -/
theorem C57_face_rejected {T : Tables} (h : ¬Spec.Valid T) : ∃ e, e ≠ .ub ∧ init T = .error e := by
  unfold init
  by_cases h1 : 54 ≤ T.head.length ∧ 16 ≤ word T.head 18 ∧ word T.head 18 ≤ 16384 ∧ word T.head 52 = 0 ∧ word T.head 50 ≤ 1
  swap
  · exact bad_bind (initHead_bad h1)
  rw [initHead_ok h1, ok_bind]
  by_cases h2 : 6 ≤ T.maxp.length ∧ Spec.glyphs T ≠ 0
  swap
  · exact bad_bind (initMaxp_bad h2)
  rw [initMaxp_ok h2, ok_bind, initOs2_ok', ok_bind, initPost_ok, ok_bind]
  by_cases h3 : Spec.MetricsOk T T.hhea T.hmtx
  swap
  · apply bad_bind
    apply initH_bad h3
    rfl
  rw [initH_ok' h3 rfl, ok_bind]
  apply initV_bad (fun h4 => h ⟨h1, h2, h3, h4⟩)
  rfl

theorem valid_of_init {T : Tables} {f : Face} (h : init T = .ok f) : Spec.Valid T := by
  apply Classical.byContradiction
  intro hn
  obtain ⟨e, -, he⟩ := C57_face_rejected hn
  rw [h] at he
  cases he

theorem advanceLoop_ok {T : Tables} {f : Face} (ht : f.hTable = T.hmtx) (hc : f.hCount = Spec.records T T.hhea)
    (hp : 0 < Spec.records T T.hhea) (hl : 4 * Spec.records T T.hhea ≤ T.hmtx.length) (gs : List Nat) :
    advanceLoop f gs = .ok (gs.map fun g => ⟨0, 0, Spec.advance T g, 0⟩) := by
  induction gs with
  | nil => rfl
  | cons g gs ih =>
    rw [advanceLoop, ht, hc, get_u16 (by omega), ok_bind, ih, ok_bind, List.map_cons]
    unfold Spec.advance
    split
    · rw [Nat.min_eq_left (by omega), Nat.mul_comm]
    · rw [Nat.min_eq_right (by omega), Nat.mul_comm]

/-- **C57, advances.**  Whatever is in the tables of a font whose face can be created, and for all glyphs, also such
that the font does not have: asking for the advances of glyphs reads inside of the tables only.  If the font has
advances, every glyph gets the one of its record, or that of the last record, and is not moved; otherwise it fails. -/
theorem C57_advances {T : Tables} {f : Face} (h : init T = .ok f) (gs : List Nat) :
    (Spec.HasAdvances T → glyphAdvances f gs = .ok (gs.map fun g => ⟨0, 0, Spec.advance T g, 0⟩)) ∧
    (¬Spec.HasAdvances T → ∃ e, e ≠ .ub ∧ glyphAdvances f gs = .error e) := by
  have hv := valid_of_init h
  obtain ⟨f', h1, -, -, -, -, -, -, -, -, -, -, -, -, -, -, -, ha, ht, hc, -⟩ := C57_face hv
  obtain rfl : f = f' := by rw [h] at h1; exact Except.ok.inj h1
  obtain ⟨-, ⟨-, hg⟩, hm, -⟩ := hv
  unfold glyphAdvances
  constructor
  · rintro ⟨x1, x2, x3⟩
    rw [if_neg x1] at ht
    rw [if_neg (by tauto)] at hc
    have hp : 0 < Spec.records T T.hhea := by unfold Spec.records; omega
    have hl := (hm.resolve_left x1).2.resolve_left x2
    rw [if_neg (by rw [ha]; simpa using x1), if_neg (by omega)]
    exact advanceLoop_ok ht hc hp hl gs
  · intro hn
    by_cases x1 : T.hhea = []
    · rw [if_pos (by rw [ha]; simpa using x1)]
      exact ⟨_, by simp, rfl⟩
    · rw [if_neg (by rw [ha]; simpa using x1), if_pos]
      · exact ⟨_, by simp, rfl⟩
      · rw [hc]
        split
        · rfl
        · rename_i hx
          have : word T.hhea 34 = 0 := Classical.byContradiction fun h3 => hn ⟨x1, fun h2 => hx (.inr h2), h3⟩
          unfold Spec.records; omega

/-- **C57, fonts.**  The metrics of a font of some size are those of the face, in the proportion of the size to the
units per em. -/
theorem C57_font {T : Tables} {f : Face} (h : init T = .ok f) (size : Rat) :
    let m := fontMetrics f.dm size
    let d := Spec.design T
    let scaled : Rat → Int → Prop := fun r v => r * d.unitsPerEm = size * v
    16 ≤ d.unitsPerEm ∧ m.size = size ∧ m.m00 * d.unitsPerEm = size ∧ m.m11 = -m.m00 ∧
    scaled m.ascent d.ascent ∧ scaled m.descent d.descent ∧ scaled m.lineGap d.lineGap ∧
    scaled m.xHeight d.xHeight ∧ scaled m.capHeight d.capHeight ∧ scaled m.vAscent d.vAscent ∧
    scaled m.vDescent d.vDescent ∧ scaled m.xMin d.box.x0 ∧ scaled m.yMin d.box.y0 ∧ scaled m.xMax d.box.x1 ∧
    scaled m.yMax d.box.y1 ∧ scaled m.underlinePosition d.underlinePosition ∧
    scaled m.underlineThickness d.underlineThickness ∧ scaled m.strikePosition d.strikePosition ∧
    scaled m.strikeThickness d.strikeThickness := by
  have hv := valid_of_init h
  obtain ⟨f', h1, hd, -⟩ := C57_face hv
  obtain rfl : f = f' := by rw [h] at h1; exact Except.ok.inj h1
  have hu : 16 ≤ (Spec.design T).unitsPerEm := by
    have := hv.1.2.1
    show (16 : Int) ≤ (word T.head 18 : Int)
    omega
  have hz : (Spec.design T).unitsPerEm ≠ 0 := by omega
  have hq : ((Spec.design T).unitsPerEm : Rat) ≠ 0 := by exact_mod_cast hz
  simp only [fontMetrics, hd, if_pos hz]
  have key : ∀ v : Int, (v : Rat) * (size / (Spec.design T).unitsPerEm) * (Spec.design T).unitsPerEm = size * v := by
    intro v; rw [mul_assoc, div_mul_cancel₀ _ hq, mul_comm]
  exact ⟨hu, trivial, div_mul_cancel₀ _ hq, trivial, key _, key _, key _, key _, key _, key _, key _, key _, key _, key _, key _,
    key _, key _, key _, key _⟩

end Blend2D.FaceMetrics
