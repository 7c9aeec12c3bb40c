import Verif.FaceMetrics.Text
/-! Cases that meet the hypotheses, and the counterexample. -/
namespace Blend2D.FaceMetrics

/-- Two bytes, big endian. -/
private def w (n : Nat) : List UInt8 := [UInt8.ofNat (n / 256), UInt8.ofNat n]
private def z (n : Nat) : List UInt8 := List.replicate n 0

/-- Flags 3, 1000 units per em, box (-100, -200, 900, 800). -/
private def head : List UInt8 :=
  z 4 ++ [0, 1, 128, 0] ++ z 8 ++ w 3 ++ w 1000 ++ z 16 ++ w 65436 ++ w 65336 ++ w 900 ++ w 800 ++ w 0 ++ w 8 ++ w 2 ++ w 0 ++ w 0
/-- Four glyphs. -/
private def maxp : List UInt8 := [0, 1, 0, 0] ++ w 4
/-- Ascender 750, descender -250, line gap 90; two records in `hmtx`. -/
private def hhea : List UInt8 := z 4 ++ w 750 ++ w 65286 ++ w 90 ++ w 700 ++ z 22 ++ w 2
/-- Advances 500 and 600. -/
private def hmtx : List UInt8 := w 500 ++ w 0 ++ w 600 ++ w 0 ++ w 7 ++ w 8
/-- Version 2, weight 7, stretch 5, strikeout 50 and 300, italic, metrics 700, -300, 100, heights 480 and 690. -/
private def os2 (sel : Nat) : List UInt8 :=
  w 2 ++ w 0 ++ w 7 ++ w 5 ++ z 18 ++ w 50 ++ w 300 ++ w 0 ++ [2, 0, 5, 0, 0, 0, 0, 0, 0, 0] ++ z 20 ++ w sel ++ z 4 ++
  w 700 ++ w 65236 ++ w 100 ++ z 12 ++ w 480 ++ w 690 ++ z 6
private def post : List UInt8 := z 8 ++ w 65436 ++ w 40 ++ z 20

private def tables (sel : Nat) : Tables := ⟨head, maxp, os2 sel, post, hhea, hmtx, [], []⟩

/-- The tables can be used, and have advances. -/
example : Spec.Valid (tables 1) ∧ Spec.HasAdvances (tables 1) := by
  unfold Spec.Valid Spec.MetricsOk Spec.HasAdvances
  decide +kernel

/-- The metrics of `hhea`, and 700 as the weight; the font is italic. -/
example : ∃ f, init (tables 1) = .ok f ∧ f.dm.ascent = 750 ∧ f.dm.descent = 250 ∧ f.dm.lineGap = 90 ∧
    f.dm.xHeight = 480 ∧ f.dm.strikePosition = -350 ∧ f.dm.underlinePosition = 60 ∧
    f.dm.box = ⟨-100, -800, 900, 200⟩ ∧ f.weight = 700 ∧ f.style = 2 ∧ f.hasPanose = true ∧ f.baselineY0 = true ∧ f.short = true := by
  refine ⟨(init (tables 1)).toOption.getD {}, ?_⟩
  decide +kernel

/-- The metrics of `OS/2`, if the font asks for them. -/
example : ∃ f, init (tables 128) = .ok f ∧ f.dm.ascent = 700 ∧ f.dm.descent = 300 ∧ f.dm.lineGap = 100 ∧ f.style = 0 := by
  refine ⟨(init (tables 128)).toOption.getD {}, ?_⟩
  decide +kernel

/-- The advances: those of the records, the last one for the other glyphs. -/
example : (init (tables 1)).bind (glyphAdvances · [0, 1, 2, 70000]) =
    .ok [⟨0, 0, 500, 0⟩, ⟨0, 0, 600, 0⟩, ⟨0, 0, 600, 0⟩, ⟨0, 0, 600, 0⟩] := by decide +kernel

/-- Rejected: 15 units per em, no glyphs, and more records than `hmtx` has. -/
example : init { tables 1 with head := z 18 ++ w 15 ++ z 34 } = .error .invalidData ∧
    init { tables 1 with maxp := z 6 } = .error .invalidData ∧ init { tables 1 with maxp := [] } = .error .missingTable ∧
    init { tables 1 with hmtx := w 500 } = .error .invalidData := by decide +kernel

/-- An outline: only its box matters, from 20 to 480. -/
private def glyph : List UInt8 := w 0 ++ w 20 ++ w 0 ++ w 480 ++ w 700
/-- Four glyphs, the last one of which is too short. -/
private def outlines : Glyf.Font := ⟨glyph ++ glyph ++ w 0, w 0 ++ w 5 ++ w 10 ++ w 10 ++ w 11, true, 4⟩

/-- Letters are glyphs, and glyphs after the first one are moved closer. -/
private def layout : Layout :=
  ⟨List.map (· - 65), id, some fun _ ps => ps.mapIdx fun i p => if i = 0 then { p with ax := p.ax - 30 } else p⟩

private def font (T : Tables) (L : Layout) : Font := ⟨(init T).toOption.getD {}, outlines, L, 10⟩
private def text (s : List Nat) : Buf := ⟨s, true, false, none⟩

/-- The text `AB`: 470 + 600 units at a hundredth each, from 0.2 to 4.7 + 4.8. -/
example : (textMetrics (font (tables 1) layout) (text [65, 66])).map Prod.fst =
    .ok ⟨⟨107 / 10, 0⟩, ⟨1 / 5, 0⟩, ⟨6 / 5, 0⟩, 1 / 5, 0, 19 / 2, 0⟩ := by decide +kernel

/-- The hypotheses of `C57_text_partial` are met by that text. -/
example : init (tables 1) = .ok (font (tables 1) layout).face ∧
    (∀ k, layout.gpos = some k → ∀ gs ps, ps.length = gs.length → (k gs ps).length = gs.length) ∧
    Spec.shaped (tables 1) layout [65, 66] = ([0, 1], [⟨0, 0, 470, 0⟩, ⟨0, 0, 600, 0⟩]) ∧
    Spec.glyphBox outlines 0 = some ⟨20, -700, 480, 0⟩ ∧ Spec.glyphBox outlines 1 = some ⟨20, -700, 480, 0⟩ := by
  refine ⟨by decide +kernel, ?_, by decide +kernel, by decide +kernel, by decide +kernel⟩
  rintro k hk gs ps hl
  obtain rfl := Option.some.inj hk
  simpa using hl

/-- A text that ends with the glyph that is too short cannot be measured. -/
example : (textMetrics (font (tables 1) layout) (text [65, 68])).map Prod.fst = .error .invalidData := by decide +kernel

/-- **C57, counterexample.**  There is a font that is accepted, but has no advances: measuring a text reads
placements that nothing has written, because `bl_font_position_glyphs` does not check whether there are advances. -/
theorem C57_text_counterexample : ∃ T F b, init T = .ok F.face ∧ Spec.Valid T ∧ b.text = true ∧ b.positioned = false ∧
    F.layout.gpos = none ∧ textMetrics F b = .error .ub := by
  refine ⟨{ tables 1 with hmtx := [] }, font { tables 1 with hmtx := [] } { layout with gpos := none }, text [65, 66], ?_⟩
  unfold Spec.Valid Spec.MetricsOk
  refine ⟨by decide +kernel, by decide +kernel, rfl, rfl, rfl, by decide +kernel⟩

end Blend2D.FaceMetrics
