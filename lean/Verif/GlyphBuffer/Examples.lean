import Verif.GlyphBuffer.Props
/-! C55: where the code departs from the property, and concrete cases of the theorems. -/
namespace Blend2D.GlyphBuffer
open Blend2D.Unicode (Enc)
open Blend2D.Unicode.Spec (text Encodable)

/-- A font: glyph = code point + 1, every glyph advances by ten times its id, kerning moves a glyph back by
its index. -/
def demoFace : Face := ⟨fun c => c + 1, fun g => 10 * (g.toNat : Int), fun _ ps i => { ps.getD i ⟨0, 0, 0, 0⟩ with px := -(i : Int) }⟩

/-- The text "é" in UTF-8, followed by a byte that cannot be decoded. -/
def demoText : List UInt8 := [0xC3, 0xA9, 0xFF]

theorem reachable_create : Reachable create := ⟨[], by simp, by simp, rfl⟩

/-- Text that is not valid sets the flag for that, but the flag is cleared again: the buffer holds U+FFFD and
`has_invalid_chars()` says no. -/
theorem C55_invalid_text_counterexample :
    ∃ d, call create (.setText 1 [0xFF] (some 1) (some 0)) = some (.success, d) ∧
      Spec.items d = [(0xFFFD, 0)] ∧ d.flags.invalid = false := by
  refine ⟨((call create (.setText 1 [0xFF] (some 1) (some 0))).get (by decide +kernel)).2, ?_, ?_, ?_⟩ <;> decide +kernel

/-- `set_glyphs` steps by two bytes through an array of four-byte glyph ids: the ids 1 and 2 are held as 1 and
0x20000. -/
theorem C55_set_glyphs_counterexample :
    ∃ d, call create (.setGlyphs [1, 0, 0, 0, 2, 0, 0, 0] 0 2 (some 0)) = some (.success, d) ∧
      Spec.items d = [(1, 0), (0x20000, 1)] := by
  refine ⟨((call create (.setGlyphs [1, 0, 0, 0, 2, 0, 0, 0] 0 2 (some 0))).get (by decide +kernel)).2, ?_, ?_⟩ <;>
    decide +kernel

/-- One glyph is positioned, then 300 glyphs are stored. -/
def staleOps : List Op :=
  [.fromStruct [1, 0] 0 1 2 0 (some 0), .position demoFace false (some 0), .fromStruct [1, 0] 0 300 2 0 (some 0)]

theorem staleOps_given : (∀ o ∈ staleOps, o.Given) ∧ ∀ o ∈ staleOps, o.NoKerning := by
  constructor
  · intro o ho
    simp only [staleOps, List.mem_cons, List.not_mem_nil, or_false] at ho
    rcases ho with rfl | rfl | rfl
    · intro i _; simp
    · trivial
    · intro i _; simp
  · intro o ho
    simp only [staleOps, List.mem_cons, List.not_mem_nil, or_false] at ho
    rcases ho with rfl | rfl | rfl <;> trivial

/-- Storing glyphs does not forget the placements of the glyphs before: the glyph run then says that it has
placements, but there is memory for 256 of them and there are 300 glyphs.  Drawing the run reads outside. -/
theorem C55_placement_counterexample :
    ∃ d, Reachable d ∧ d.size = 300 ∧ d.placed = true ∧ d.offsets = true ∧ d.second.length = 256 ∧ ¬ Spec.Placed d := by
  have h : (run create staleOps).map (fun d => (d.size, d.placed, d.offsets, d.second.length)) =
      some (300, true, true, 256) := by decide +kernel
  obtain ⟨d, h1, h2⟩ := Option.map_eq_some_iff.1 h
  simp only [Prod.mk.injEq] at h2
  obtain ⟨e1, e2, e3, e4⟩ := h2
  refine ⟨d, ⟨staleOps, staleOps_given.1, staleOps_given.2, h1⟩, e1, e2, e3, e4, ?_⟩
  intro hp
  have := hp e2
  omega

/-- `apply_kerning` after that writes outside the placements. -/
theorem C55_kerning_counterexample : run create (staleOps ++ [.applyKerning demoFace]) = none := by
  decide +kernel

/-! Concrete cases. -/

/-- `C55_text_partial`, `C55_history_partial`: the demo text, as a history. -/
example : (call create (.setText 1 demoText (some 3) (some 7))).map (fun p => (p.1, Spec.items p.2)) =
    some (.success, [(0xE9, 0), (0xFFFD, 2)]) := by decide +kernel

example : ∀ o ∈ [Op.setText 1 demoText (some 3) (some 7)], o.Given := by
  intro o ho
  obtain rfl := List.mem_singleton.1 ho
  intro e he
  obtain rfl := Option.some.inj he
  exact ⟨3, rfl, by decide⟩

/-- `C55_well_formed`: a character outside the basic plane takes two units of UTF-16. -/
example : ∃ d', call create (.setText 2 (text .utf16 [0x41, 0x1F600, 0x42]) (some 4) (some 0)) = some (.success, d') ∧
    d'.size = 3 ∧ Spec.items d' = [(0x41, 0), (0x1F600, 1), (0x42, 3)] := by
  obtain ⟨d', h1, h2, h3⟩ := C55_well_formed create reachable_create 2 .utf16 rfl [0x41, 0x1F600, 0x42]
    (by intro c hc; simp only [List.mem_cons, List.not_mem_nil, or_false] at hc
        rcases hc with rfl | rfl | rfl <;> (show Unicode.Spec.Scalar _) <;> decide) 4 (by decide) 0 (by decide)
  exact ⟨d', h1, h2, by rw [h3]; decide +kernel⟩

/-- `C55_terminated`: UTF-16 text with a terminator, and with more behind it. -/
example : setText create .utf16 [0x00, 0x01, 0x42, 0x00, 0x00, 0x00, 0x43, 0x00] none (some 0) =
    setText create .utf16 [0x00, 0x01, 0x42, 0x00, 0x00, 0x00, 0x43, 0x00] (some 2) (some 0) :=
  C55_terminated .utf16 _ 2 (by decide) (by decide) (by
    intro i hi
    have : i = 0 ∨ i = 1 := by omega
    rcases this with rfl | rfl
    · exact ⟨1, by decide, by decide⟩
    · exact ⟨0x42, by decide, by decide⟩) create (some 0)

/-- `C55_glyphs_from_struct`: backwards through an array of two-byte ids. -/
example : (call create (.fromStruct [5, 0, 6, 0, 7, 1] 4 3 2 (-2) (some 0))).map (fun p => Spec.items p.2) =
    some [(263, 0), (6, 1), (5, 2)] := by decide +kernel

/-- `C55_map`, `C55_position`, `C55_shape`: the demo text is shaped with kerning. -/
example : (run create [.setText 1 demoText (some 3) (some 7), .shape demoFace true (some 3)]).map
    (fun d => (Spec.items d, Spec.placements d)) =
    some ([(0xEA, 0), (0xFFFE, 2)], [⟨0, 0, 2340, 0⟩, ⟨-1, 0, 655340, 0⟩]) := by decide +kernel

end Blend2D.GlyphBuffer
