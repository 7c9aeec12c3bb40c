import Verif.Glyf.Compound
/-! # C56: what a TrueType font says about a glyph -/
namespace Blend2D.Glyf
open Blend2D.Kern (u8 u16 u32 i16)

theorem boxAt_spec {g : List UInt8} {a n : Nat} (h : a + n ≤ g.length) (hn : 10 ≤ n) :
    (boxAt g a).map some = .ok (Spec.box ((g.drop a).take n)) := by
  have hl : ((g.drop a).take n).length = n := by simp; omega
  have hne : (g.drop a).take n ≠ [] := by
    intro he; rw [he] at hl; simp at hl; omega
  obtain ⟨x0, h0, -⟩ := Kern.u16_some (d := g) (i := a + 2) (by omega)
  obtain ⟨x1, h1, -⟩ := Kern.u16_some (d := g) (i := a + 4) (by omega)
  obtain ⟨x2, h2, -⟩ := Kern.u16_some (d := g) (i := a + 6) (by omega)
  obtain ⟨x3, h3, -⟩ := Kern.u16_some (d := g) (i := a + 8) (by omega)
  unfold boxAt Spec.box
  rw [if_neg hne, if_neg (by omega)]
  simp only [i16, h0, h1, h2, h3]
  rw [field_slice (v := x0) (by rw [field2]; exact h0) (by omega) h,
    field_slice (v := x1) (by rw [field2]; exact h1) (by omega) h,
    field_slice (v := x2) (by rw [field2]; exact h2) (by omega) h,
    field_slice (v := x3) (by rw [field2]; exact h3) (by omega) h]
  rfl

theorem bounds_spec (F : Font) (gid : Nat) :
    bounds F gid = .ok ((Spec.bytes F (gid % 65536)).bind Spec.box) := by
  unfold bounds
  rw [offsets_spec]
  unfold Spec.bytes
  cases Spec.entry F (gid % 65536) with
  | none => rfl
  | some a =>
    cases Spec.entry F (gid % 65536 + 1) with
    | none => rfl
    | some b =>
      simp only
      split
      · rename_i hb
        simp only [Option.bind_some]
        split
        · rename_i hab
          have hl : ((F.glyf.drop a).take (b - a)).length = b - a := by simp; omega
          split
          · rename_i ht
            rw [Spec.box, if_neg, if_pos (by omega)]
            intro he; rw [he] at hl; simp at hl; omega
          · exact boxAt_spec (by omega) (by omega)
        · rename_i hab
          rw [show b - a = 0 by omega, List.take_zero]
          rfl
      · rfl

/-- **C56, bounds.**  Whatever the bytes of the tables: asking for the bounds of glyphs reads only inside of the
tables, gives every glyph the box that is in its data, an empty box to empty glyphs and to those whose data is
not there or too short, and reports success if there is none of the latter. -/
theorem C56_bounds (F : Font) (gids : List Nat) :
    glyphBounds F gids =
      .ok (gids.map (fun gid => ((Spec.bytes F (gid % 65536)).bind Spec.box).getD ⟨0, 0, 0, 0⟩),
        gids.all (fun gid => ((Spec.bytes F (gid % 65536)).bind Spec.box).isSome)) := by
  induction gids with
  | nil => rfl
  | cons g gs ih =>
    rw [glyphBounds, bounds_spec, ih]
    show Except.ok _ = Except.ok _
    rw [List.map_cons, List.all_cons, Bool.and_comm]

/-- **C56, safety.**  Whatever the bytes of the tables and the glyph that is asked for: decoding the outline of a
glyph ends, reads only inside of the tables and of the array of flags, and writes only to memory that was
reserved in the path.  Partial: the glyphs of the font must have at most 32767 points, see
`C56_points_counterexample`. -/
theorem C56_outline_safe_partial (F : Font) (hF : ∀ gid d, Spec.bytes F gid = some d → Spec.FewPoints d)
    (root : Mat) (mag : Rat → Rat → Rat) (gid fuel : Nat) (hf : (F.glyf.length + 1) ^ 16 < fuel) :
    ∃ r, outlines F root mag fuel gid = some r ∧ r ≠ .error .ub := by
  unfold outlines
  split
  · exact ⟨_, rfl, fun h => Err.noConfusion (Except.error.inj h)⟩
  · obtain ⟨r, h1, h2⟩ := loop_ok (root := root) (mag := mag) hF fuel ⟨gid, [], [], 0⟩ (fun e he => by simp at he)
      (by simp) (by simpa [work, phi] using hf)
    rw [h1]
    refine ⟨_, rfl, ?_⟩
    cases r with
    | ok s => exact fun h => nomatch h
    | error e => exact fun h => h2 (Except.error.inj h)

/-- **C56, missing glyphs.**  A glyph that the font doesn't have is an error, and nothing is drawn. -/
theorem C56_outline_missing (F : Font) (root : Mat) (mag : Rat → Rat → Rat) (gid fuel : Nat) (h : F.count ≤ gid) :
    outlines F root mag fuel gid = some (.error .invalidGlyph) := if_pos h

/-- **C56, outlines.**  The outline of a glyph is what its data describes: the figures of the contours of a simple
glyph under the matrix that was passed, and those of the components of a compound glyph, one behind the other,
each under its own matrix and then that of the compound glyph, for compound glyphs that are nested to at most 15
levels; and the number of contours is that of all simple glyphs.  Partial: see the restrictions of
`Spec.Draws.simple` and `C56_start_counterexample`, `C56_points_counterexample`. -/
theorem C56_outline_partial (F : Font) (root : Mat) (mag : Rat → Rat → Rat) (gid : Nat) (p : List Vtx) (k : Nat)
    (h : Spec.Draws F mag 15 [(root, gid)] p k) :
    ∃ N, ∀ fuel, N ≤ fuel → outlines F root mag fuel gid = some (.ok (p, k)) :=
  outlines_draws h

end Blend2D.Glyf
