import Verif.Glyf.Props
/-! # C56: fonts that meet the hypotheses, and fonts that are not decoded as they should be -/
namespace Blend2D.Glyf
open Blend2D.Kern (u8 u16 u32 i16)
open Spec (Flags Deltas Describes Draws Components be16)

/-- The matrix that changes nothing. -/
def idm : Mat := ⟨1, 0, 0, 1, 0, 0⟩

/-- A triangle. -/
def tri (on : Bool) : List Spec.Point := [⟨0, 8, on⟩, ⟨8, 8, on⟩, ⟨8, 0, on⟩]

/-- Its bytes. -/
def triBytes (b : Nat) : List UInt8 :=
  be16 1 ++ [0, 0, 0, 0, 0, 0, 0, 0] ++ Spec.ends 0 [tri true] ++ be16 0 ++ [] ++
    [UInt8.ofNat (0x34 + b), UInt8.ofNat (0x32 + b), UInt8.ofNat (0x14 + b)] ++ [8] ++ [8, 8] ++ []

theorem tri_on : Describes (triBytes 1) [tri true] := by
  refine ⟨[0, 0, 0, 0, 0, 0, 0, 0], [], [0x35, 0x33, 0x15], [8], [8, 8], [], [0x35, 0x33, 0x15], [0, 8, 0], [8, 0, -8],
    by decide +kernel, rfl, by decide, by decide, by decide, by simp [tri], ?_, ?_, ?_, by decide +kernel⟩
  · exact .one (by decide) (.one (by decide) (.one (by decide) .nil))
  · exact .none (by decide) (by decide) (.byte (b := 8) (f := 0x33) (by decide) (.none (by decide) (by decide) .nil))
  · exact .byte (b := 8) (f := 0x35) (by decide) (.none (by decide) (by decide) (.byte (b := 8) (f := 0x15) (by decide) .nil))

theorem tri_off : Describes (triBytes 0) [tri false] := by
  refine ⟨[0, 0, 0, 0, 0, 0, 0, 0], [], [0x34, 0x32, 0x14], [8], [8, 8], [], [0x34, 0x32, 0x14], [0, 8, 0], [8, 0, -8],
    by decide +kernel, rfl, by decide, by decide, by decide, by simp [tri], ?_, ?_, ?_, by decide +kernel⟩
  · exact .one (by decide) (.one (by decide) (.one (by decide) .nil))
  · exact .none (by decide) (by decide) (.byte (b := 8) (f := 0x32) (by decide) (.none (by decide) (by decide) .nil))
  · exact .byte (b := 8) (f := 0x34) (by decide) (.none (by decide) (by decide) (.byte (b := 8) (f := 0x14) (by decide) .nil))

/-- A compound glyph: the triangle moved by (100, -5), and with half its size at (3, -2). -/
def twoBytes : List UInt8 :=
  be16 65535 ++ [0, 0, 0, 0, 0, 0, 0, 0] ++
    ((be16 0x23 ++ be16 0 ++ (be16 100 ++ be16 65531) ++ []) ++ ((be16 0x0A ++ be16 0 ++ [3, 0xFE] ++ be16 0x2000) ++ []))

/-- A font with the triangle, the compound glyph and an empty glyph. -/
def font : Font := { glyf := triBytes 1 ++ twoBytes, loca := [0, 0, 0, 10, 0, 23, 0, 23], short := true, count := 3 }

/-- The matrices of the two components. -/
def comps : List Spec.Comp := [⟨0, 100, -5, 1, 0, 0, 1, false⟩, ⟨0, 3, -2, 1 / 2, 0, 0, 1 / 2, false⟩]

theorem font_draws (mag : Rat → Rat → Rat) : Draws font mag 15 [(idm, 1)]
    ((Spec.outline ⟨1, 0, 0, 1, 100, -5⟩ [tri true] ++ (Spec.outline ⟨1 / 2, 0, 0, 1 / 2, 3, -2⟩ [tri true] ++ [])) ++ [])
    ((1 + (1 + 0)) + 0) := by
  have htri : ∀ c ∈ [tri true], Spec.Closed c := by
    intro c hc a q qs h
    rw [List.mem_singleton.1 hc] at h
    injection h with h1 h2
    exact .inl (by rw [← h1])
  have hb0 : Spec.bytes font 0 = some (triBytes 1) := by decide +kernel
  refine .compound (d := twoBytes) (ks := comps) (by decide) (by decide +kernel) rfl rfl ?_ ?_ .nil
  · refine .cons ⟨0x23, be16 100 ++ be16 65531, [], rfl, by decide, by decide, by decide, by decide, ?_, ?_, by decide⟩
      (.last ⟨0x0A, [3, 0xFE], be16 0x2000, rfl, by decide, by decide, by decide, by decide, ?_, ?_, by decide⟩)
    · exact ⟨100, 65531, by decide, by decide, rfl, by decide, by decide⟩
    · exact ⟨rfl, rfl⟩
    · exact ⟨3, 0xFE, rfl, by decide, by decide⟩
    · exact ⟨0x2000, by decide, rfl, by decide +kernel⟩
  · have hm : comps.map (fun c => (Spec.after (c.mat mag) idm, c.gid)) =
        [(⟨1, 0, 0, 1, 100, -5⟩, 0), (⟨1 / 2, 0, 0, 1 / 2, 3, -2⟩, 0)] := by
      simp [comps, Spec.Comp.mat, Spec.after, idm]
    rw [hm]
    exact .simple (by decide) hb0 tri_on htri (by decide) (by decide)
      (.simple (by decide) hb0 tri_on htri (by decide) (by decide) .nil)

/-- The hypotheses of `C56_outline_partial` are met, and the outline is not trivial. -/
example (mag : Rat → Rat → Rat) : ∃ N, ∀ fuel, N ≤ fuel → outlines font idm mag fuel 1 = some (.ok
    ([.move ⟨100, 3⟩, .on ⟨108, 3⟩, .on ⟨108, -5⟩, .close, .move ⟨3, 2⟩, .on ⟨7, 2⟩, .on ⟨7, -2⟩, .close], 2)) := by
  have h := C56_outline_partial font idm mag 1 _ _ (font_draws mag)
  have hp : (Spec.outline ⟨1, 0, 0, 1, 100, -5⟩ [tri true] ++
      (Spec.outline ⟨1 / 2, 0, 0, 1 / 2, 3, -2⟩ [tri true] ++ [])) ++ [] =
      [.move ⟨100, 3⟩, .on ⟨108, 3⟩, .on ⟨108, -5⟩, .close, .move ⟨3, 2⟩, .on ⟨7, 2⟩, .on ⟨7, -2⟩, .close] := by
    decide +kernel
  rw [hp] at h
  exact h

/-- The hypothesis of `C56_outline_safe_partial` is met. -/
example : ∀ gid d, Spec.bytes font gid = some d → Spec.FewPoints d := by
  intro gid d h
  have h3 : gid < 3 := by
    refine Classical.byContradiction fun hn => ?_
    have he : Spec.entry font (gid + 1) = none := by
      unfold Spec.entry
      rw [if_pos (show font.short = true from rfl), Spec.field, if_neg (by show ¬ (gid + 1) * 2 + 2 ≤ 8; omega)]
      rfl
    unfold Spec.bytes at h
    rw [he] at h
    cases Spec.entry font gid <;> simp at h
  have hcase : gid = 0 ∨ gid = 1 ∨ gid = 2 := by omega
  intro n e hn hp he
  rcases hcase with rfl | rfl | rfl
  · have hd : Spec.bytes font 0 = some (triBytes 1) := by decide +kernel
    rw [hd] at h
    cases h
    have : Spec.field (triBytes 1) 0 2 = some 1 := by decide +kernel
    rw [this] at hn
    cases hn
    have : Spec.field (triBytes 1) (10 + (1 - 1) * 2) 2 = some 2 := by decide +kernel
    rw [this] at he
    cases he
    decide
  · have hd : Spec.bytes font 1 = some twoBytes := by decide +kernel
    rw [hd] at h
    cases h
    have : Spec.field twoBytes 0 2 = some 65535 := by decide +kernel
    rw [this] at hn
    cases hn
    exact absurd hp (by decide)
  · have hd : Spec.bytes font 2 = some [] := by decide +kernel
    rw [hd] at h
    cases h
    have : Spec.field [] 0 2 = none := by decide +kernel
    rw [this] at hn
    cases hn

/-- The bounds of the glyphs of a font. -/
example : glyphBounds { font with glyf := be16 1 ++ be16 65530 ++ be16 2 ++ be16 30 ++ be16 40 ++ font.glyf.drop 10 } [0, 2, 7] =
    .ok ([⟨-6, -40, 30, -2⟩, ⟨0, 0, 0, 0⟩, ⟨0, 0, 0, 0⟩], false) := by decide +kernel

/-- The font whose triangle has all its points off the curve. -/
def offFont : Font := { glyf := triBytes 0, loca := [0, 0, 0, 10], short := true, count := 1 }

/-- **Counterexample.**  A contour that starts and ends off the curve is not decoded to its figure: the last curve
does not end where the figure starts, but in the middle of that point and the first point of the contour. -/
theorem C56_start_counterexample : Spec.bytes offFont 0 = some (triBytes 0) ∧ Describes (triBytes 0) [tri false] ∧
    Spec.outline idm [tri false] =
      [.move ⟨4, 8⟩, .quad ⟨8, 8⟩, .on ⟨8, 4⟩, .quad ⟨8, 0⟩, .on ⟨4, 4⟩, .quad ⟨0, 8⟩, .on ⟨4, 8⟩, .close] ∧
    outlines offFont idm (fun _ _ => 0) 1 0 = some (.ok
      ([.move ⟨4, 8⟩, .quad ⟨8, 8⟩, .on ⟨8, 4⟩, .quad ⟨8, 0⟩, .on ⟨4, 4⟩, .quad ⟨0, 8⟩, .on ⟨2, 8⟩, .close], 1)) :=
  ⟨by decide +kernel, tri_off, by decide +kernel, by decide +kernel⟩

/-- **Counterexample.**  A glyph whose contours do not end in ascending order is an error that leaves vertices in
the path that were never written. -/
theorem C56_garbage_counterexample :
    outlines { glyf := be16 2 ++ [0, 0, 0, 0, 0, 0, 0, 0] ++ be16 2 ++ be16 2 ++ be16 0 ++ [0x35, 0x33, 0x15, 8, 8, 8],
               loca := [0, 0, 0, 11], short := true, count := 1 } idm (fun _ _ => 0) 1 0 =
      some (.error .invalidContour) := by decide +kernel

/-! ## A glyph with 32768 points -/

/-- Groups of 256 equal flags: on the curve, x in two bytes, y without any. -/
def groups : Nat → List UInt8
  | 0 => []
  | n + 1 => 0x29 :: 255 :: groups n

@[inherit_doc groups] def groupFlags : Nat → List Nat
  | 0 => []
  | n + 1 => List.replicate 256 0x29 ++ groupFlags n

theorem groups_flags (n : Nat) : Flags (groups n) (groupFlags n) := by
  induction n with
  | zero => exact .nil
  | succ n ih => exact .rep (b := 0x29) (n := 255) (by decide) ih

theorem groupFlags_length (n : Nat) : (groupFlags n).length = 256 * n := by
  induction n with
  | zero => rfl
  | succ n ih => rw [groupFlags, List.length_append, List.length_replicate, ih]; omega

theorem groupFlags_eq (n : Nat) : ∀ f ∈ groupFlags n, f = 0x29 := by
  induction n with
  | zero => intro f hf; simp [groupFlags] at hf
  | succ n ih =>
    intro f hf
    rcases List.mem_append.1 hf with hf | hf
    · exact List.eq_of_mem_replicate hf
    · exact ih f hf

theorem marks_sums (l : List Nat) (h : ∀ f ∈ l, f = 0x29) (p : Nat) (hp : p < 2) :
    wsum xsz (marks p l) = 2 * l.length ∧ wsum ysz (marks p l) = 0 := by
  induction l generalizing p with
  | nil => exact ⟨rfl, rfl⟩
  | cons f l ih =>
    have hf := h f (by simp)
    subst hf
    obtain ⟨h1, h2⟩ := ih (fun f hf => h f (by simp [hf])) (0x29 % 2) (by decide)
    have hx : ∀ p < 2, xsz (0x29 % 64 + 128 * p) = 2 ∧ ysz (0x29 % 64 + 128 * p) = 0 := by decide
    obtain ⟨hx, hy⟩ := hx p hp
    simp only [marks, wsum, List.map_cons, List.sum_cons, List.length_cons] at h1 h2 ⊢
    rw [hx, hy, h1, h2]
    exact ⟨by omega, rfl⟩

/-- The font: 256 bytes of flags, and a single byte of coordinates. -/
def bigFont : Font :=
  { glyf := be16 1 ++ [0, 0, 0, 0, 0, 0, 0, 0] ++ be16 32767 ++ be16 0 ++ groups 128 ++ [0],
    loca := [0, 0, 0, 0, 0, 0, 1, 15], short := false, count := 1 }

theorem big_simple (m : Mat) (g : List UInt8) (hlast : u16 g 10 = some 32767) (hcode : u16 g 12 = some 0)
    (hdrop : g.drop 14 = groups 128 ++ [0]) (hlen : g.length = 271) (hread : i16 g 270 = none) :
    simple g m 0 271 1 = .error .ub := by
  have hfl : (groups 128).length = 256 := by decide +kernel
  have hn := groupFlags_length 128
  unfold simple
  rw [if_neg (by decide), show 0 + 10 + 1 * 2 = 12 from rfl, hcode]
  show simpleBody g m 10 1 14 271 = _
  unfold simpleBody
  show (get (u16 g 10) >>= _) = _
  rw [hlast]
  obtain ⟨s, hs, ⟨hi, hl⟩, hsp, hsf⟩ := (flagLoop_inv (g := g) (gEnd := 271) (tt := 32768) (by omega) 32768
    { p := 14, fs := [], f := 1, xy := 0, offc := 0 }
    ⟨by decide, by decide, by simp, by simp [wsum], by simp [wsum]⟩ (by simp) (by simp)).fn
    (flagLoop_fn (groups_flags 128) [0] 32768 _ (by intro he; rw [he] at hn; simp at hn) hdrop (by rw [hfl]; decide)
      (by rw [hn]; rfl))
  obtain ⟨hx, hy⟩ := marks_sums _ (groupFlags_eq 128) 1 (by decide)
  have hsf' : s.fs = marks 1 (groupFlags 128) := hsf
  have hxy := hi.xy
  rw [hsf', hx, hy, hn] at hxy
  have hp : s.p = 270 := by rw [hsp, hfl]
  show (flagLoop g 271 32768 32768 _ >>= _) = _
  rw [hs]
  show (if s.xy % 65536 + s.xy / 65536 > 271 - s.p then _ else _) = _
  rw [hxy, hp, if_neg (by decide)]
  have hf0 : s.fs[0]? = some (0x29 % 64 + 128 * 1) := by
    rw [hsf']; rfl
  have hc : ∀ cap v, v.i = 0 → v.xp = 270 →
      contour { glyf := g, fs := s.fs, tt := 32768, cap := cap, m := m } 32768 v = .error .ub := by
    intro cap v h0 h1
    unfold contour fetch
    rw [if_neg (by rw [h0]; show ¬ (32768 ≤ 0 ∨ 32768 > 32768); decide), h0, hf0, h1]
    show (coord g 270 false false >>= _ >>= _) = _
    rw [coord, if_neg (by decide), if_neg (by decide), hread]
    rfl
  show (contours _ 10 1 _ >>= _) = _
  rw [contours]
  show ((get (u16 g 10) >>= _) >>= _) = _
  rw [hlast]
  show ((contour _ 32768 _ >>= _) >>= _) = _
  rw [hc _ _ rfl rfl]
  rfl

theorem big_round {F : Font} {root : Mat} {mag : Rat → Rat → Rat} {s : St} (ho : offsets F s.gid = .ok (0, 271))
    (hn : i16 F.glyf 0 = some 1) (hlen : F.glyf.length = 271)
    (hs : simple F.glyf (top root s.stack) 0 271 1 = .error .ub) : round F root mag s = .error .ub := by
  unfold round
  rw [ho]
  show (if 0 ≥ 271 ∨ 271 > F.glyf.length then _ else if 271 - 0 < 10 then _ else _) = _
  rw [if_neg (by rw [hlen]; decide), if_neg (by decide), hn]
  show (simple F.glyf (top root s.stack) 0 271 1 >>= _) = _
  rw [hs]
  rfl

/-- **Counterexample.**  A glyph with 32768 points whose x coordinates need 65536 bytes: their size is kept in 16
bits, so that a table which does not contain them is accepted, and the coordinates are read outside of it. -/
theorem C56_points_counterexample (root : Mat) (mag : Rat → Rat → Rat) (fuel : Nat) :
    outlines bigFont root mag (fuel + 1) 0 = some (.error .ub) := by
  have hsimple : simple bigFont.glyf root 0 271 1 = .error .ub :=
    big_simple root _ (by decide +kernel) (by decide +kernel) (by decide +kernel) (by decide +kernel) (by decide +kernel)
  have ho : offsets bigFont 0 = .ok (0, 271) := by decide +kernel
  have hn : i16 bigFont.glyf 0 = some 1 := by decide +kernel
  have hlen : bigFont.glyf.length = 271 := by decide +kernel
  rw [outlines, if_neg (by decide), loop, big_round (s := ⟨0, [], [], 0⟩) ho hn hlen hsimple]
  rfl

end Blend2D.Glyf
