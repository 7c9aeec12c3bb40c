import Verif.Raster.Drive

/-! # A line drawn band by band -/

namespace Blend2D.Raster
open Spec

/-- A line is ready to draw scanline `k`, and its state says so. -/
structure Ready (p0 p1 : Pt) (k : Int) (s : St) : Prop where
  inv : Inv p0 p1 k s
  ey0 : s.ey0 = k
  ey1 : s.ey1 = (p1.y - 1) / 256
  lo : p0.y / 256 ≤ k
  hi : k ≤ (p1.y - 1) / 256

theorem HP.ey0 {p0 p1 : Pt} {k x e : Int} {s : St} (h : HP p0 p1 k s x) : HP p0 p1 k { s with ey0 := e } x :=
  ⟨h.con.congr rfl, h.fy0, h.fy1, h.lo, h.pos, h.xd, h.xe, h.yd⟩

theorem HInit.ey0 {p0 p1 : Pt} {e : Int} {s : St} (h : HInit p0 p1 s) : HInit p0 p1 { s with ey0 := e } :=
  ⟨h.con.congr rfl, h.ex0, h.fx0, h.fy0, h.fy1, h.xd, h.xe, h.yd⟩

theorem HI.ey0 {p0 p1 : Pt} {k e : Int} {s : St} (h : HI p0 p1 k s) : HI p0 p1 k { s with ey0 := e } := by
  rcases h with ⟨h1, h2, h3⟩ | ⟨h1, h2, x, h3, h4⟩
  · exact Or.inl ⟨h1, h2, h3.ey0⟩
  · exact Or.inr ⟨h1, h2, x, h3.ey0, h4⟩

theorem VI.ey0 {p0 p1 : Pt} {k e : Int} {s : St} (h : VI p0 p1 k s) : VI p0 p1 k { s with ey0 := e } :=
  ⟨⟨h.b.con.congr rfl, h.b.pos, h.b.f0, h.b.f1, h.b.fy0, h.b.yd⟩, h.xd, h.fy1, h.xe⟩

theorem VV.ey0 {p0 p1 : Pt} {k e : Int} {s : St} (h : VV p0 p1 k s) : VV p0 p1 k { s with ey0 := e } :=
  ⟨h.vs, h.col, h.one, h.ex0, h.fx0, h.fx1, h.ey1, h.saved, h.fy0, h.fy1⟩

theorem Inv.ey1 {p0 p1 : Pt} {k : Int} {s : St} (h : Inv p0 p1 k s) : s.ey1 = (p1.y - 1) / 256 := by
  rcases h with ⟨_, h⟩ | ⟨_, _, h⟩ | ⟨hl, _, h⟩
  · exact h.ey1
  · exact h.b.con.ey1
  · rcases h with ⟨_, _, h3⟩ | ⟨_, _, x, h3, _⟩
    · exact h3.con.ey1
    · exact h3.con.ey1

theorem HI.con {p0 p1 : Pt} {k : Int} {s : St} (h : HI p0 p1 k s) : Con p0 p1 s := by
  rcases h with ⟨_, _, h3⟩ | ⟨_, _, x, h3, _⟩
  · exact h3.con
  · exact h3.con

/-- The scanlines that `rasterize` draws end here. -/
def lastRow (p1 : Pt) : Option Int → Int
  | some b => min ((p1.y - 1) / 256) b
  | none => (p1.y - 1) / 256

theorem rasterize_spec {p0 p1 : Pt} {k : Int} {s : St} {band : Option Int} (neg : Bool) (hy : p0.y < p1.y)
    (hg : ¬ Glitch p0 p1) (h : Ready p0 p1 k s) (hb : ∀ b, band = some b → k ≤ b) :
    Out p0 p1 neg k (lastRow p1 band) (Ready p0 p1 (lastRow p1 band + 1)) (rasterize neg band s) := by
  obtain ⟨hinv, hk, hey1, hlo, hhi⟩ := h
  have r : Row p0 p1 k := ⟨hlo, hhi⟩
  obtain ⟨last, hlast⟩ : ∃ last, last = lastRow p1 band := ⟨_, rfl⟩
  have hl1 : k ≤ last := by
    rw [hlast]; unfold lastRow
    cases band with
    | none => exact hhi
    | some b => have := hb b rfl; simp only []; omega
  have hl2 : last ≤ (p1.y - 1) / 256 := by
    rw [hlast]; unfold lastRow
    cases band with
    | none => simp
    | some b => simp only []; omega
  have hm : lastOf s band = last := by
    rw [hlast]; unfold lastOf; rw [hey1]; rfl
  rw [← hlast]
  obtain ⟨w, hw⟩ : ∃ w : St, w = if band.isSome then { s with ey0 := s.ey0 + (((last - s.ey0).toNat : Int) + 1) } else s := ⟨_, rfl⟩
  have hwi : Inv p0 p1 k w := by
    rw [hw]
    split_ifs
    · rcases hinv with ⟨a, b⟩ | ⟨a, b, c⟩ | ⟨a, b, c⟩
      · exact Or.inl ⟨a, b.ey0⟩
      · exact Or.inr (Or.inl ⟨a, b, c.ey0⟩)
      · exact Or.inr (Or.inr ⟨a, b, c.ey0⟩)
    · exact hinv
  have hwb : band.isSome = true → w.ey0 = last + 1 := by
    intro hc
    rw [hw, if_pos hc]
    show s.ey0 + (((last - s.ey0).toNat : Int) + 1) = _
    omega
  have hwn : band.isSome = false → last = (p1.y - 1) / 256 := by
    intro hc
    cases band with
    | none => exact hlast
    | some b => simp at hc
  have hwe := hwi.ey1
  unfold rasterize
  simp only [hm]
  rw [← hw, hk]
  have mk : ∀ u : St, last < (p1.y - 1) / 256 → Inv p0 p1 (last + 1) u → u.ey0 = last + 1 → Ready p0 p1 (last + 1) u := by
    intro u q1 q2 q3
    exact ⟨q2, q3, q2.ey1, by omega, by omega⟩
  rcases hwi with ⟨a, b⟩ | ⟨a, b, c⟩ | ⟨a, b, c⟩
  · rw [if_pos a]
    obtain ⟨o1, o2, o3, o4⟩ := vert_spec (i := (last - k).toNat) neg band.isSome hy r b hl1 hl2 (by omega) hwb hwn
    exact ⟨o1, o2, o3, fun hc => mk _ hc (Or.inl ⟨(o4 hc).1.vs, (o4 hc).1⟩) (o4 hc).2⟩
  · have wc := c.b.con
    rw [if_neg (by rw [wc.vs]; simp), if_pos (by rw [wc.dy, wc.dx]; omega)]
    have hi : (((if band.isSome = true ∧ w.ey0 ≤ w.ey1 then (last - k).toNat + 1 else (last - k).toNat) : Nat) : Int) =
        last - k + if last < (p1.y - 1) / 256 then 1 else 0 := by
      cases hbs : band.isSome
      · have := hwn hbs
        rw [if_neg (by simp), if_neg (by omega)]; omega
      · have := hwb hbs
        by_cases cc : last < (p1.y - 1) / 256
        · rw [if_pos ⟨rfl, by omega⟩, if_pos cc]; omega
        · rw [if_neg (by intro hh; have := hh.2; omega), if_neg cc]; omega
    rw [wc.rtl]
    by_cases hx : p0.x ≤ p1.x
    · rw [if_neg (by simpa using hx)]
      obtain ⟨o1, o2, o3, o4⟩ := vertLtr_spec neg band.isSome a b hg hx r c hl1 hl2 hi hwb hwn
      exact ⟨o1, o2, o3, fun hc => mk _ hc (Or.inr (Or.inl ⟨a, b, (o4 hc).1⟩)) (o4 hc).2.1⟩
    · rw [if_pos (by simpa using hx)]
      obtain ⟨o1, o2, o3, o4⟩ := vertRtl_spec neg band.isSome a b hg hx r c hl1 hl2 hi hwb hwn
      exact ⟨o1, o2, o3, fun hc => mk _ hc (Or.inr (Or.inl ⟨a, b, (o4 hc).1⟩)) (o4 hc).2.1⟩
  · have wc := c.con
    rw [if_neg (by rw [wc.vs]; simp), if_neg (by rw [wc.dy, wc.dx]; omega), wc.rtl]
    by_cases hx : p0.x ≤ p1.x
    · rw [if_neg (by simpa using hx)]
      obtain ⟨o1, o2, o3, o4⟩ := horzLtr_spec (i := (last - k).toNat) neg band.isSome a b hx r c hl1 hl2 (by omega) hwb hwn
      exact ⟨o1, o2, o3, fun hc => mk _ hc (Or.inr (Or.inr ⟨a, b, (o4 hc).1⟩)) (o4 hc).2⟩
    · rw [if_pos (by simpa using hx)]
      obtain ⟨o1, o2, o3, o4⟩ := horzRtl_spec (i := (last - k).toNat) neg band.isSome a b hx r c hl1 hl2 (by omega) hwb hwn
      exact ⟨o1, o2, o3, fun hc => mk _ hc (Or.inr (Or.inr ⟨a, b, (o4 hc).1⟩)) (o4 hc).2⟩

theorem advance_spec {p0 p1 : Pt} {k t : Int} {s : St} (h : Ready p0 p1 k s) (ht : t ≤ (p1.y - 1) / 256) :
    Ready p0 p1 (max k t) (advanceToY s t) := by
  obtain ⟨hinv, hk, hey1, hlo, hhi⟩ := h
  by_cases c : t ≤ k
  · have : advanceToY s t = s := by
      unfold advanceToY
      rw [if_pos (by omega)]
    rw [this, show max k t = k by omega]
    exact ⟨hinv, hk, hey1, hlo, hhi⟩
  · rw [show max k t = t by omega]
    have r : Row p0 p1 k := ⟨hlo, hhi⟩
    have hinv' : Inv p0 p1 t (advanceToY s t) := by
      rcases hinv with ⟨a, b⟩ | ⟨a, b, d⟩ | ⟨a, b, d⟩
      · have := advance_vert r b hk (by omega) ht
        exact Or.inl ⟨this.vs, this⟩
      · exact Or.inr (Or.inl ⟨a, b, advance_steep a b r d hk (by omega) ht⟩)
      · exact Or.inr (Or.inr ⟨a, b, advance_flat a b d hk (by omega) ht⟩)
    refine ⟨hinv', ?_, hinv'.ey1, by omega, ht⟩
    unfold advanceToY
    rw [if_neg (by omega)]

theorem prepare_ready {p0 p1 : Pt} {s : St} (hy : p0.y < p1.y) (h : prepare p0 p1 = some s) :
    Ready p0 p1 (p0.y / 256) s := by
  obtain ⟨h1, h2, h3⟩ := prepare_inv hy h
  exact ⟨h1, h2, h3, by omega, by omega⟩

end Blend2D.Raster
