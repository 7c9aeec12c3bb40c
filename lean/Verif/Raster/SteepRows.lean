import Verif.Raster.Steep

/-! # Steep lines: one scanline -/

namespace Blend2D.Raster
open Spec

/-- The writes `log` are those of scanlines `a` to `b - 1` of the edge. -/
def Draws (p0 p1 : Pt) (neg : Bool) (a b : Int) (log : List Ev) : Prop :=
  ∀ y x, acc y x log = if a ≤ y ∧ y < b then sgn neg * cover p0 p1 y x else 0

theorem Draws.append {p0 p1 : Pt} {neg : Bool} {a b c : Int} {l m : List Ev} (h : Draws p0 p1 neg a b l)
    (h' : Draws p0 p1 neg b c m) (hab : a ≤ b) (hbc : b ≤ c) : Draws p0 p1 neg a c (l ++ m) := by
  intro y x
  rw [acc_append, h y x, h' y x]
  by_cases c1 : a ≤ y ∧ y < b
  · rw [if_pos c1, if_neg (by omega), if_pos (by omega)]; omega
  · by_cases c2 : b ≤ y ∧ y < c
    · rw [if_neg c1, if_pos c2, if_pos (by omega)]; omega
    · rw [if_neg c1, if_neg c2, if_neg (by omega)]; omega

theorem Draws.of_acc {p0 p1 : Pt} {neg : Bool} {a b : Int} {l m : List Ev} (h : Draws p0 p1 neg a b l)
    (e : ∀ y x, acc y x m = acc y x l) : Draws p0 p1 neg a b m := fun y x => (e y x).trans (h y x)

theorem Draws.empty (p0 p1 : Pt) (neg : Bool) (a : Int) : Draws p0 p1 neg a a [] := by
  intro y x
  rw [if_neg (by omega)]
  rfl

/-- One row: enough to look at it. -/
theorem Draws.row {p0 p1 : Pt} {neg : Bool} {k : Int} {l : List Ev}
    (h : ∀ y x, acc y x l = if k = y then sgn neg * cover p0 p1 k x else 0) : Draws p0 p1 neg k (k + 1) l := by
  intro y x
  rw [h y x]
  by_cases c : k = y
  · subst c
    rw [if_pos rfl, if_pos (by omega)]
  · rw [if_neg c, if_neg (by omega)]

/-- Where the writes are: marks between the groups of `lo` and `hi`, cells between `lo` and `hi + 1`, and every cell that
is written is in a marked group or right after one. -/
structure Tidy (lo hi : Int) (log : List Ev) : Prop where
  marks : ∀ y a b, Ev.mark y a b ∈ log → lo / 4 ≤ a ∧ a ≤ b ∧ b ≤ hi / 4
  cells : ∀ y x v, Ev.cell y x v ∈ log → lo ≤ x ∧ x ≤ hi + 1
  covered : ∀ y x v, Ev.cell y x v ∈ log → marked y (x / 4) log ∨ (x % 4 = 0 ∧ marked y (x / 4 - 1) log)

theorem marked_append_left {y g : Int} {l : List Ev} (m : List Ev) (h : marked y g l) : marked y g (l ++ m) := by
  obtain ⟨a, b, h1, h2⟩ := h
  exact ⟨a, b, List.mem_append_left _ h1, h2⟩

theorem marked_append_right {y g : Int} (l : List Ev) {m : List Ev} (h : marked y g m) : marked y g (l ++ m) := by
  obtain ⟨a, b, h1, h2⟩ := h
  exact ⟨a, b, List.mem_append_right _ h1, h2⟩

theorem Tidy.append {lo hi : Int} {l m : List Ev} (h : Tidy lo hi l) (h' : Tidy lo hi m) : Tidy lo hi (l ++ m) := by
  refine ⟨?_, ?_, ?_⟩
  · intro y a b hm
    rcases List.mem_append.mp hm with hm | hm
    · exact h.marks y a b hm
    · exact h'.marks y a b hm
  · intro y x v hm
    rcases List.mem_append.mp hm with hm | hm
    · exact h.cells y x v hm
    · exact h'.cells y x v hm
  · intro y x v hm
    rcases List.mem_append.mp hm with hm | hm
    · rcases h.covered y x v hm with c | ⟨c1, c2⟩
      · exact Or.inl (marked_append_left _ c)
      · exact Or.inr ⟨c1, marked_append_left _ c2⟩
    · rcases h'.covered y x v hm with c | ⟨c1, c2⟩
      · exact Or.inl (marked_append_right _ c)
      · exact Or.inr ⟨c1, marked_append_right _ c2⟩

theorem Tidy.mono {lo hi lo' hi' : Int} {l : List Ev} (h : Tidy lo hi l) (h1 : lo' ≤ lo) (h2 : hi ≤ hi') :
    Tidy lo' hi' l := by
  refine ⟨?_, ?_, h.covered⟩
  · intro y a b hm
    have := h.marks y a b hm
    omega
  · intro y x v hm
    have := h.cells y x v hm
    omega

theorem Tidy.nil (lo hi : Int) : Tidy lo hi [] :=
  ⟨fun _ _ _ h => absurd h List.not_mem_nil, fun _ _ _ h => absurd h List.not_mem_nil,
   fun _ _ _ h => absurd h List.not_mem_nil⟩

theorem Tidy.minX (lo hi x : Int) : Tidy lo hi [Ev.minX x] := by
  refine ⟨?_, ?_, ?_⟩ <;> intro _ _ _ h <;> simp at h

theorem Tidy.maxX (lo hi x : Int) : Tidy lo hi [Ev.maxX x] := by
  refine ⟨?_, ?_, ?_⟩ <;> intro _ _ _ h <;> simp at h

/-- One merge with its mark. -/
theorem Tidy.one {lo hi y e c a : Int} (h0 : lo ≤ e) (h1 : e ≤ hi) : Tidy lo hi (bit y e :: merge y e c a) := by
  have hm : ∀ g, g = e / 4 → marked y g (bit y e :: merge y e c a) := by
    intro g hg
    exact ⟨e / 4, e / 4, List.mem_cons_self, by omega, by omega⟩
  refine ⟨?_, ?_, ?_⟩
  · intro y' a b hm
    simp only [bit, merge, List.mem_cons, Ev.mark.injEq, List.not_mem_nil, or_false, reduceCtorEq] at hm
    omega
  · intro y' x v hm
    simp only [bit, merge, List.mem_cons, Ev.cell.injEq, List.not_mem_nil, or_false, reduceCtorEq, false_or] at hm
    omega
  · intro y' x v hx
    simp only [bit, merge, List.mem_cons, Ev.cell.injEq, List.not_mem_nil, or_false, reduceCtorEq, false_or] at hx
    rcases hx with ⟨h1, h2, _⟩ | ⟨h1, h2, _⟩
    · subst h1
      exact Or.inl (hm _ (by omega))
    · subst h1
      by_cases c4 : (e + 1) % 4 = 0
      · exact Or.inr ⟨by omega, hm _ (by omega)⟩
      · exact Or.inl (hm _ (by omega))

/-- Two merges in adjacent columns with their marks, in any order. -/
theorem Tidy.two {lo hi y e : Int} {log : List Ev} (h0 : lo ≤ e) (h1 : e + 1 ≤ hi)
    (m1 : bit y e ∈ log) (m2 : bit y (e + 1) ∈ log)
    (hm : ∀ y' a b, Ev.mark y' a b ∈ log → a = b ∧ (a = e / 4 ∨ a = (e + 1) / 4))
    (hc : ∀ y' x v, Ev.cell y' x v ∈ log → y' = y ∧ (x = e ∨ x = e + 1 ∨ x = e + 2)) : Tidy lo hi log := by
  refine ⟨?_, ?_, ?_⟩
  · intro y' a b h
    have := hm y' a b h
    omega
  · intro y' x v h
    have := hc y' x v h
    omega
  · intro y' x v h
    obtain ⟨e1, e2⟩ := hc y' x v h
    subst e1
    have k1 : ∀ g, g = e / 4 → marked y' g log := fun g hg => ⟨e / 4, e / 4, m1, by omega, by omega⟩
    have k2 : ∀ g, g = (e + 1) / 4 → marked y' g log := fun g hg => ⟨(e + 1) / 4, (e + 1) / 4, m2, by omega, by omega⟩
    rcases e2 with e2 | e2 | e2
    · exact Or.inl (k1 _ (by omega))
    · exact Or.inl (k2 _ (by omega))
    · by_cases c4 : x % 4 = 0
      · exact Or.inr ⟨c4, k2 _ (by omega)⟩
      · exact Or.inl (k2 _ (by omega))

/-- The state `t` after scanline `k` was drawn from state `s`. -/
structure After (p0 p1 : Pt) (k : Int) (s t : St) : Prop where
  con : Con p0 p1 t
  pos : 256 * t.ex0 + t.fx0 = xAt p0 p1 (bottom p1 k)
  f0 : 0 ≤ t.fx0
  f1 : t.fx0 < 256
  fy0 : t.fy0 = 0
  yd : YD p0 p1 t
  xErr : t.xErr = s.xErr
  fy1 : t.fy1 = s.fy1
  ey0 : t.ey0 = s.ey0
  init : t.initial = s.initial

theorem xAt_gone_ltr {p0 p1 : Pt} (hx : p0.x ≤ p1.x) (y : Int) : xAt p0 p1 y = p0.x + gone p0 p1 y := by
  unfold gone; rw [if_pos hx]; omega

theorem xAt_gone_rtl {p0 p1 : Pt} (hx : ¬ p0.x ≤ p1.x) (y : Int) : xAt p0 p1 y = p0.x - gone p0 p1 y := by
  unfold gone; rw [if_neg hx]; omega

/-- What is known of scanline `k` of a steep line. -/
theorem steep_facts {p0 p1 : Pt} {k : Int} {s : St} (hl : Line p0 p1) (hs : adx p0 p1 ≤ p1.y - p0.y)
    (r : Row p0 p1 k) (h : VI p0 p1 k s) :
    0 ≤ s.xDlt ∧ s.xDlt ≤ 256 ∧ gone p0 p1 (bottom p1 k) = gone p0 p1 (top p0 k) + s.xDlt ∧
    gone p0 p1 (bottom p1 k) ≤ adx p0 p1 ∧ s.fy1 - s.fy0 = bottom p1 k - top p0 k := by
  have hlt := r.lt hl.y
  have g1 := gone_mono hl.y r.top_ge (by omega) r.bottom_le
  have g2 := gone_step hl.y hs r.top_ge (by omega) r.bottom_le
  have g3 := gone_le hl.y (y := bottom p1 k) (by have := r.top_ge; omega) r.bottom_le
  have e1 := h.xd
  have e2 := h.fy1
  have e3 := h.b.fy0
  have e4 : bottom p1 k - top p0 k ≤ 256 := by unfold bottom top; omega
  omega

theorem vlRow_spec {p0 p1 : Pt} {k : Int} {s : St} (neg : Bool) (hl : Line p0 p1) (hs : adx p0 p1 ≤ p1.y - p0.y)
    (hg : ¬ Glitch p0 p1) (hx : p0.x ≤ p1.x) (r : Row p0 p1 k) (h : VI p0 p1 k s) :
    After p0 p1 k s (vlRow neg s k).1 ∧ Draws p0 p1 neg k (k + 1) (vlRow neg s k).2 ∧
    s.ex0 ≤ (vlRow neg s k).1.ex0 ∧ Tidy s.ex0 (vlRow neg s k).1.ex0 (vlRow neg s k).2 := by
  obtain ⟨d0, d1, d2, d3, d4⟩ := steep_facts hl hs r h
  have hlt := r.lt hl.y
  have hpos := h.b.pos
  have hf0 := h.b.f0
  have hf1 := h.b.f1
  have ea : xAt p0 p1 (top p0 k) = 256 * s.ex0 + s.fx0 := hpos.symm
  have eb : xAt p0 p1 (bottom p1 k) = 256 * s.ex0 + s.fx0 + s.xDlt := by
    have := xAt_gone_ltr hx (top p0 k)
    have := xAt_gone_ltr hx (bottom p1 k)
    omega
  have hend : xAt p0 p1 (bottom p1 k) ≤ p1.x := by
    have := xAt_gone_ltr hx (bottom p1 k)
    unfold adx at d3
    rw [if_pos hx] at d3
    omega
  unfold vlRow
  simp only []
  by_cases c1 : s.fx0 + s.xDlt ≤ 256
  · have hdraw : Draws p0 p1 neg k (k + 1) (bit k s.ex0 :: merge k s.ex0 (sg neg (s.fy1 - s.fy0))
        (sg neg (s.fy1 - s.fy0) * (s.fx0 + (s.fx0 + s.xDlt)))) := by
      apply Draws.row
      intro y x
      rw [acc_bit, acc_merge]
      by_cases cy : k = y
      · rw [if_pos cy, if_pos cy, cover_single hlt ea eb (e := s.ex0) (by omega) (by omega) (by omega) (by omega),
          d4, sg_eq]
        unfold mergeAt
        split_ifs <;> ring
      · rw [if_neg cy, if_neg cy]
    rw [if_pos c1]
    by_cases c2 : s.fx0 + s.xDlt = 256
    · rw [if_pos c2]
      refine ⟨?_, hdraw, ?_, ?_⟩
      · refine ⟨h.b.con.congr rfl, ?_, ?_, ?_, rfl, ?_, rfl, rfl, rfl, rfl⟩
        · show 256 * (s.ex0 + 1) + 0 = _
          omega
        · show (0 : Int) ≤ 0
          omega
        · show (0 : Int) < 256
          omega
        · exact YD.next_ltr (s := s) (t := { s with ex0 := s.ex0 + 1, fx0 := 0 }) hl hx (h.b.con.congr rfl) h.b.yd rfl
            (by show (s.yDlt - s.yDlt) % 256 = 0; omega) rfl
      · show s.ex0 ≤ s.ex0 + 1
        omega
      · exact Tidy.one (by omega) (by show s.ex0 ≤ s.ex0 + 1; omega)
    · rw [if_neg c2]
      refine ⟨?_, hdraw, ?_, ?_⟩
      · refine ⟨h.b.con.congr rfl, ?_, ?_, ?_, rfl, ?_, rfl, rfl, rfl, rfl⟩
        · show 256 * s.ex0 + (s.fx0 + s.xDlt) = _
          omega
        · show 0 ≤ s.fx0 + s.xDlt
          omega
        · show s.fx0 + s.xDlt < 256
          omega
        · exact h.b.yd
      · show s.ex0 ≤ s.ex0
        omega
      · exact Tidy.one (by omega) (by show s.ex0 ≤ s.ex0; omega)
  · rw [if_neg c1]
    have em : (s.fx0 + s.xDlt) % 256 = s.fx0 + s.xDlt - 256 := by omega
    have hcr := crossing_in (c := s.ex0 + 1) hl hs hg r (Or.inl ⟨by omega, by omega⟩)
    have hyd := h.b.yd
    unfold YD at hyd
    rw [if_pos hx] at hyd
    obtain ⟨hy1, hy2⟩ := hyd (by omega)
    rw [show 256 * (s.ex0 + 1) = 256 * s.ex0 + 256 by ring] at hcr
    have ey : s.yDlt % 256 = yAt p0 p1 (256 * s.ex0 + 256) - 256 * k := by omega
    have hdraw : Draws p0 p1 neg k (k + 1) ([bit k s.ex0, bit k (s.ex0 + 1)]
        ++ merge k (s.ex0 + 1 - 1) (sg neg (s.yDlt % 256 - s.fy0)) (sg neg (s.yDlt % 256 - s.fy0) * (s.fx0 + 256))
        ++ merge k (s.ex0 + 1) (sg neg (s.fy1 - s.yDlt % 256))
          (sg neg (s.fy1 - s.yDlt % 256) * ((s.fx0 + s.xDlt) % 256))) := by
      apply Draws.row
      intro y x
      rw [acc_append, acc_append, acc_merge, acc_merge]
      simp only [acc_bit, acc_nil]
      by_cases cy : k = y
      · rw [if_pos cy, if_pos cy, if_pos cy,
          cover_ltr hlt ea eb (e := s.ex0) (f := s.ex0 + 1) (by omega) (by omega) (by omega) (by omega) (by omega),
          sg_eq, sg_eq, ey, em, h.b.fy0, h.fy1]
        unfold mergeAt
        rw [show s.ex0 + 1 - 1 = s.ex0 by omega]
        by_cases q1 : x < s.ex0
        · rw [if_pos q1, if_pos (by omega), if_pos q1]; ring
        · by_cases q2 : x = s.ex0
          · rw [if_neg q1, if_pos q2, if_pos (by omega), if_neg q1, if_pos q2]; ring
          · by_cases q3 : x = s.ex0 + 1
            · rw [if_neg q1, if_neg q2, if_neg (by omega), if_pos q3, if_neg q1, if_neg q2, if_neg (by omega), if_pos q3,
                show 256 * (s.ex0 + 1) = 256 * s.ex0 + 256 by ring]
              ring
            · rw [if_neg q1, if_neg q2, if_neg (by omega), if_neg q3, if_neg q1, if_neg q2, if_neg (by omega), if_neg q3]
              ring
      · rw [if_neg cy, if_neg cy, if_neg cy]
        rfl
    refine ⟨?_, hdraw, ?_, ?_⟩
    · refine ⟨h.b.con.congr rfl, ?_, ?_, ?_, rfl, ?_, rfl, rfl, rfl, rfl⟩
      · show 256 * (s.ex0 + 1) + (s.fx0 + s.xDlt) % 256 = _
        omega
      · show 0 ≤ (s.fx0 + s.xDlt) % 256
        omega
      · show (s.fx0 + s.xDlt) % 256 < 256
        omega
      · exact YD.next_ltr (s := s)
          (t := { s with ex0 := s.ex0 + 1, fx0 := (s.fx0 + s.xDlt) % 256, yDlt := s.yDlt % 256 }) hl hx
          (h.b.con.congr rfl) h.b.yd rfl (by show (s.yDlt % 256 - s.yDlt) % 256 = 0; omega) rfl
    · show s.ex0 ≤ s.ex0 + 1
      omega
    · refine Tidy.two (y := k) (e := s.ex0) (by omega) (by show s.ex0 + 1 ≤ s.ex0 + 1; omega) (by simp) (by simp) ?_ ?_
      · intro y a b hm
        simp only [bit, merge, List.mem_cons, List.mem_append, Ev.mark.injEq, List.not_mem_nil, or_false, reduceCtorEq] at hm
        omega
      · intro y a b hm
        simp only [bit, merge, List.mem_cons, List.mem_append, Ev.cell.injEq, List.not_mem_nil, or_false, reduceCtorEq,
          false_or] at hm
        omega

theorem vrRow_spec {p0 p1 : Pt} {k : Int} {s : St} (neg : Bool) (hl : Line p0 p1) (hs : adx p0 p1 ≤ p1.y - p0.y)
    (hg : ¬ Glitch p0 p1) (hx : ¬ p0.x ≤ p1.x) (r : Row p0 p1 k) (h : VI p0 p1 k s) :
    After p0 p1 k s (vrRow neg s k).1 ∧ Draws p0 p1 neg k (k + 1) (vrRow neg s k).2 ∧
    (vrRow neg s k).1.ex0 ≤ s.ex0 ∧ Tidy (vrRow neg s k).1.ex0 s.ex0 (vrRow neg s k).2 := by
  obtain ⟨d0, d1, d2, d3, d4⟩ := steep_facts hl hs r h
  have hlt := r.lt hl.y
  have hpos := h.b.pos
  have hf0 := h.b.f0
  have hf1 := h.b.f1
  have ea : xAt p0 p1 (top p0 k) = 256 * s.ex0 + s.fx0 := hpos.symm
  have eb : xAt p0 p1 (bottom p1 k) = 256 * s.ex0 + s.fx0 - s.xDlt := by
    have := xAt_gone_rtl hx (top p0 k)
    have := xAt_gone_rtl hx (bottom p1 k)
    omega
  have hend : p1.x ≤ xAt p0 p1 (bottom p1 k) := by
    have := xAt_gone_rtl hx (bottom p1 k)
    unfold adx at d3
    rw [if_neg hx] at d3
    omega
  unfold vrRow
  simp only []
  by_cases c1 : s.fx0 - s.xDlt < 0
  · rw [if_pos c1]
    by_cases c2 : s.fx0 = 0
    · rw [if_pos c2]
      refine ⟨?_, ?_, ?_, ?_⟩
      · refine ⟨h.b.con.congr rfl, ?_, ?_, ?_, rfl, ?_, rfl, rfl, rfl, rfl⟩
        · show 256 * (s.ex0 - 1) + (s.fx0 - s.xDlt + 256) = _
          omega
        · show 0 ≤ s.fx0 - s.xDlt + 256
          omega
        · show s.fx0 - s.xDlt + 256 < 256
          omega
        · exact YD.next_rtl (s := s)
            (t := { s with ex0 := s.ex0 - 1, fx0 := s.fx0 - s.xDlt + 256, yDlt := s.yDlt % 256 }) hl hx
            (h.b.con.congr rfl) h.b.yd rfl (by show (s.yDlt % 256 - s.yDlt) % 256 = 0; omega) rfl
      · show Draws p0 p1 neg k (k + 1) (bit k (s.ex0 - 1) :: merge k (s.ex0 - 1) (sg neg (s.fy1 - s.fy0))
          (sg neg (s.fy1 - s.fy0) * (256 + (s.fx0 - s.xDlt + 256))))
        apply Draws.row
        intro y x
        rw [acc_bit, acc_merge]
        by_cases cy : k = y
        · rw [if_pos cy, if_pos cy, cover_single hlt ea eb (e := s.ex0 - 1) (by omega) (by omega) (by omega) (by omega),
            d4, sg_eq, c2]
          unfold mergeAt
          split_ifs <;> ring
        · rw [if_neg cy, if_neg cy]
      · show s.ex0 - 1 ≤ s.ex0
        omega
      · exact Tidy.one (e := s.ex0 - 1) (by show s.ex0 - 1 ≤ s.ex0 - 1; omega) (by omega)
    · rw [if_neg c2]
      have hcr := crossing_in (c := s.ex0) hl hs hg r (Or.inr ⟨by omega, by omega⟩)
      have hyd := h.b.yd
      unfold YD at hyd
      rw [if_neg hx] at hyd
      obtain ⟨hy1, hy2⟩ := hyd (by omega)
      have ey : s.yDlt % 256 = yAt p0 p1 (256 * s.ex0) - 256 * k := by omega
      refine ⟨?_, ?_, ?_, ?_⟩
      · refine ⟨h.b.con.congr rfl, ?_, ?_, ?_, rfl, ?_, rfl, rfl, rfl, rfl⟩
        · show 256 * (s.ex0 - 1) + (s.fx0 - s.xDlt + 256) = _
          omega
        · show 0 ≤ s.fx0 - s.xDlt + 256
          omega
        · show s.fx0 - s.xDlt + 256 < 256
          omega
        · exact YD.next_rtl (s := s)
            (t := { s with ex0 := s.ex0 - 1, fx0 := s.fx0 - s.xDlt + 256, yDlt := s.yDlt % 256 }) hl hx
            (h.b.con.congr rfl) h.b.yd rfl (by show (s.yDlt % 256 - s.yDlt) % 256 = 0; omega) rfl
      · apply Draws.row
        intro y x
        rw [acc_append, acc_append, acc_merge, acc_merge]
        simp only [acc_bit, acc_nil]
        by_cases cy : k = y
        · rw [if_pos cy, if_pos cy, if_pos cy,
            cover_rtl hlt ea eb (e := s.ex0) (f := s.ex0 - 1) (by omega) (by omega) (by omega) (by omega) (by omega),
            sg_eq, sg_eq, ey, h.b.fy0, h.fy1]
          unfold mergeAt
          rw [show s.ex0 - 1 + 1 = s.ex0 by omega]
          by_cases q1 : x < s.ex0 - 1
          · rw [if_pos q1, if_pos (by omega), if_pos q1]; ring
          · by_cases q2 : x = s.ex0 - 1
            · rw [if_pos (by omega), if_neg q1, if_pos q2, if_neg q1, if_pos q2,
                show 256 * (s.ex0 - 1) + 256 = 256 * s.ex0 by ring]; ring
            · by_cases q3 : x = s.ex0
              · rw [if_neg (by omega), if_pos q3, if_neg q1, if_neg q2, if_neg q1, if_neg q2, if_neg (by omega), if_pos q3]
                ring
              · rw [if_neg (by omega), if_neg q3, if_neg q1, if_neg q2, if_neg q1, if_neg q2, if_neg (by omega), if_neg q3]
                ring
        · rw [if_neg cy, if_neg cy, if_neg cy]
          rfl
      · show s.ex0 - 1 ≤ s.ex0
        omega
      · refine Tidy.two (y := k) (e := s.ex0 - 1) (by show s.ex0 - 1 ≤ s.ex0 - 1; omega) (by omega) (by simp) (by simp) ?_ ?_
        · intro y a b hm
          simp only [bit, merge, List.mem_cons, List.mem_append, Ev.mark.injEq, List.not_mem_nil, or_false, reduceCtorEq] at hm
          omega
        · intro y a b hm
          simp only [bit, merge, List.mem_cons, List.mem_append, Ev.cell.injEq, List.not_mem_nil, or_false, reduceCtorEq,
            false_or] at hm
          omega
  · rw [if_neg c1]
    refine ⟨?_, ?_, ?_, ?_⟩
    · refine ⟨h.b.con.congr rfl, ?_, ?_, ?_, rfl, ?_, rfl, rfl, rfl, rfl⟩
      · show 256 * s.ex0 + (s.fx0 - s.xDlt) = _
        omega
      · show 0 ≤ s.fx0 - s.xDlt
        omega
      · show s.fx0 - s.xDlt < 256
        omega
      · exact h.b.yd
    · apply Draws.row
      intro y x
      rw [acc_bit, acc_merge]
      by_cases cy : k = y
      · rw [if_pos cy, if_pos cy, cover_single hlt ea eb (e := s.ex0) (by omega) (by omega) (by omega) (by omega),
          d4, sg_eq]
        unfold mergeAt
        split_ifs <;> ring
      · rw [if_neg cy, if_neg cy]
    · show s.ex0 ≤ s.ex0
      omega
    · exact Tidy.one (by show s.ex0 ≤ s.ex0; omega) (by omega)

end Blend2D.Raster
