import Verif.Raster.Run

/-! # The writes stay in the scanlines that are drawn -/

namespace Blend2D.Raster
open Spec

/-- All writes are in the rows `a` to `b`. -/
def InRows (a b : Int) (log : List Ev) : Prop :=
  (∀ y x v, Ev.cell y x v ∈ log → a ≤ y ∧ y ≤ b) ∧ ∀ y g h, Ev.mark y g h ∈ log → a ≤ y ∧ y ≤ b

theorem InRows.nil (a b : Int) : InRows a b [] := ⟨fun _ _ _ h => by simp at h, fun _ _ _ h => by simp at h⟩

theorem InRows.append {a b : Int} {l m : List Ev} (h : InRows a b l) (h' : InRows a b m) : InRows a b (l ++ m) := by
  refine ⟨fun y x v hm => ?_, fun y x v hm => ?_⟩
  · rcases List.mem_append.1 hm with hm | hm
    · exact h.1 y x v hm
    · exact h'.1 y x v hm
  · rcases List.mem_append.1 hm with hm | hm
    · exact h.2 y x v hm
    · exact h'.2 y x v hm

theorem InRows.mono {a b c d : Int} {l : List Ev} (h : InRows a b l) (h1 : c ≤ a) (h2 : b ≤ d) : InRows c d l := by
  refine ⟨fun y x v hm => ?_, fun y x v hm => ?_⟩
  · have := h.1 y x v hm; omega
  · have := h.2 y x v hm; omega

theorem inRows_cell (y x v : Int) {l : List Ev} (h : InRows y y l) : InRows y y (.cell y x v :: l) := by
  refine ⟨fun y' x v hm => ?_, fun y' x v hm => ?_⟩
  · rcases List.mem_cons.1 hm with hm | hm
    · cases hm; omega
    · exact h.1 _ _ _ hm
  · rcases List.mem_cons.1 hm with hm | hm
    · cases hm
    · exact h.2 _ _ _ hm

theorem inRows_mark (y g g' : Int) {l : List Ev} (h : InRows y y l) : InRows y y (.mark y g g' :: l) := by
  refine ⟨fun y' x v hm => ?_, fun y' x v hm => ?_⟩
  · rcases List.mem_cons.1 hm with hm | hm
    · cases hm
    · exact h.1 _ _ _ hm
  · rcases List.mem_cons.1 hm with hm | hm
    · cases hm; omega
    · exact h.2 _ _ _ hm

theorem inRows_min {a b m : Int} {l : List Ev} (h : InRows a b l) : InRows a b (.minX m :: l) := by
  refine ⟨fun y' x v hm => ?_, fun y' x v hm => ?_⟩
  · rcases List.mem_cons.1 hm with hm | hm
    · cases hm
    · exact h.1 _ _ _ hm
  · rcases List.mem_cons.1 hm with hm | hm
    · cases hm
    · exact h.2 _ _ _ hm

theorem inRows_max {a b m : Int} {l : List Ev} (h : InRows a b l) : InRows a b (.maxX m :: l) := by
  refine ⟨fun y' x v hm => ?_, fun y' x v hm => ?_⟩
  · rcases List.mem_cons.1 hm with hm | hm
    · cases hm
    · exact h.1 _ _ _ hm
  · rcases List.mem_cons.1 hm with hm | hm
    · cases hm
    · exact h.2 _ _ _ hm

theorem inRows_merge (y x c a : Int) : InRows y y (merge y x c a) :=
  inRows_cell _ _ _ (inRows_cell _ _ _ (InRows.nil _ _))

theorem vertRow_rows (neg : Bool) (s : St) (y h : Int) : InRows y y (vertRow neg s y h) :=
  (inRows_merge _ _ _ _).append (inRows_mark _ _ _ (InRows.nil _ _))

theorem vertRows_rows (neg : Bool) (s : St) (y : Int) (n : Nat) : InRows y (y + n - 1) (vertRows neg s y n) := by
  induction n generalizing y with
  | zero => exact InRows.nil _ _
  | succ n ih =>
    exact ((vertRow_rows neg s y 256).mono (by omega) (by omega)).append ((ih (y + 1)).mono (by omega) (by omega))

theorem vert_rows (neg banding : Bool) (s : St) (y : Int) (i : Nat) : InRows y (y + i) (vert neg banding s y i).2.2 := by
  have pre : InRows y (y + i) ([Ev.minX s.ex0, .maxX s.ex0] ++ vertRow neg s y (s.fy1 - s.fy0)) :=
    inRows_min (inRows_max ((vertRow_rows neg s y _).mono (by omega) (by omega)))
  unfold vert
  simp only []
  by_cases c : i = 0
  · rw [if_pos c]
    split_ifs <;> exact pre
  · rw [if_neg c]
    have mid := (vertRows_rows neg s (y + 1) (i - 1)).mono (c := y) (d := y + i) (by omega) (by omega)
    split_ifs <;> exact (pre.append mid).append ((vertRow_rows neg s (y + i) _).mono (by omega) (by omega))

theorem vrRow_rows (neg : Bool) (s : St) (y : Int) : InRows y y (vrRow neg s y).2 ∧
    (vrRow neg s y).1.ey0 = s.ey0 ∧ (vrRow neg s y).1.ey1 = s.ey1 := by
  unfold vrRow
  simp only []
  split_ifs
  · exact ⟨inRows_mark _ _ _ (inRows_merge _ _ _ _), rfl, rfl⟩
  · exact ⟨((inRows_mark _ _ _ (inRows_mark _ _ _ (InRows.nil _ _))).append (inRows_merge _ _ _ _)).append (inRows_merge _ _ _ _), rfl, rfl⟩
  · exact ⟨inRows_mark _ _ _ (inRows_merge _ _ _ _), rfl, rfl⟩

theorem vrMid_rows (neg : Bool) (s : St) (y : Int) : InRows y y (vrMid neg s y).2 ∧
    (vrMid neg s y).1.ey0 = s.ey0 ∧ (vrMid neg s y).1.ey1 = s.ey1 := by
  unfold vrMid
  simp only []
  split_ifs
  · exact ⟨inRows_mark _ _ _ (inRows_merge _ _ _ _), rfl, rfl⟩
  · exact ⟨inRows_mark _ _ _ (inRows_mark _ _ _ (inRows_cell _ _ _ (inRows_cell _ _ _ (inRows_cell _ _ _ (InRows.nil _ _))))), rfl, rfl⟩
  · exact ⟨inRows_mark _ _ _ (inRows_merge _ _ _ _), rfl, rfl⟩

theorem vrMids_rows (neg : Bool) (n : Nat) (s : St) (y : Int) : InRows y (y + n - 1) (vrMids neg s y n).2 ∧
    (vrMids neg s y n).1.ey0 = s.ey0 ∧ (vrMids neg s y n).1.ey1 = s.ey1 := by
  induction n generalizing s y with
  | zero => exact ⟨InRows.nil _ _, rfl, rfl⟩
  | succ n ih =>
    obtain ⟨a1, a2, a3⟩ := vrMid_rows neg s y
    obtain ⟨b1, b2, b3⟩ := ih (vrMid neg s y).1 (y + 1)
    exact ⟨(a1.mono (by omega) (by omega)).append (b1.mono (by omega) (by omega)), b2.trans a2, b3.trans a3⟩

theorem vrDone_rows {a b : Int} (banding : Bool) (s : St) {log : List Ev} (h : InRows a b log) :
    InRows a b (vrDone banding s log).2.2 := by
  unfold vrDone
  split_ifs <;> exact h.append (inRows_min (InRows.nil _ _))

/-- Rows of a steep line to the left; `i` counts one more when the band ends before the line does. -/
theorem vertRtl_rows (neg banding : Bool) (s : St) (y : Int) (i : Nat) :
    InRows y (y + if banding = true ∧ s.ey0 ≤ s.ey1 ∧ i ≠ 0 then (i : Int) - 1 else i) (vertRtl neg banding s y i).2.2 := by
  obtain ⟨a1, a2, a3⟩ := vrRow_rows neg s y
  have log0 : InRows y y (Ev.maxX s.ex0 :: (vrRow neg s y).2) := inRows_max a1
  unfold vertRtl
  simp only []
  by_cases c : i = 0
  · rw [if_pos c, if_neg (by omega)]
    exact vrDone_rows _ _ (log0.mono (by omega) (by omega))
  · rw [if_neg c]
    obtain ⟨b1, b2, b3⟩ := vrMids_rows neg (i - 1) (vrRow neg s y).1 (y + 1)
    have hb : InRows y (y + i - 1) (Ev.maxX s.ex0 :: (vrRow neg s y).2 ++ (vrMids neg (vrRow neg s y).1 (y + 1) (i - 1)).2) :=
      (log0.mono (by omega) (by omega)).append (b1.mono (by omega) (by omega))
    have hlast : ∀ t : St, InRows y (y + i) (vrDone banding (vrRow neg t (y + i)).1
        (Ev.maxX s.ex0 :: (vrRow neg s y).2 ++ (vrMids neg (vrRow neg s y).1 (y + 1) (i - 1)).2 ++ (vrRow neg t (y + i)).2)).2.2 := by
      intro t
      exact vrDone_rows _ _ ((hb.mono (by omega) (by omega)).append ((vrRow_rows neg t (y + i)).1.mono (by omega) (by omega)))
    cases hbd : banding
    · rw [if_neg (by simp), if_neg (by simp)]
      have := hlast (vrLast (vrMids neg (vrRow neg s y).1 (y + 1) (i - 1)).1)
      rw [hbd] at this
      exact this
    · rw [if_pos rfl]
      by_cases c1 : (vrMids neg (vrRow neg s y).1 (y + 1) (i - 1)).1.ey0 ≥ (vrMids neg (vrRow neg s y).1 (y + 1) (i - 1)).1.ey1
      · rw [if_pos c1]
        by_cases c2 : (vrLast (vrMids neg (vrRow neg s y).1 (y + 1) (i - 1)).1).ey0 = (vrLast (vrMids neg (vrRow neg s y).1 (y + 1) (i - 1)).1).ey1
        · rw [if_pos c2]
          refine InRows.append (hb.mono (by omega) ?_) (inRows_min (InRows.nil _ _))
          split_ifs <;> omega
        · rw [if_neg c2, if_neg (by
            intro hh
            apply c2
            show (vrMids neg (vrRow neg s y).1 (y + 1) (i - 1)).1.ey0 = (vrMids neg (vrRow neg s y).1 (y + 1) (i - 1)).1.ey1
            omega)]
          have := hlast (vrLast (vrMids neg (vrRow neg s y).1 (y + 1) (i - 1)).1)
          rw [hbd] at this
          exact this
      · rw [if_neg c1]
        refine InRows.append (hb.mono (by omega) ?_) (inRows_min (InRows.nil _ _))
        split_ifs <;> omega

theorem vlRow_rows (neg : Bool) (s : St) (y : Int) : InRows y y (vlRow neg s y).2 ∧
    (vlRow neg s y).1.ey0 = s.ey0 ∧ (vlRow neg s y).1.ey1 = s.ey1 := by
  unfold vlRow
  simp only []
  split_ifs
  · exact ⟨inRows_mark _ _ _ (inRows_merge _ _ _ _), rfl, rfl⟩
  · exact ⟨inRows_mark _ _ _ (inRows_merge _ _ _ _), rfl, rfl⟩
  · exact ⟨((inRows_mark _ _ _ (inRows_mark _ _ _ (InRows.nil _ _))).append (inRows_merge _ _ _ _)).append (inRows_merge _ _ _ _), rfl, rfl⟩

theorem vlMid_rows (neg : Bool) (s : St) (y : Int) : InRows y y (vlMid neg s y).2 ∧
    (vlMid neg s y).1.ey0 = s.ey0 ∧ (vlMid neg s y).1.ey1 = s.ey1 := by
  unfold vlMid
  simp only []
  split_ifs
  · exact ⟨inRows_mark _ _ _ (inRows_merge _ _ _ _), rfl, rfl⟩
  · exact ⟨inRows_mark _ _ _ (inRows_merge _ _ _ _), rfl, rfl⟩
  · exact ⟨inRows_mark _ _ _ (inRows_cell _ _ _ (inRows_cell _ _ _ (inRows_cell _ _ _ (inRows_mark _ _ _ (InRows.nil _ _))))), rfl, rfl⟩

theorem vlMids_rows (neg : Bool) (n : Nat) (s : St) (y : Int) : InRows y (y + n - 1) (vlMids neg s y n).2 ∧
    (vlMids neg s y n).1.ey0 = s.ey0 ∧ (vlMids neg s y n).1.ey1 = s.ey1 := by
  induction n generalizing s y with
  | zero => exact ⟨InRows.nil _ _, rfl, rfl⟩
  | succ n ih =>
    obtain ⟨a1, a2, a3⟩ := vlMid_rows neg s y
    obtain ⟨b1, b2, b3⟩ := ih (vlMid neg s y).1 (y + 1)
    exact ⟨(a1.mono (by omega) (by omega)).append (b1.mono (by omega) (by omega)), b2.trans a2, b3.trans a3⟩

theorem vlDone_rows {a b : Int} (banding : Bool) (s : St) {log : List Ev} (h : InRows a b log) :
    InRows a b (vlDone banding s log).2.2 := by
  unfold vlDone
  split_ifs <;> exact h.append (inRows_max (InRows.nil _ _))

theorem vertLtr_rows (neg banding : Bool) (s : St) (y : Int) (i : Nat) :
    InRows y (y + if banding = true ∧ s.ey0 ≤ s.ey1 ∧ i ≠ 0 then (i : Int) - 1 else i) (vertLtr neg banding s y i).2.2 := by
  obtain ⟨a1, a2, a3⟩ := vlRow_rows neg s y
  have log0 : InRows y y (Ev.minX s.ex0 :: (vlRow neg s y).2) := inRows_min a1
  unfold vertLtr
  simp only []
  by_cases c : i = 0
  · rw [if_pos c, if_neg (by omega)]
    exact vlDone_rows _ _ (log0.mono (by omega) (by omega))
  · rw [if_neg c]
    obtain ⟨b1, b2, b3⟩ := vlMids_rows neg (i - 1) (vlRow neg s y).1 (y + 1)
    have hb : InRows y (y + i - 1) (Ev.minX s.ex0 :: (vlRow neg s y).2 ++ (vlMids neg (vlRow neg s y).1 (y + 1) (i - 1)).2) :=
      (log0.mono (by omega) (by omega)).append (b1.mono (by omega) (by omega))
    have hlast : ∀ t : St, InRows y (y + i) (vlDone banding (vlRow neg t (y + i)).1
        (Ev.minX s.ex0 :: (vlRow neg s y).2 ++ (vlMids neg (vlRow neg s y).1 (y + 1) (i - 1)).2 ++ (vlRow neg t (y + i)).2)).2.2 := by
      intro t
      exact vlDone_rows _ _ ((hb.mono (by omega) (by omega)).append ((vlRow_rows neg t (y + i)).1.mono (by omega) (by omega)))
    cases hbd : banding
    · rw [if_neg (by simp), if_neg (by simp)]
      have := hlast (vlLast (vlMids neg (vlRow neg s y).1 (y + 1) (i - 1)).1)
      rw [hbd] at this
      exact this
    · rw [if_pos rfl]
      by_cases c1 : (vlMids neg (vlRow neg s y).1 (y + 1) (i - 1)).1.ey0 ≥ (vlMids neg (vlRow neg s y).1 (y + 1) (i - 1)).1.ey1
      · rw [if_pos c1]
        by_cases c2 : (vlLast (vlMids neg (vlRow neg s y).1 (y + 1) (i - 1)).1).ey0 = (vlLast (vlMids neg (vlRow neg s y).1 (y + 1) (i - 1)).1).ey1
        · rw [if_pos c2]
          refine InRows.append (hb.mono (by omega) ?_) (inRows_max (InRows.nil _ _))
          split_ifs <;> omega
        · rw [if_neg c2, if_neg (by
            intro hh
            apply c2
            show (vlMids neg (vlRow neg s y).1 (y + 1) (i - 1)).1.ey0 = (vlMids neg (vlRow neg s y).1 (y + 1) (i - 1)).1.ey1
            omega)]
          have := hlast (vlLast (vlMids neg (vlRow neg s y).1 (y + 1) (i - 1)).1)
          rw [hbd] at this
          exact this
      · rw [if_neg c1]
        refine InRows.append (hb.mono (by omega) ?_) (inRows_max (InRows.nil _ _))
        split_ifs <;> omega

theorem hrCells_rows (neg : Bool) (y : Int) (n : Nat) (s : St) (c a : Int) : InRows y y (hrCells neg y n s c a).2.2 := by
  induction n generalizing s c a with
  | zero => exact InRows.nil _ _
  | succ n ih => exact (inRows_merge _ _ _ _).append (ih _ _ _)

theorem hrInside_rows (neg : Bool) (s : St) (y x c : Int) : InRows y y (hrInside neg s y x c).2.2 :=
  (inRows_mark _ _ _ (hrCells_rows _ _ _ _ _ _)).append (inRows_merge _ _ _ _)

theorem hrMids_rows (neg : Bool) (n : Nat) (y : Int) (s : St) (x : Int) : InRows y (y + n - 1) (hrMids neg y n s x).2.2 := by
  induction n generalizing s y x with
  | zero => exact InRows.nil _ _
  | succ n ih =>
    exact ((hrInside_rows neg _ y x _).mono (by omega) (by omega)).append ((ih (y + 1) _ _).mono (by omega) (by omega))

theorem hrFirst_rows (neg : Bool) (s : St) (y x : Int) : InRows y y (hrFirst neg s y x).2.2 := by
  unfold hrFirst
  simp only []
  split_ifs
  · exact hrInside_rows _ _ _ _ _
  · exact inRows_mark _ _ _ (inRows_merge _ _ _ _)
  · exact inRows_mark _ _ _ (inRows_merge _ _ _ _)

theorem hrDone_rows {a b : Int} (banding : Bool) (s : St) (x : Int) {log : List Ev} (h : InRows a b log) :
    InRows a b (hrDone banding s x log).2.2 := by
  unfold hrDone
  simp only []
  split_ifs <;> exact h.append (inRows_min (InRows.nil _ _))

theorem hrEnd_rows {a b y : Int} (neg banding : Bool) (s : St) (x : Int) {log : List Ev} (h : InRows a b log) (h1 : a ≤ y)
    (h2 : y ≤ b) : InRows a b (hrEnd neg banding s y x log).2.2 := by
  unfold hrEnd
  simp only []
  split_ifs
  · exact hrDone_rows _ _ _ (h.append ((hrInside_rows _ _ _ _ _).mono h1 h2))
  · exact (h.append ((inRows_merge _ _ _ _).mono h1 h2)).append ((inRows_mark _ _ _ (inRows_min (InRows.nil _ _))).mono h1 h2)
  · exact hrDone_rows _ _ _ (h.append ((hrInside_rows _ _ _ _ _).mono h1 h2))

theorem horzRtl_rows (neg banding : Bool) (s : St) (y : Int) (i : Nat) : InRows y (y + i) (horzRtl neg banding s y i).2.2 := by
  have h0 : InRows y (y + i) [Ev.maxX s.ex0] := inRows_max (InRows.nil _ _)
  unfold horzRtl
  simp only []
  split_ifs with c1 c2
  · exact hrDone_rows _ _ _ (h0.append ((hrFirst_rows _ _ _ _).mono (by omega) (by omega)))
  · exact hrEnd_rows _ _ _ _ ((h0.append ((hrFirst_rows _ _ _ _).mono (by omega) (by omega))).append
      ((hrMids_rows _ _ _ _ _).mono (by omega) (by omega))) (by omega) (by omega)
  · exact hrEnd_rows _ _ _ _ (h0.append ((hrMids_rows _ _ _ _ _).mono (by omega) (by omega))) (by omega) (by omega)

theorem hlCells_rows (neg : Bool) (y : Int) (n : Nat) (s : St) (c a : Int) : InRows y y (hlCells neg y n s c a).2.2 := by
  induction n generalizing s c a with
  | zero => exact InRows.nil _ _
  | succ n ih => exact (inRows_merge _ _ _ _).append (ih _ _ _)

theorem hlInside_rows (neg : Bool) (s : St) (y x c : Int) : InRows y y (hlInside neg s y x c).2.2 :=
  (inRows_mark _ _ _ (hlCells_rows _ _ _ _ _ _)).append (inRows_merge _ _ _ _)

theorem hlMids_rows (neg : Bool) (n : Nat) (y : Int) (s : St) (x : Int) : InRows y (y + n - 1) (hlMids neg y n s x).2.2 := by
  induction n generalizing s y x with
  | zero => exact InRows.nil _ _
  | succ n ih =>
    exact ((hlInside_rows neg _ y x _).mono (by omega) (by omega)).append ((ih (y + 1) _ _).mono (by omega) (by omega))

theorem hlFirst_rows (neg : Bool) (s : St) (y x : Int) : InRows y y (hlFirst neg s y x).2.2 := by
  unfold hlFirst
  simp only []
  split_ifs
  · exact hlInside_rows _ _ _ _ _
  · exact inRows_mark _ _ _ (inRows_merge _ _ _ _)
  · exact inRows_mark _ _ _ (inRows_merge _ _ _ _)

theorem hlDone_rows {a b : Int} (banding : Bool) (s : St) (x : Int) {log : List Ev} (h : InRows a b log) :
    InRows a b (hlDone banding s x log).2.2 := by
  unfold hlDone
  simp only []
  split_ifs <;> exact h.append (inRows_max (InRows.nil _ _))

theorem hlEnd_rows {a b y : Int} (neg banding : Bool) (s : St) (x : Int) {log : List Ev} (h : InRows a b log) (h1 : a ≤ y)
    (h2 : y ≤ b) : InRows a b (hlEnd neg banding s y x log).2.2 := by
  unfold hlEnd
  simp only []
  split_ifs
  · exact hlDone_rows _ _ _ (h.append ((hlInside_rows _ _ _ _ _).mono h1 h2))
  · exact (h.append ((inRows_merge _ _ _ _).mono h1 h2)).append ((inRows_mark _ _ _ (inRows_max (InRows.nil _ _))).mono h1 h2)
  · exact hlDone_rows _ _ _ (h.append ((hlInside_rows _ _ _ _ _).mono h1 h2))

theorem horzLtr_rows (neg banding : Bool) (s : St) (y : Int) (i : Nat) : InRows y (y + i) (horzLtr neg banding s y i).2.2 := by
  have h0 : InRows y (y + i) [Ev.minX s.ex0] := inRows_min (InRows.nil _ _)
  unfold horzLtr
  simp only []
  split_ifs with c1 c2
  · exact hlDone_rows _ _ _ (h0.append ((hlFirst_rows _ _ _ _).mono (by omega) (by omega)))
  · exact hlEnd_rows _ _ _ _ ((h0.append ((hlFirst_rows _ _ _ _).mono (by omega) (by omega))).append
      ((hlMids_rows _ _ _ _ _).mono (by omega) (by omega))) (by omega) (by omega)
  · exact hlEnd_rows _ _ _ _ (h0.append ((hlMids_rows _ _ _ _ _).mono (by omega) (by omega))) (by omega) (by omega)

/-- All writes of `rasterize` are in the scanlines that it draws. -/
theorem rasterize_rows (neg : Bool) (band : Option Int) (s : St) (h : s.ey0 ≤ lastOf s band) :
    InRows s.ey0 (lastOf s band) (rasterize neg band s).2.2 := by
  have e : s.ey0 + ((lastOf s band - s.ey0).toNat : Int) = lastOf s band := by omega
  unfold rasterize
  simp only []
  generalize (if band.isSome then { s with ey0 := s.ey0 + (((lastOf s band - s.ey0).toNat : Int) + 1) } else s) = w
  have steep : ∀ i : Nat, i = (if band.isSome = true ∧ w.ey0 ≤ w.ey1 then (lastOf s band - s.ey0).toNat + 1 else (lastOf s band - s.ey0).toNat) →
      (if band.isSome = true ∧ w.ey0 ≤ w.ey1 ∧ i ≠ 0 then (i : Int) - 1 else i) = (lastOf s band - s.ey0).toNat := by
    intro i hi
    by_cases c : band.isSome = true ∧ w.ey0 ≤ w.ey1
    · rw [if_pos c] at hi
      rw [if_pos ⟨c.1, c.2, by omega⟩]; omega
    · rw [if_neg c] at hi
      rw [if_neg (fun hh => c ⟨hh.1, hh.2.1⟩)]; omega
  split_ifs with c1 c2 c3 c4 c4 c5
  · exact (vert_rows _ _ _ _ _).mono (by omega) (by omega)
  · exact (vertRtl_rows _ _ _ _ _).mono (by omega) (by rw [steep _ (by rw [if_pos c4])]; omega)
  · exact (vertRtl_rows _ _ _ _ _).mono (by omega) (by rw [steep _ (by rw [if_neg c4])]; omega)
  · exact (vertLtr_rows _ _ _ _ _).mono (by omega) (by rw [steep _ (by rw [if_pos (by assumption)])]; omega)
  · exact (vertLtr_rows _ _ _ _ _).mono (by omega) (by rw [steep _ (by rw [if_neg (by assumption)])]; omega)
  · exact (horzRtl_rows _ _ _ _ _).mono (by omega) (by omega)
  · exact (horzLtr_rows _ _ _ _ _).mono (by omega) (by omega)

end Blend2D.Raster
