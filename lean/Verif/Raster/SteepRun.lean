import Verif.Raster.SteepRows

/-! # Steep lines: all scanlines of a band -/

namespace Blend2D.Raster
open Spec

theorem VP.step {p0 p1 : Pt} {k : Int} {s : St} (hy : p0.y < p1.y) (r : Row p0 p1 k) (h0 : p0.y < 256 * k)
    (h1 : k < (p1.y - 1) / 256) (h : VP p0 p1 k s) : VI p0 p1 k (nextX s) := by
  have hn := nextX_spec hy h.b.con h.xe
  have hb := Row.bottom_eq (p0 := p0) h1
  have et : top p0 k = 256 * k := by unfold top; omega
  have en : adx p0 p1 * (256 * k - p0.y) + 256 * adx p0 p1 = adx p0 p1 * (256 * k + 256 - p0.y) := by ring
  rw [en] at hn
  refine ⟨⟨h.b.con.congr rfl, h.b.pos, h.b.f0, h.b.f1, h.b.fy0, h.b.yd⟩, ?_, ?_, fun _ => hn.2⟩
  · rw [hn.1, hb.1, et, gone_mid (by omega) hb.2, gone_mid h0 (by omega)]
  · rw [hb.1]
    show s.fy1 = _
    rw [h.fy1]; omega

theorem After.toVP {p0 p1 : Pt} {k : Int} {s t : St} (r : Row p0 p1 k) (h1 : k < (p1.y - 1) / 256) (h : VI p0 p1 k s)
    (a : After p0 p1 k s t) : VP p0 p1 (k + 1) t := by
  have hb := Row.bottom_eq (p0 := p0) h1
  have ht := r.top_succ
  refine ⟨⟨a.con, ?_, a.f0, a.f1, ?_, a.yd⟩, ?_, ?_⟩
  · rw [a.pos, hb.1, ht.1]
  · rw [a.fy0, ht.1]; omega
  · rw [a.fy1, h.fy1, hb.1]; omega
  · rw [a.xErr, h.xe h1]
    congr 2
    ring

theorem top_mid {p0 : Pt} {k : Int} (h : p0.y < 256 * k) : top p0 k = 256 * k := by unfold top; omega

theorem vlLast_spec {p0 p1 : Pt} {s : St} (hl : Line p0 p1) (hx : p0.x ≤ p1.x)
    (h0 : p0.y < 256 * ((p1.y - 1) / 256)) (h : VP p0 p1 ((p1.y - 1) / 256) s) :
    VI p0 p1 ((p1.y - 1) / 256) (vlLast s) := by
  refine ⟨⟨h.b.con.congr rfl, h.b.pos, h.b.f0, h.b.f1, h.b.fy0, h.b.yd⟩, ?_, ?_, fun hc => absurd hc (by omega)⟩
  · show (s.ex1 - s.ex0) * 256 + s.fx1 - s.fx0 = _
    have eb : bottom p1 ((p1.y - 1) / 256) = p1.y := by unfold bottom; omega
    have hp := h.b.pos
    rw [xAt_gone_ltr hx] at hp
    rw [eb, gone_end hl.y, h.b.con.ex1, h.b.con.fx1]
    unfold adx
    rw [if_pos hx]
    omega
  · show s.savedFy1 = _
    rw [h.b.con.saved]
    unfold bottom
    omega

theorem vrLast_spec {p0 p1 : Pt} {s : St} (hl : Line p0 p1) (hx : ¬ p0.x ≤ p1.x)
    (h0 : p0.y < 256 * ((p1.y - 1) / 256)) (h : VP p0 p1 ((p1.y - 1) / 256) s) :
    VI p0 p1 ((p1.y - 1) / 256) (vrLast s) := by
  refine ⟨⟨h.b.con.congr rfl, h.b.pos, h.b.f0, h.b.f1, h.b.fy0, h.b.yd⟩, ?_, ?_, fun hc => absurd hc (by omega)⟩
  · show (s.ex0 - s.ex1) * 256 + s.fx0 - s.fx1 = _
    have eb : bottom p1 ((p1.y - 1) / 256) = p1.y := by unfold bottom; omega
    have hp := h.b.pos
    rw [xAt_gone_rtl hx] at hp
    rw [eb, gone_end hl.y, h.b.con.ex1, h.b.con.fx1]
    unfold adx
    rw [if_neg hx]
    omega
  · show s.savedFy1 = _
    rw [h.b.con.saved]
    unfold bottom
    omega

theorem nextY_fy0 (s : St) (h : s.fy0 = 0) : { nextY s with fy0 := 0 } = nextY s := by
  cases s
  simp only at h
  subst h
  rfl

theorem vlMid_state (neg : Bool) {s : St} (y : Int) (h : s.fy0 = 0) : (vlMid neg s y).1 = (vlRow neg (nextX s) y).1 := by
  unfold vlMid vlRow
  simp only []
  by_cases c1 : (nextX s).fx0 + (nextX s).xDlt ≤ 256
  · rw [if_pos c1, if_pos c1]
    by_cases c2 : (nextX s).fx0 + (nextX s).xDlt < 256
    · rw [if_pos c2, if_neg (by omega)]
      have : (nextX s).fy0 = 0 := h
      simp only [← this]
    · rw [if_neg c2, if_pos (by omega)]
      exact (nextY_fy0 { nextX s with ex0 := (nextX s).ex0 + 1, fx0 := 0 } h).symm
  · rw [if_neg c1, if_neg c1]
    exact (nextY_fy0 { nextX s with ex0 := (nextX s).ex0 + 1, fx0 := ((nextX s).fx0 + (nextX s).xDlt) % 256, yDlt := (nextX s).yDlt % 256 } h).symm

theorem vlMid_acc (neg : Bool) {s : St} (y : Int) (h : s.fy0 = 0) (h' : s.fy1 = 256) (y' x : Int) :
    acc y' x (vlMid neg s y).2 = acc y' x (vlRow neg (nextX s) y).2 := by
  have e0 : (nextX s).fy0 = 0 := h
  have e1 : (nextX s).fy1 = 256 := h'
  unfold vlMid vlRow
  simp only []
  by_cases c1 : (nextX s).fx0 + (nextX s).xDlt ≤ 256
  · rw [if_pos c1, if_pos c1]
    by_cases c2 : (nextX s).fx0 + (nextX s).xDlt < 256
    · rw [if_pos c2, if_neg (by omega)]
      simp [e0, e1]
    · rw [if_neg c2, if_pos (by omega)]
      simp [e0, e1]
  · rw [if_neg c1, if_neg c1]
    simp only [acc_append, acc_merge, acc_bit, acc_cell, acc_nil, e0, e1, sg_eq, mergeAt]
    by_cases cy : y = y'
    · simp only [cy, true_and, if_true]
      have e2 : (nextX s).ex0 + 1 - 1 = (nextX s).ex0 := by omega
      rw [e2]
      generalize (nextX s).ex0 = e
      by_cases q1 : x < e
      · rw [if_neg (by omega), if_neg (by omega), if_neg (by omega), if_pos q1, if_pos (by omega)]; ring
      · by_cases q2 : x = e
        · rw [if_pos (by omega), if_neg (by omega), if_neg (by omega), if_neg q1, if_pos q2, if_pos (by omega)]; ring
        · by_cases q3 : x = e + 1
          · rw [if_pos (by omega), if_pos (by omega), if_neg (by omega), if_neg q1, if_neg q2, if_neg (by omega), if_pos q3]
            ring
          · rw [if_pos (by omega), if_pos (by omega), if_pos (by omega), if_neg q1, if_neg q2, if_neg (by omega), if_neg q3]
            ring
    · simp [cy]

theorem vlMid_tidy (neg : Bool) {s : St} (y : Int) : Tidy s.ex0 (vlMid neg s y).1.ex0 (vlMid neg s y).2 := by
  unfold vlMid
  simp only []
  have e : (nextX s).ex0 = s.ex0 := rfl
  by_cases c1 : (nextX s).fx0 + (nextX s).xDlt ≤ 256
  · rw [if_pos c1]
    by_cases c2 : (nextX s).fx0 + (nextX s).xDlt < 256
    · rw [if_pos c2]
      exact Tidy.one (by omega) (by show s.ex0 ≤ s.ex0; omega)
    · rw [if_neg c2]
      exact Tidy.one (by omega) (by show s.ex0 ≤ s.ex0 + 1; omega)
  · rw [if_neg c1]
    refine Tidy.two (y := y) (e := s.ex0) (by omega) (by show s.ex0 + 1 ≤ s.ex0 + 1; omega) (by simp [e]) (by simp [e]) ?_ ?_
    · intro y a b hm
      simp only [bit, e, List.mem_cons, Ev.mark.injEq, List.not_mem_nil, or_false, reduceCtorEq, false_or] at hm
      omega
    · intro y a b hm
      simp only [bit, e, List.mem_cons, Ev.cell.injEq, List.not_mem_nil, or_false, reduceCtorEq, false_or] at hm
      omega

theorem vlMids_spec {p0 p1 : Pt} (neg : Bool) (hl : Line p0 p1) (hs : adx p0 p1 ≤ p1.y - p0.y)
    (hg : ¬ Glitch p0 p1) (hx : p0.x ≤ p1.x) : ∀ (n : Nat) (k : Int) (s : St), p0.y < 256 * k →
    k + n ≤ (p1.y - 1) / 256 → VP p0 p1 k s →
    VP p0 p1 (k + n) (vlMids neg s k n).1 ∧ Draws p0 p1 neg k (k + n) (vlMids neg s k n).2 ∧
    s.ex0 ≤ (vlMids neg s k n).1.ex0 ∧ Tidy s.ex0 (vlMids neg s k n).1.ex0 (vlMids neg s k n).2 ∧
    (vlMids neg s k n).1.ey0 = s.ey0 ∧ (vlMids neg s k n).1.initial = s.initial
  | 0, k, s, _, _, h => by
    simp only [vlMids, Int.natCast_zero, Int.add_zero]
    exact ⟨h, Draws.empty _ _ _ _, by omega, Tidy.nil _ _, trivial, trivial⟩
  | n + 1, k, s, h0, h1, h => by
    have hfy : s.fy0 = 0 := by rw [h.b.fy0, top_mid h0]; omega
    have r : Row p0 p1 k := ⟨by omega, by omega⟩
    have hv := h.step hl.y r h0 (by omega)
    obtain ⟨a1, a2, a3, _⟩ := vlRow_spec neg hl hs hg hx r hv
    have est := vlMid_state neg k hfy
    have a2' : Draws p0 p1 neg k (k + 1) (vlMid neg s k).2 := a2.of_acc (vlMid_acc neg k hfy h.fy1)
    have a4 := vlMid_tidy neg (s := s) k
    have hp := a1.toVP r (by omega) hv
    rw [← est] at hp a1 a3
    obtain ⟨b1, b2, b3, b4, b5, b6⟩ := vlMids_spec neg hl hs hg hx n (k + 1) (vlMid neg s k).1 (by omega) (by omega) hp
    have a3' : s.ex0 ≤ (vlMid neg s k).1.ex0 := a3
    simp only [vlMids]
    have ek : k + ((n + 1 : Nat) : Int) = k + 1 + n := by omega
    rw [ek]
    refine ⟨b1, a2'.append b2 (by omega) (by omega), by omega, ?_, ?_, ?_⟩
    · exact (a4.mono (by omega) (by omega)).append (b4.mono (by omega) (by omega))
    · rw [b5]; exact a1.ey0
    · rw [b6]; exact a1.init

theorem vrMid_state (neg : Bool) {s : St} (y : Int) (h : s.fy0 = 0) : (vrMid neg s y).1 = (vrRow neg (nextX s) y).1 := by
  unfold vrMid vrRow
  simp only []
  by_cases c1 : (nextX s).fx0 - (nextX s).xDlt < 0
  · rw [if_pos c1, if_pos c1]
    by_cases c2 : (nextX s).fx0 = 0
    · rw [if_pos c2, if_pos c2]
      exact (nextY_fy0 { nextX s with ex0 := (nextX s).ex0 - 1, fx0 := (nextX s).fx0 - (nextX s).xDlt + 256, yDlt := (nextX s).yDlt % 256 } h).symm
    · rw [if_neg c2, if_neg c2]
      exact (nextY_fy0 { nextX s with ex0 := (nextX s).ex0 - 1, fx0 := (nextX s).fx0 - (nextX s).xDlt + 256, yDlt := (nextX s).yDlt % 256 } h).symm
  · rw [if_neg c1, if_neg c1]
    have : (nextX s).fy0 = 0 := h
    simp only [← this]

theorem vrMid_acc (neg : Bool) {s : St} (y : Int) (h : s.fy0 = 0) (h' : s.fy1 = 256) (y' x : Int) :
    acc y' x (vrMid neg s y).2 = acc y' x (vrRow neg (nextX s) y).2 := by
  have e0 : (nextX s).fy0 = 0 := h
  have e1 : (nextX s).fy1 = 256 := h'
  unfold vrMid vrRow
  simp only []
  by_cases c1 : (nextX s).fx0 - (nextX s).xDlt < 0
  · rw [if_pos c1, if_pos c1]
    by_cases c2 : (nextX s).fx0 = 0
    · rw [if_pos c2, if_pos c2]
      have e2 : ∀ t : St, (nextY t).fy1 = t.fy1 := fun _ => rfl
      have e3 : ∀ t : St, (nextY t).fy0 = t.fy0 := fun _ => rfl
      simp [e0, e1, e2, e3]
    · rw [if_neg c2, if_neg c2]
      simp only [acc_append, acc_merge, acc_bit, acc_cell, acc_nil, e0, e1, sg_eq, mergeAt]
      by_cases cy : y = y'
      · simp only [cy, true_and, if_true]
        have e2 : (nextX s).ex0 - 1 + 1 = (nextX s).ex0 := by omega
        have e3 : (nextX s).ex0 - 1 + 2 = (nextX s).ex0 + 1 := by omega
        rw [e2, e3]
        generalize (nextX s).ex0 = e
        by_cases q1 : x < e - 1
        · rw [if_neg (by omega), if_neg (by omega), if_neg (by omega), if_pos (by omega), if_pos (by omega)]; ring
        · by_cases q2 : x = e - 1
          · rw [if_neg (by omega), if_pos (by omega), if_neg (by omega), if_pos (by omega), if_neg q1, if_pos q2]; ring
          · by_cases q3 : x = e
            · rw [if_neg (by omega), if_pos (by omega), if_pos (by omega), if_neg (by omega), if_pos q3, if_neg q1, if_neg q2]
              ring
            · rw [if_pos (by omega), if_pos (by omega), if_pos (by omega), if_neg (by omega), if_neg q3, if_neg q1, if_neg q2]
              ring
      · simp [cy]
  · rw [if_neg c1, if_neg c1]
    simp [e0, e1]

theorem vrMid_tidy (neg : Bool) {s : St} (y : Int) : Tidy (vrMid neg s y).1.ex0 s.ex0 (vrMid neg s y).2 := by
  unfold vrMid
  simp only []
  have e : (nextX s).ex0 = s.ex0 := rfl
  by_cases c1 : (nextX s).fx0 - (nextX s).xDlt < 0
  · rw [if_pos c1]
    by_cases c2 : (nextX s).fx0 = 0
    · rw [if_pos c2]
      exact Tidy.one (by show s.ex0 - 1 ≤ s.ex0 - 1; omega) (by show s.ex0 - 1 ≤ s.ex0; omega)
    · rw [if_neg c2]
      refine Tidy.two (y := y) (e := s.ex0 - 1) (by show s.ex0 - 1 ≤ s.ex0 - 1; omega) (by omega) (by simp [e]) (by simp [e]) ?_ ?_
      · intro y a b hm
        simp only [bit, e, List.mem_cons, Ev.mark.injEq, List.not_mem_nil, or_false, reduceCtorEq] at hm
        omega
      · intro y a b hm
        simp only [bit, e, List.mem_cons, Ev.cell.injEq, List.not_mem_nil, or_false, reduceCtorEq, false_or] at hm
        omega
  · rw [if_neg c1]
    exact Tidy.one (by show s.ex0 ≤ s.ex0; omega) (by show s.ex0 ≤ s.ex0; omega)

theorem vrMids_spec {p0 p1 : Pt} (neg : Bool) (hl : Line p0 p1) (hs : adx p0 p1 ≤ p1.y - p0.y)
    (hg : ¬ Glitch p0 p1) (hx : ¬ p0.x ≤ p1.x) : ∀ (n : Nat) (k : Int) (s : St), p0.y < 256 * k →
    k + n ≤ (p1.y - 1) / 256 → VP p0 p1 k s →
    VP p0 p1 (k + n) (vrMids neg s k n).1 ∧ Draws p0 p1 neg k (k + n) (vrMids neg s k n).2 ∧
    (vrMids neg s k n).1.ex0 ≤ s.ex0 ∧ Tidy (vrMids neg s k n).1.ex0 s.ex0 (vrMids neg s k n).2 ∧
    (vrMids neg s k n).1.ey0 = s.ey0 ∧ (vrMids neg s k n).1.initial = s.initial
  | 0, k, s, _, _, h => by
    simp only [vrMids, Int.natCast_zero, Int.add_zero]
    exact ⟨h, Draws.empty _ _ _ _, by omega, Tidy.nil _ _, trivial, trivial⟩
  | n + 1, k, s, h0, h1, h => by
    have hfy : s.fy0 = 0 := by rw [h.b.fy0, top_mid h0]; omega
    have r : Row p0 p1 k := ⟨by omega, by omega⟩
    have hv := h.step hl.y r h0 (by omega)
    obtain ⟨a1, a2, a3, _⟩ := vrRow_spec neg hl hs hg hx r hv
    have est := vrMid_state neg k hfy
    have a2' : Draws p0 p1 neg k (k + 1) (vrMid neg s k).2 := a2.of_acc (vrMid_acc neg k hfy h.fy1)
    have a4 := vrMid_tidy neg (s := s) k
    have hp := a1.toVP r (by omega) hv
    rw [← est] at hp a1 a3
    obtain ⟨b1, b2, b3, b4, b5, b6⟩ := vrMids_spec neg hl hs hg hx n (k + 1) (vrMid neg s k).1 (by omega) (by omega) hp
    have a3' : (vrMid neg s k).1.ex0 ≤ s.ex0 := a3
    simp only [vrMids]
    have ek : k + ((n + 1 : Nat) : Int) = k + 1 + n := by omega
    rw [ek]
    refine ⟨b1, a2'.append b2 (by omega) (by omega), by omega, ?_, ?_, ?_⟩
    · exact (a4.mono (by omega) (by omega)).append (b4.mono (by omega) (by omega))
    · rw [b5]; exact a1.ey0
    · rw [b6]; exact a1.init

/-- The recorded bounds hold all that is written, and they lie within the edge. -/
def Bounded (p0 p1 : Pt) (log : List Ev) : Prop :=
  ∃ lo hi, Ev.minX lo ∈ log ∧ Ev.maxX hi ∈ log ∧ Tidy lo hi log ∧ min p0.x p1.x / 256 ≤ lo ∧ lo ≤ hi ∧
    hi ≤ max p0.x p1.x / 256 ∧ (∀ m, Ev.minX m ∈ log → m = lo) ∧ (∀ m, Ev.maxX m ∈ log → m = hi)

/-- What `rasterize` must do from scanline `k` to scanline `last`: draw these, and say whether the line ends there. -/
structure Out (p0 p1 : Pt) (neg : Bool) (k last : Int) (P : St → Prop) (res : Bool × St × List Ev) : Prop where
  draws : Draws p0 p1 neg k (last + 1) res.2.2
  bounded : Bounded p0 p1 res.2.2
  ret : res.1 = decide (last = (p1.y - 1) / 256)
  next : last < (p1.y - 1) / 256 → P res.2.1

/-- No bounds are recorded by the rows themselves. -/
def NoRec (log : List Ev) : Prop := ∀ m, Ev.minX m ∉ log ∧ Ev.maxX m ∉ log

theorem NoRec.append {l m : List Ev} (h : NoRec l) (h' : NoRec m) : NoRec (l ++ m) := by
  intro x
  simp only [List.mem_append, not_or]
  exact ⟨⟨(h x).1, (h' x).1⟩, (h x).2, (h' x).2⟩

theorem vlRow_noRec (neg : Bool) (s : St) (y : Int) : NoRec (vlRow neg s y).2 := by
  intro m
  unfold vlRow
  simp only []
  split_ifs <;> simp [bit, merge]

theorem vrRow_noRec (neg : Bool) (s : St) (y : Int) : NoRec (vrRow neg s y).2 := by
  intro m
  unfold vrRow
  simp only []
  split_ifs <;> simp [bit, merge]

theorem vlMids_noRec (neg : Bool) : ∀ (n : Nat) (s : St) (y : Int), NoRec (vlMids neg s y n).2
  | 0, _, _ => by intro m; simp [vlMids]
  | n + 1, s, y => by
    simp only [vlMids]
    refine NoRec.append ?_ (vlMids_noRec neg n _ _)
    intro m
    unfold vlMid
    simp only []
    split_ifs <;> simp [bit, merge]

theorem vrMids_noRec (neg : Bool) : ∀ (n : Nat) (s : St) (y : Int), NoRec (vrMids neg s y n).2
  | 0, _, _ => by intro m; simp [vrMids]
  | n + 1, s, y => by
    simp only [vrMids]
    refine NoRec.append ?_ (vrMids_noRec neg n _ _)
    intro m
    unfold vrMid
    simp only []
    split_ifs <;> simp [bit, merge]

theorem bounded_mk {p0 p1 : Pt} {lo hi : Int} {log : List Ev} {a b : Ev} (hn : NoRec log) (ht : Tidy lo hi log)
    (hab : (a = .minX lo ∧ b = .maxX hi) ∨ (a = .maxX hi ∧ b = .minX lo))
    (h0 : min p0.x p1.x / 256 ≤ lo) (h1 : lo ≤ hi) (h2 : hi ≤ max p0.x p1.x / 256) :
    Bounded p0 p1 (a :: log ++ [b]) := by
  refine ⟨lo, hi, ?_, ?_, ?_, h0, h1, h2, ?_, ?_⟩
  · rcases hab with ⟨e1, e2⟩ | ⟨e1, e2⟩ <;> subst e1 e2 <;> simp
  · rcases hab with ⟨e1, e2⟩ | ⟨e1, e2⟩ <;> subst e1 e2 <;> simp
  · have ha : Tidy lo hi [a] := by
      rcases hab with ⟨e1, e2⟩ | ⟨e1, e2⟩ <;> subst e1
      · exact Tidy.minX _ _ _
      · exact Tidy.maxX _ _ _
    have hb : Tidy lo hi [b] := by
      rcases hab with ⟨e1, e2⟩ | ⟨e1, e2⟩ <;> subst e2
      · exact Tidy.maxX _ _ _
      · exact Tidy.minX _ _ _
    exact (ha.append ht).append hb
  · intro m hm
    have := (hn m).1
    rcases hab with ⟨e1, e2⟩ | ⟨e1, e2⟩ <;> subst e1 e2 <;> simp_all
  · intro m hm
    have := (hn m).2
    rcases hab with ⟨e1, e2⟩ | ⟨e1, e2⟩ <;> subst e1 e2 <;> simp_all

theorem draws_wrap {p0 p1 : Pt} {neg : Bool} {k l : Int} {log : List Ev} {a b : Ev} (h : Draws p0 p1 neg k l log)
    (ha : ∀ y x m, acc y x (a :: m) = acc y x m) (hb : ∀ y x, acc y x [b] = 0) :
    Draws p0 p1 neg k l (a :: log ++ [b]) := by
  apply h.of_acc
  intro y x
  rw [List.cons_append, ha, acc_append, hb]
  omega

theorem VB.range_ltr {p0 p1 : Pt} {k : Int} {s : St} (hl : Line p0 p1) (hx : p0.x ≤ p1.x) (r : Row p0 p1 k)
    (h : VB p0 p1 k s) : p0.x / 256 ≤ s.ex0 ∧ s.ex0 ≤ p1.x / 256 := by
  have hp := h.pos
  have h0 := h.f0
  have h1 := h.f1
  have hlt := r.lt hl.y
  have g := gone_le hl.y r.top_ge (by have := r.bottom_le; omega)
  rw [xAt_gone_ltr hx] at hp
  unfold adx at g
  rw [if_pos hx] at g
  omega

theorem VB.range_rtl {p0 p1 : Pt} {k : Int} {s : St} (hl : Line p0 p1) (hx : ¬ p0.x ≤ p1.x) (r : Row p0 p1 k)
    (h : VB p0 p1 k s) : p1.x / 256 ≤ s.ex0 ∧ s.ex0 ≤ p0.x / 256 := by
  have hp := h.pos
  have h0 := h.f0
  have h1 := h.f1
  have hlt := r.lt hl.y
  have g := gone_le hl.y r.top_ge (by have := r.bottom_le; omega)
  rw [xAt_gone_rtl hx] at hp
  unfold adx at g
  rw [if_neg hx] at g
  omega

theorem After.range_ltr {p0 p1 : Pt} {k : Int} {s t : St} (hl : Line p0 p1) (hx : p0.x ≤ p1.x) (r : Row p0 p1 k)
    (h : After p0 p1 k s t) : p0.x / 256 ≤ t.ex0 ∧ t.ex0 ≤ p1.x / 256 := by
  have hp := h.pos
  have h0 := h.f0
  have h1 := h.f1
  have hlt := r.lt hl.y
  have g := gone_le hl.y (y := bottom p1 k) (by have := r.top_ge; omega) r.bottom_le
  rw [xAt_gone_ltr hx] at hp
  unfold adx at g
  rw [if_pos hx] at g
  omega

theorem After.range_rtl {p0 p1 : Pt} {k : Int} {s t : St} (hl : Line p0 p1) (hx : ¬ p0.x ≤ p1.x) (r : Row p0 p1 k)
    (h : After p0 p1 k s t) : p1.x / 256 ≤ t.ex0 ∧ t.ex0 ≤ p0.x / 256 := by
  have hp := h.pos
  have h0 := h.f0
  have h1 := h.f1
  have hlt := r.lt hl.y
  have g := gone_le hl.y (y := bottom p1 k) (by have := r.top_ge; omega) r.bottom_le
  rw [xAt_gone_rtl hx] at hp
  unfold adx at g
  rw [if_neg hx] at g
  omega

/-- The next state of a steep line at the start of a band. -/
def NextV (p0 p1 : Pt) (last : Int) (init : Bool) (t : St) : Prop :=
  VI p0 p1 (last + 1) t ∧ t.ey0 = last + 1 ∧ t.initial = init

theorem vertLtr_spec {p0 p1 : Pt} {k last : Int} {s : St} {i : Nat} (neg banding : Bool) (hl : Line p0 p1)
    (hs : adx p0 p1 ≤ p1.y - p0.y) (hg : ¬ Glitch p0 p1) (hx : p0.x ≤ p1.x) (r : Row p0 p1 k) (h : VI p0 p1 k s)
    (hk : k ≤ last) (hlast : last ≤ (p1.y - 1) / 256)
    (hi : (i : Int) = last - k + if last < (p1.y - 1) / 256 then 1 else 0)
    (hb : banding = true → s.ey0 = last + 1) (hnb : banding = false → last = (p1.y - 1) / 256) :
    Out p0 p1 neg k last (NextV p0 p1 last s.initial) (vertLtr neg banding s k i) := by
  obtain ⟨a1, a2, a3, a4⟩ := vlRow_spec neg hl hs hg hx r h
  have a5 := vlRow_noRec neg s k
  have hey := h.b.con.ey1
  have hr0 := h.b.range_ltr hl hx r
  have hmin : min p0.x p1.x = p0.x := by omega
  have hmax : max p0.x p1.x = p1.x := by omega
  have ey1r : (vlRow neg s k).1.ey1 = s.ey1 := by rw [a1.con.ey1, hey]
  unfold vertLtr
  simp only []
  by_cases c0 : i = 0
  · rw [if_pos c0]
    have hlk : last = k ∧ last = (p1.y - 1) / 256 := by
      split_ifs at hi <;> omega
    have hr1 := a1.range_ltr hl hx r
    have hout : ∀ st b, b = true → Out p0 p1 neg k last (NextV p0 p1 last s.initial)
        (b, st, Ev.minX s.ex0 :: (vlRow neg s k).2 ++ [.maxX (vlRow neg s k).1.ex0]) := by
      intro st b hbt
      refine ⟨?_, ?_, ?_, fun hc => absurd hc (by omega)⟩
      · rw [hlk.1]
        exact draws_wrap a2 (fun _ _ _ => rfl) (fun _ _ => rfl)
      · exact bounded_mk a5 a4 (Or.inl ⟨rfl, rfl⟩) (by omega) a3 (by omega)
      · rw [hbt]; symm; exact decide_eq_true hlk.2
    unfold vlDone
    cases hbd : banding
    · rw [if_neg (by simp)]
      exact hout _ _ rfl
    · rw [if_pos rfl, if_pos (by rw [ey1r, a1.ey0, hb hbd, hey]; omega)]
      exact hout _ _ rfl
  · rw [if_neg c0]
    have hkl : k < (p1.y - 1) / 256 := by
      split_ifs at hi <;> omega
    have hp := a1.toVP r hkl h
    have htop := r.top_succ
    obtain ⟨b1, b2, b3, b4, b5, b6⟩ := vlMids_spec neg hl hs hg hx (i - 1) (k + 1) (vlRow neg s k).1 (by omega)
      (by split_ifs at hi <;> omega) hp
    have b7 := vlMids_noRec neg (i - 1) (vlRow neg s k).1 (k + 1)
    have eki : k + 1 + ((i - 1 : Nat) : Int) = k + i := by omega
    rw [eki] at b1 b2
    generalize hq : vlMids neg (vlRow neg s k).1 (k + 1) (i - 1) = q at *
    have eq0 : q.1.ey0 = s.ey0 := by rw [b5, a1.ey0]
    have eq1 : q.1.ey1 = s.ey1 := by rw [b1.b.con.ey1, hey]
    have hdraw : Draws p0 p1 neg k (k + i) ((vlRow neg s k).2 ++ q.2) := a2.append b2 (by omega) (by omega)
    have htidy : Tidy s.ex0 q.1.ex0 ((vlRow neg s k).2 ++ q.2) :=
      (a4.mono (by omega) (by omega)).append (b4.mono (by omega) (by omega))
    by_cases c1 : last < (p1.y - 1) / 256
    · rw [if_pos c1] at hi
      have hbt : banding = true := by
        cases hbd : banding
        · exact absurd (hnb hbd) (by omega)
        · rfl
      have e1 : k + (i : Int) = last + 1 := by omega
      rw [e1] at hdraw b1
      have rq : Row p0 p1 (last + 1) := ⟨by have := r.lo; omega, by omega⟩
      have hrq := b1.b.range_ltr hl hx rq
      have hout : ∀ st, NextV p0 p1 last s.initial st → Out p0 p1 neg k last (NextV p0 p1 last s.initial)
          (false, st, Ev.minX s.ex0 :: (vlRow neg s k).2 ++ q.2 ++ [.maxX q.1.ex0]) := by
        intro st hst
        refine ⟨?_, ?_, ?_, fun _ => hst⟩
        · rw [List.cons_append]
          exact draws_wrap hdraw (fun _ _ _ => rfl) (fun _ _ => rfl)
        · rw [List.cons_append]
          exact bounded_mk (a5.append b7) htidy (Or.inl ⟨rfl, rfl⟩) (by omega) (by omega) (by omega)
        · symm
          exact decide_eq_false (by omega)
      rw [if_pos hbt]
      by_cases c2 : q.1.ey0 ≥ q.1.ey1
      · rw [if_pos c2]
        have e2 : last + 1 = (p1.y - 1) / 256 := by
          rw [eq0, eq1, hb hbt, hey] at c2; omega
        have hv := vlLast_spec hl hx (by omega) (e2 ▸ b1)
        have c3 : (vlLast q.1).ey0 = (vlLast q.1).ey1 := by
          show q.1.ey0 = q.1.ey1
          rw [eq0, eq1, hb hbt, hey]; omega
        rw [if_pos c3]
        apply hout
        refine ⟨e2 ▸ hv, ?_, ?_⟩
        · show q.1.ey0 = _
          rw [eq0, hb hbt]
        · show q.1.initial = _
          rw [b6, a1.init]
      · rw [if_neg c2]
        apply hout
        refine ⟨b1.step hl.y rq (by omega) (by rw [eq0, eq1, hb hbt, hey] at c2; omega), ?_, ?_⟩
        · show q.1.ey0 = _
          rw [eq0, hb hbt]
        · show q.1.initial = _
          rw [b6, a1.init]
    · rw [if_neg c1] at hi
      have e1 : k + (i : Int) = (p1.y - 1) / 256 := by omega
      have e2 : last = (p1.y - 1) / 256 := by omega
      rw [e1] at hdraw b1
      have hv := vlLast_spec hl hx (by omega) b1
      have rq : Row p0 p1 ((p1.y - 1) / 256) := ⟨by have := r.lo; omega, by omega⟩
      obtain ⟨z1, z2, z3, z4⟩ := vlRow_spec neg hl hs hg hx rq hv
      have z5 := vlRow_noRec neg (vlLast q.1) ((p1.y - 1) / 256)
      have z3' : q.1.ex0 ≤ (vlRow neg (vlLast q.1) ((p1.y - 1) / 256)).1.ex0 := z3
      have hr1 := z1.range_ltr hl hx rq
      have hout : ∀ st b, b = true → Out p0 p1 neg k last (NextV p0 p1 last s.initial)
          (b, st, Ev.minX s.ex0 :: (vlRow neg s k).2 ++ q.2 ++ (vlRow neg (vlLast q.1) ((p1.y - 1) / 256)).2
            ++ [.maxX (vlRow neg (vlLast q.1) ((p1.y - 1) / 256)).1.ex0]) := by
        intro st b hbt
        refine ⟨?_, ?_, ?_, fun hc => absurd hc (by omega)⟩
        · rw [List.cons_append, List.cons_append, e2]
          exact draws_wrap (hdraw.append z2 (by omega) (by omega)) (fun _ _ _ => rfl) (fun _ _ => rfl)
        · rw [List.cons_append, List.cons_append]
          exact bounded_mk ((a5.append b7).append z5)
            ((htidy.mono (by omega) (by omega)).append (z4.mono (by show s.ex0 ≤ q.1.ex0; omega) (by omega))) (Or.inl ⟨rfl, rfl⟩)
            (by omega) (by omega) (by omega)
        · rw [hbt]; symm; exact decide_eq_true e2
      have ez1 : (vlRow neg (vlLast q.1) ((p1.y - 1) / 256)).1.ey1 = s.ey1 := by rw [z1.con.ey1, hey]
      have ez0 : (vlRow neg (vlLast q.1) ((p1.y - 1) / 256)).1.ey0 = s.ey0 := by
        rw [z1.ey0]; exact eq0
      cases hbd : banding
      · rw [if_neg (by simp), e1]
        unfold vlDone
        rw [if_neg (by simp)]
        exact hout _ _ rfl
      · rw [if_pos rfl, if_pos (by rw [eq0, eq1, hb hbd, hey]; omega), if_neg (by
          show ¬ q.1.ey0 = q.1.ey1
          rw [eq0, eq1, hb hbd, hey]; omega), e1]
        unfold vlDone
        rw [if_pos rfl, if_pos (by rw [ez0, ez1, hb hbd, hey]; omega)]
        exact hout _ _ rfl

theorem vertRtl_spec {p0 p1 : Pt} {k last : Int} {s : St} {i : Nat} (neg banding : Bool) (hl : Line p0 p1)
    (hs : adx p0 p1 ≤ p1.y - p0.y) (hg : ¬ Glitch p0 p1) (hx : ¬ p0.x ≤ p1.x) (r : Row p0 p1 k) (h : VI p0 p1 k s)
    (hk : k ≤ last) (hlast : last ≤ (p1.y - 1) / 256)
    (hi : (i : Int) = last - k + if last < (p1.y - 1) / 256 then 1 else 0)
    (hb : banding = true → s.ey0 = last + 1) (hnb : banding = false → last = (p1.y - 1) / 256) :
    Out p0 p1 neg k last (NextV p0 p1 last s.initial) (vertRtl neg banding s k i) := by
  obtain ⟨a1, a2, a3, a4⟩ := vrRow_spec neg hl hs hg hx r h
  have a5 := vrRow_noRec neg s k
  have hey := h.b.con.ey1
  have hr0 := h.b.range_rtl hl hx r
  have hmin : min p0.x p1.x = p1.x := by omega
  have hmax : max p0.x p1.x = p0.x := by omega
  have ey1r : (vrRow neg s k).1.ey1 = s.ey1 := by rw [a1.con.ey1, hey]
  unfold vertRtl
  simp only []
  by_cases c0 : i = 0
  · rw [if_pos c0]
    have hlk : last = k ∧ last = (p1.y - 1) / 256 := by
      split_ifs at hi <;> omega
    have hr1 := a1.range_rtl hl hx r
    have hout : ∀ st b, b = true → Out p0 p1 neg k last (NextV p0 p1 last s.initial)
        (b, st, Ev.maxX s.ex0 :: (vrRow neg s k).2 ++ [.minX (vrRow neg s k).1.ex0]) := by
      intro st b hbt
      refine ⟨?_, ?_, ?_, fun hc => absurd hc (by omega)⟩
      · rw [hlk.1]
        exact draws_wrap a2 (fun _ _ _ => rfl) (fun _ _ => rfl)
      · exact bounded_mk a5 a4 (Or.inr ⟨rfl, rfl⟩) (by omega) a3 (by omega)
      · rw [hbt]; symm; exact decide_eq_true hlk.2
    unfold vrDone
    cases hbd : banding
    · rw [if_neg (by simp)]
      exact hout _ _ rfl
    · rw [if_pos rfl, if_pos (by rw [ey1r, a1.ey0, hb hbd, hey]; omega)]
      exact hout _ _ rfl
  · rw [if_neg c0]
    have hkl : k < (p1.y - 1) / 256 := by
      split_ifs at hi <;> omega
    have hp := a1.toVP r hkl h
    have htop := r.top_succ
    obtain ⟨b1, b2, b3, b4, b5, b6⟩ := vrMids_spec neg hl hs hg hx (i - 1) (k + 1) (vrRow neg s k).1 (by omega)
      (by split_ifs at hi <;> omega) hp
    have b7 := vrMids_noRec neg (i - 1) (vrRow neg s k).1 (k + 1)
    have eki : k + 1 + ((i - 1 : Nat) : Int) = k + i := by omega
    rw [eki] at b1 b2
    generalize hq : vrMids neg (vrRow neg s k).1 (k + 1) (i - 1) = q at *
    have eq0 : q.1.ey0 = s.ey0 := by rw [b5, a1.ey0]
    have eq1 : q.1.ey1 = s.ey1 := by rw [b1.b.con.ey1, hey]
    have hdraw : Draws p0 p1 neg k (k + i) ((vrRow neg s k).2 ++ q.2) := a2.append b2 (by omega) (by omega)
    have htidy : Tidy q.1.ex0 s.ex0 ((vrRow neg s k).2 ++ q.2) :=
      (a4.mono (by omega) (by omega)).append (b4.mono (by omega) (by omega))
    by_cases c1 : last < (p1.y - 1) / 256
    · rw [if_pos c1] at hi
      have hbt : banding = true := by
        cases hbd : banding
        · exact absurd (hnb hbd) (by omega)
        · rfl
      have e1 : k + (i : Int) = last + 1 := by omega
      rw [e1] at hdraw b1
      have rq : Row p0 p1 (last + 1) := ⟨by have := r.lo; omega, by omega⟩
      have hrq := b1.b.range_rtl hl hx rq
      have hout : ∀ st, NextV p0 p1 last s.initial st → Out p0 p1 neg k last (NextV p0 p1 last s.initial)
          (false, st, Ev.maxX s.ex0 :: (vrRow neg s k).2 ++ q.2 ++ [.minX q.1.ex0]) := by
        intro st hst
        refine ⟨?_, ?_, ?_, fun _ => hst⟩
        · rw [List.cons_append]
          exact draws_wrap hdraw (fun _ _ _ => rfl) (fun _ _ => rfl)
        · rw [List.cons_append]
          exact bounded_mk (a5.append b7) htidy (Or.inr ⟨rfl, rfl⟩) (by omega) (by omega) (by omega)
        · symm
          exact decide_eq_false (by omega)
      rw [if_pos hbt]
      by_cases c2 : q.1.ey0 ≥ q.1.ey1
      · rw [if_pos c2]
        have e2 : last + 1 = (p1.y - 1) / 256 := by
          rw [eq0, eq1, hb hbt, hey] at c2; omega
        have hv := vrLast_spec hl hx (by omega) (e2 ▸ b1)
        have c3 : (vrLast q.1).ey0 = (vrLast q.1).ey1 := by
          show q.1.ey0 = q.1.ey1
          rw [eq0, eq1, hb hbt, hey]; omega
        rw [if_pos c3]
        apply hout
        refine ⟨e2 ▸ hv, ?_, ?_⟩
        · show q.1.ey0 = _
          rw [eq0, hb hbt]
        · show q.1.initial = _
          rw [b6, a1.init]
      · rw [if_neg c2]
        apply hout
        refine ⟨b1.step hl.y rq (by omega) (by rw [eq0, eq1, hb hbt, hey] at c2; omega), ?_, ?_⟩
        · show q.1.ey0 = _
          rw [eq0, hb hbt]
        · show q.1.initial = _
          rw [b6, a1.init]
    · rw [if_neg c1] at hi
      have e1 : k + (i : Int) = (p1.y - 1) / 256 := by omega
      have e2 : last = (p1.y - 1) / 256 := by omega
      rw [e1] at hdraw b1
      have hv := vrLast_spec hl hx (by omega) b1
      have rq : Row p0 p1 ((p1.y - 1) / 256) := ⟨by have := r.lo; omega, by omega⟩
      obtain ⟨z1, z2, z3, z4⟩ := vrRow_spec neg hl hs hg hx rq hv
      have z5 := vrRow_noRec neg (vrLast q.1) ((p1.y - 1) / 256)
      have z3' : (vrRow neg (vrLast q.1) ((p1.y - 1) / 256)).1.ex0 ≤ q.1.ex0 := z3
      have hr1 := z1.range_rtl hl hx rq
      have hout : ∀ st b, b = true → Out p0 p1 neg k last (NextV p0 p1 last s.initial)
          (b, st, Ev.maxX s.ex0 :: (vrRow neg s k).2 ++ q.2 ++ (vrRow neg (vrLast q.1) ((p1.y - 1) / 256)).2
            ++ [.minX (vrRow neg (vrLast q.1) ((p1.y - 1) / 256)).1.ex0]) := by
        intro st b hbt
        refine ⟨?_, ?_, ?_, fun hc => absurd hc (by omega)⟩
        · rw [List.cons_append, List.cons_append, e2]
          exact draws_wrap (hdraw.append z2 (by omega) (by omega)) (fun _ _ _ => rfl) (fun _ _ => rfl)
        · rw [List.cons_append, List.cons_append]
          exact bounded_mk ((a5.append b7).append z5)
            ((htidy.mono (by omega) (by omega)).append (z4.mono (by omega) (by show q.1.ex0 ≤ s.ex0; omega))) (Or.inr ⟨rfl, rfl⟩)
            (by omega) (by omega) (by omega)
        · rw [hbt]; symm; exact decide_eq_true e2
      have ez1 : (vrRow neg (vrLast q.1) ((p1.y - 1) / 256)).1.ey1 = s.ey1 := by rw [z1.con.ey1, hey]
      have ez0 : (vrRow neg (vrLast q.1) ((p1.y - 1) / 256)).1.ey0 = s.ey0 := by
        rw [z1.ey0]; exact eq0
      cases hbd : banding
      · rw [if_neg (by simp), e1]
        unfold vrDone
        rw [if_neg (by simp)]
        exact hout _ _ rfl
      · rw [if_pos rfl, if_pos (by rw [eq0, eq1, hb hbd, hey]; omega), if_neg (by
          show ¬ q.1.ey0 = q.1.ey1
          rw [eq0, eq1, hb hbd, hey]; omega), e1]
        unfold vrDone
        rw [if_pos rfl, if_pos (by rw [ez0, ez1, hb hbd, hey]; omega)]
        exact hout _ _ rfl

end Blend2D.Raster
