import Verif.Raster.FlatLeftRun

/-! # Vertical lines and lines within one cell -/

namespace Blend2D.Raster
open Spec

/-- The state of a line that is vertical or stays in one cell when scanline `k` is ready to be drawn. -/
structure VV (p0 p1 : Pt) (k : Int) (s : St) : Prop where
  vs : s.vertOrSingle = true
  col : p0.x / 256 = p1.x / 256
  one : p0.y / 256 = (p1.y - 1) / 256 ∨ p0.x = p1.x
  ex0 : s.ex0 = p0.x / 256
  fx0 : s.fx0 = p0.x % 256
  fx1 : s.fx1 = p1.x % 256
  ey1 : s.ey1 = (p1.y - 1) / 256
  saved : s.savedFy1 = (p1.y - 1) % 256 + 1
  fy0 : s.fy0 = top p0 k - 256 * k
  fy1 : s.fy1 = bottom p1 k - 256 * k

theorem xAt_vertical {p0 p1 : Pt} (h : p0.x = p1.x) (y : Int) : xAt p0 p1 y = p0.x := by
  unfold xAt
  split_ifs with c1 c2 c3
  · rfl
  · exact h.symm
  · rw [h]
    rw [show (p1.x - p1.x) * (y - p0.y) = 0 by simp, round_zero (by omega)]
    omega
  · omega

theorem vv_cover {p0 p1 : Pt} {k : Int} (hy : p0.y < p1.y) (r : Row p0 p1 k) (hcol : p0.x / 256 = p1.x / 256)
    (h1 : p0.y / 256 = (p1.y - 1) / 256 ∨ p0.x = p1.x) (x : Int) :
    cover p0 p1 k x = mergeAt (p0.x / 256) (bottom p1 k - top p0 k)
      ((bottom p1 k - top p0 k) * (p0.x % 256 + p1.x % 256)) x := by
  have hlt := r.lt hy
  have hlo := r.lo
  have hhi := r.hi
  have ha : xAt p0 p1 (top p0 k) = p0.x ∧ xAt p0 p1 (bottom p1 k) = p1.x := by
    rcases h1 with h1 | h1
    · have : top p0 k = p0.y := by unfold top; omega
      have hb : bottom p1 k = p1.y := by unfold bottom; omega
      rw [this, hb]
      exact ⟨xAt_start p0 p1, xAt_end hy⟩
    · rw [xAt_vertical h1, xAt_vertical h1]
      exact ⟨rfl, h1⟩
  rw [cover_single hlt ha.1 ha.2 (e := p0.x / 256) (by omega) (by omega) (by omega) (by omega),
    show p0.x - 256 * (p0.x / 256) + (p1.x - 256 * (p0.x / 256)) = p0.x % 256 + p1.x % 256 by omega]

theorem vertRow_draws {p0 p1 : Pt} {k j h : Int} {s : St} (neg : Bool) (hy : p0.y < p1.y) (r : Row p0 p1 j)
    (v : VV p0 p1 k s) (hh : h = bottom p1 j - top p0 j) :
    Draws p0 p1 neg j (j + 1) (vertRow neg s j h) ∧ Tidy s.ex0 s.ex0 (vertRow neg s j h) ∧ NoRec (vertRow neg s j h) := by
  refine ⟨?_, ?_, ?_⟩
  · apply Draws.row
    intro y' X
    unfold vertRow
    rw [acc_append, acc_merge, acc_bit, vv_cover hy r v.col v.one, sg_eq, v.ex0, v.fx0, v.fx1, hh]
    by_cases cy : j = y'
    · rw [if_pos cy, if_pos cy]
      show _ + 0 = _
      unfold mergeAt
      split_ifs <;> ring
    · rw [if_neg cy, if_neg cy]
      rfl
  · refine Tidy.range (y := j) (by omega) (by simp [vertRow, bits, bit]) ?_ ?_
    · intro y' a b hm
      unfold vertRow at hm
      rcases List.mem_append.mp hm with hm | hm
      · exact (mem_merge_mark hm).elim
      · simp only [bit, List.mem_cons, Ev.mark.injEq, List.not_mem_nil, or_false] at hm
        omega
    · intro y' a b hm
      unfold vertRow at hm
      rcases List.mem_append.mp hm with hm | hm
      · exact mem_merge_cell hm
      · simp [bit] at hm
  · intro m
    simp [vertRow, bit, merge]

theorem vertRows_draws {p0 p1 : Pt} {k : Int} {s : St} (neg : Bool) (hy : p0.y < p1.y) (v : VV p0 p1 k s) :
    ∀ (n : Nat) (j : Int), p0.y < 256 * j → j + n ≤ (p1.y - 1) / 256 →
    Draws p0 p1 neg j (j + n) (vertRows neg s j n) ∧ Tidy s.ex0 s.ex0 (vertRows neg s j n) ∧ NoRec (vertRows neg s j n)
  | 0, j, _, _ => by
    simp only [vertRows, Int.natCast_zero, Int.add_zero]
    exact ⟨Draws.empty _ _ _ _, Tidy.nil _ _, by intro m; simp⟩
  | n + 1, j, h0, h1 => by
    obtain ⟨a1, a2, a3⟩ := vertRow_draws (j := j) (h := 256) neg hy ⟨by omega, by omega⟩ v (by unfold top bottom; omega)
    obtain ⟨b1, b2, b3⟩ := vertRows_draws neg hy v n (j + 1) (by omega) (by omega)
    simp only [vertRows]
    rw [show j + ((n + 1 : Nat) : Int) = j + 1 + n by omega]
    exact ⟨a1.append b1 (by omega) (by omega), a2.append b2, a3.append b3⟩

def NextVV (p0 p1 : Pt) (last : Int) (t : St) : Prop := VV p0 p1 (last + 1) t ∧ t.ey0 = last + 1

theorem vert_bounded {p0 p1 : Pt} {e : Int} {log : List Ev} (hcol : p0.x / 256 = p1.x / 256) (he : e = p0.x / 256)
    (hT : Tidy e e log) (hN : NoRec log) : Bounded p0 p1 ([Ev.minX e, .maxX e] ++ log) := by
  refine ⟨e, e, by simp, by simp, ?_, by omega, by omega, by omega, ?_, ?_⟩
  · exact (Tidy.append (l := [Ev.minX e]) (Tidy.minX _ _ _) (Tidy.maxX _ _ _)).append hT
  · intro m hm
    simp only [List.cons_append, List.nil_append, List.mem_cons, Ev.minX.injEq, reduceCtorEq, false_or] at hm
    rcases hm with hm | hm
    · exact hm
    · exact absurd hm (hN m).1
  · intro m hm
    simp only [List.cons_append, List.nil_append, List.mem_cons, Ev.maxX.injEq, reduceCtorEq, false_or] at hm
    rcases hm with hm | hm
    · exact hm
    · exact absurd hm (hN m).2

theorem vert_spec {p0 p1 : Pt} {k last : Int} {s : St} {i : Nat} (neg banding : Bool) (hy : p0.y < p1.y)
    (r : Row p0 p1 k) (h : VV p0 p1 k s) (hk : k ≤ last) (hlast : last ≤ (p1.y - 1) / 256) (hi : (i : Int) = last - k)
    (hb : banding = true → s.ey0 = last + 1) (hnb : banding = false → last = (p1.y - 1) / 256) :
    Out p0 p1 neg k last (NextVV p0 p1 last) (vert neg banding s k i) := by
  have hrl := r.lo
  obtain ⟨a1, a2, a3⟩ := vertRow_draws (h := s.fy1 - s.fy0) neg hy r h (by rw [h.fy0, h.fy1]; omega)
  have hnext : last < (p1.y - 1) / 256 → banding = true →
      NextVV p0 p1 last { s with fy0 := 0, fy1 := if s.ey0 = s.ey1 then s.savedFy1 else 256 } := by
    intro hl hbt
    have e0 := hb hbt
    refine ⟨⟨h.vs, h.col, h.one, h.ex0, h.fx0, h.fx1, h.ey1, h.saved, ?_, ?_⟩, e0⟩
    · show 0 = _
      unfold top; omega
    · show (if s.ey0 = s.ey1 then s.savedFy1 else 256) = _
      rw [e0, h.ey1, h.saved]
      unfold bottom
      split_ifs <;> omega
  have hout : ∀ (b : Bool) (st : St) (log : List Ev), b = decide (last = (p1.y - 1) / 256) →
      (last < (p1.y - 1) / 256 → NextVV p0 p1 last st) → Draws p0 p1 neg k (last + 1) log → Tidy s.ex0 s.ex0 log →
      NoRec log → Out p0 p1 neg k last (NextVV p0 p1 last) (b, st, [Ev.minX s.ex0, .maxX s.ex0] ++ log) := by
    intro b st log hbb hn hd hT hN
    exact ⟨hd.of_acc (fun _ _ => rfl), vert_bounded h.col h.ex0 hT hN, hbb, hn⟩
  unfold vert
  simp only []
  by_cases c : i = 0
  · rw [if_pos c]
    have hlk : last = k := by omega
    subst hlk
    cases hbd : banding
    · rw [if_neg (by simp)]
      exact hout _ _ _ (decide_eq_true (hnb hbd)).symm (fun hc => absurd (hnb hbd) (by omega)) a1 a2 a3
    · rw [if_pos rfl]
      have e0 := hb hbd
      by_cases c2 : s.ey0 > s.ey1
      · rw [if_pos c2]
        rw [e0, h.ey1] at c2
        exact hout _ _ _ (decide_eq_true (by omega)).symm (fun hc => absurd hc (by omega)) a1 a2 a3
      · rw [if_neg c2]
        rw [e0, h.ey1] at c2
        exact hout _ _ _ (decide_eq_false (by omega)).symm (fun hc => hnext hc hbd) a1 a2 a3
  · rw [if_neg c]
    obtain ⟨b1, b2, b3⟩ := vertRows_draws neg hy h (i - 1) (k + 1) (by omega) (by omega)
    rw [show k + 1 + ((i - 1 : Nat) : Int) = last by omega] at b1
    rw [show k + (i : Int) = last by omega]
    have r' : Row p0 p1 last := ⟨by omega, hlast⟩
    by_cases c2 : banding = true ∧ s.ey0 ≤ s.ey1
    · rw [if_pos c2]
      have e0 := hb c2.1
      have c3 := c2.2
      rw [e0, h.ey1] at c3
      obtain ⟨d1, d2, d3⟩ := vertRow_draws (h := 256) neg hy r' h (by unfold top bottom; omega)
      rw [List.append_assoc, List.append_assoc]
      exact hout _ _ _ (decide_eq_false (by omega)).symm (fun hc => hnext hc c2.1)
        (a1.append (b1.append d1 (by omega) (by omega)) (by omega) (by omega)) (a2.append (b2.append d2))
        (a3.append (b3.append d3))
    · rw [if_neg c2]
      have hle : last = (p1.y - 1) / 256 := by
        cases hbd : banding
        · exact hnb hbd
        · have e0 := hb hbd
          have : ¬ s.ey0 ≤ s.ey1 := fun hh => c2 ⟨hbd, hh⟩
          rw [e0, h.ey1] at this
          omega
      obtain ⟨d1, d2, d3⟩ := vertRow_draws (h := s.savedFy1) neg hy r' h (by rw [h.saved]; unfold top bottom; omega)
      rw [List.append_assoc, List.append_assoc]
      exact hout _ _ _ (decide_eq_true hle).symm (fun hc => absurd hc (by omega))
        (a1.append (b1.append d1 (by omega) (by omega)) (by omega) (by omega)) (a2.append (b2.append d2))
        (a3.append (b3.append d3))

end Blend2D.Raster
