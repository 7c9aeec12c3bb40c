import Verif.FillMask.Box
namespace Blend2D.FillMask
open Fill (Comp Row Good)
open Spec

/-- What `init_box_u_8bpc_24x8` has to achieve. -/
structure Result (alpha x0 y0 x1 y1 : Nat) (r : BoxU) : Prop where
  none : r.some = false → ∀ x y, boxMask alpha x0 y0 x1 y1 x y = 0
  some : r.some = true → ∃ a gs post, a < (x1 + 255) / 256 ∧ r.bufs.cmds = enc gs ++ post ∧
    Fits 255 r.bufs.mem (fun y x => boxMask alpha x0 y0 x1 y1 x y) a ((x1 + 255) / 256) gs r.y0 (r.y1 - r.y0) ∧ r.y0 < r.y1 ∧
    r.y1 ≤ (y1 + 255) / 256 ∧
    ∀ x y, ¬ (r.y0 ≤ y ∧ y < r.y1 ∧ a ≤ x ∧ x < (x1 + 255) / 256) → boxMask alpha x0 y0 x1 y1 x y = 0

theorem boxMask_zero_x {alpha x0 y0 x1 y1 x y : Nat} (h : cov x0 x1 x = 0) : boxMask alpha x0 y0 x1 y1 x y = 0 := by
  rw [boxMask, h]; simp

theorem boxMask_zero_y {alpha x0 y0 x1 y1 x y : Nat} (h : cov y0 y1 y = 0) : boxMask alpha x0 y0 x1 y1 x y = 0 := by
  rw [boxMask, h]; simp

section
variable {alpha x0 y0 x1 y1 : Nat}

theorem covy_top (h1 : y0 < y1) : cov y0 y1 (y0 / 256) =
    (if (y1 + 255) / 256 - y0 / 256 = 1 then (y1 - 1) % 256 + 1 else 256) - y0 % 256 := by
  rw [cov]; split <;> omega

theorem covy_mid {y : Nat} (h1 : y0 < y1) (a : y0 / 256 < y) (b : y < y0 / 256 + ((y1 + 255) / 256 - y0 / 256) - 1) : cov y0 y1 y = 256 := by
  rw [cov]; omega

theorem covy_bot (h1 : y0 < y1) (h : 2 ≤ (y1 + 255) / 256 - y0 / 256) :
    cov y0 y1 (y0 / 256 + ((y1 + 255) / 256 - y0 / 256) - 1) = (y1 - 1) % 256 + 1 := by
  rw [cov]; omega

theorem cov_out {x : Nat} (h : ¬ (x0 / 256 ≤ x ∧ x < (x1 + 255) / 256)) : cov x0 x1 x = 0 := by
  rw [cov]; omega

theorem finish (hx : x0 < x1) (hy : y0 < y1) (hlt : y1 + 255 < 2 ^ 32) {a m0 m2 : Nat} {flag : Bool} {top mid bot post : List Cmd}
    {mem : Mem} (ha : a ≤ x0 / 256)
    (ht : Chain 255 mem (fun x => boxMask alpha x0 y0 x1 y1 x (y0 / 256)) a ((x1 + 255) / 256) top)
    (hm : ∀ y, cov y0 y1 y = 256 → Chain 255 mem (fun x => boxMask alpha x0 y0 x1 y1 x y) a ((x1 + 255) / 256) mid)
    (hmid : mid.map Cmd.next = mid)
    (hb : ∀ y, cov y0 y1 y = (y1 - 1) % 256 + 1 → Chain 255 mem (fun x => boxMask alpha x0 y0 x1 y1 x y) a ((x1 + 255) / 256) bot)
    (hm0 : m0 = 0 → ∀ x, boxMask alpha x0 y0 x1 y1 x (y0 / 256) = 0)
    (hm2 : m2 = 0 → ∀ x y, cov y0 y1 y = (y1 - 1) % 256 + 1 → boxMask alpha x0 y0 x1 y1 x y = 0)
    (h02 : (y1 + 255) / 256 - y0 / 256 = 1 → m2 = 0 → m0 = 0)
    (hf1 : flag = true → y0 / 256 + (if m0 = 0 then 1 else 0) < y0 / 256 + ((y1 + 255) / 256 - y0 / 256) - if m2 = 0 then 1 else 0)
    (hf2 : flag = false → (¬ y0 / 256 + (if m0 = 0 then 1 else 0) < y0 / 256 + ((y1 + 255) / 256 - y0 / 256) - if m2 = 0 then 1 else 0) ∨
      ∀ x y, boxMask alpha x0 y0 x1 y1 x y = 0) :
    Result alpha x0 y0 x1 y1 ⟨flag, y0 / 256 + (if m0 = 0 then 1 else 0),
      y0 / 256 + ((y1 + 255) / 256 - y0 / 256) - (if m2 = 0 then 1 else 0),
      ⟨enc (groups ((y1 + 255) / 256 - y0 / 256) m0 top mid bot) ++ post, mem⟩⟩ := by
  obtain ⟨h, hh⟩ : ∃ h, (y1 + 255) / 256 - y0 / 256 = h := ⟨_, rfl⟩
  have hpos : 1 ≤ h := by omega
  -- a scanline that is not drawn is empty
  have hskip : ∀ x y, ¬ (y0 / 256 + (if m0 = 0 then 1 else 0) ≤ y ∧
      y < y0 / 256 + ((y1 + 255) / 256 - y0 / 256) - if m2 = 0 then 1 else 0) → boxMask alpha x0 y0 x1 y1 x y = 0 := by
    intro x y hn
    by_cases c : y0 / 256 ≤ y ∧ y < (y1 + 255) / 256
    · by_cases c1 : y < y0 / 256 + (if m0 = 0 then 1 else 0)
      · have c0 : m0 = 0 := by
          apply Classical.byContradiction; intro hne
          rw [if_neg hne] at c1; omega
        rw [if_pos c0] at c1
        rw [show y = y0 / 256 by omega]
        exact hm0 c0 x
      · have c2 : m2 = 0 := by
          apply Classical.byContradiction; intro hne
          rw [if_neg hne] at hn; omega
        rw [if_pos c2] at hn
        have ey : y = y0 / 256 + ((y1 + 255) / 256 - y0 / 256) - 1 := by omega
        by_cases c3 : 2 ≤ (y1 + 255) / 256 - y0 / 256
        · exact hm2 c2 x y (by rw [ey]; exact covy_bot hy c3)
        · have := h02 (by omega) c2
          rw [show y = y0 / 256 by omega]
          exact hm0 this x
    · exact boxMask_zero_y (cov_out c)
  refine ⟨?_, ?_⟩
  · intro hf x y
    rcases hf2 hf with h1 | h1
    · exact hskip x y (by omega)
    · exact h1 x y
  · intro hf
    have hlt2 := hf1 hf
    refine ⟨a, _, post, by omega, rfl, ?_, hlt2, ?_, ?_⟩
    · refine fits3 (h := (y1 + 255) / 256 - y0 / 256) (Y := y0 / 256) (by omega) rfl rfl hlt2 ht ?_ hmid ?_
      · intro y a b
        exact hm y (covy_mid hy a b)
      · intro h2
        exact hb _ (covy_bot hy h2)
    · simp only []
      split <;> omega
    · intro x y hn
      simp only [] at hn
      by_cases c : y0 / 256 + (if m0 = 0 then 1 else 0) ≤ y ∧
          y < y0 / 256 + ((y1 + 255) / 256 - y0 / 256) - if m2 = 0 then 1 else 0
      · exact boxMask_zero_x (cov_out (by omega))
      · exact hskip x y c

end

theorem narrow_ok {alpha x0 y0 x1 y1 : Nat} (ha : alpha ≤ 255) (hx : x0 < x1) (hy : y0 < y1) (hlt : y1 + 255 < 2 ^ 32)
    (hw : (x1 + 255) / 256 - x0 / 256 = 1) :
    ∃ r, boxNarrow alpha (x0 / 256) ((x1 + 255) / 256) (y0 / 256) ((y1 + 255) / 256 - y0 / 256) ((x1 - 1) % 256 + 1 - x0 % 256)
        (((if (y1 + 255) / 256 - y0 / 256 = 1 then (y1 - 1) % 256 + 1 else 256) - y0 % 256) * alpha)
        (((y1 - 1) % 256 + 1) * alpha) = some r ∧ Result alpha x0 y0 x1 y1 r := by
  rw [← covy_top hy]
  have hcx : cov x0 x1 (x0 / 256) = (x1 - 1) % 256 + 1 - x0 % 256 := by rw [cov]; omega
  rw [← hcx]
  have hm : ∀ x y, x0 / 256 ≤ x → x < (x1 + 255) / 256 → boxMask alpha x0 y0 x1 y1 x y =
      cov x0 x1 (x0 / 256) * cov y0 y1 y * alpha / 65536 := by
    intro x y h1 h2
    rw [boxMask, show x = x0 / 256 by omega]
  have hzx : ∀ y, cov x0 x1 (x0 / 256) * cov y0 y1 y * alpha / 65536 = 0 → ∀ x, boxMask alpha x0 y0 x1 y1 x y = 0 := by
    intro y hz x
    by_cases c : x0 / 256 ≤ x ∧ x < (x1 + 255) / 256
    · rw [hm x y c.1 c.2]; exact hz
    · exact boxMask_zero_x (cov_out c)
  have e0 := mask_assoc (cov x0 x1 (x0 / 256)) (cov y0 y1 (y0 / 256)) alpha
  have hcl := cov_le x0 x1 (x0 / 256)
  simp only [boxNarrow, ← e0]
  have hle0 := mask_le (f := alpha) hcl (cov_le y0 y1 (y0 / 256))
  have hle2 := mask_le (f := alpha) hcl (show (y1 - 1) % 256 + 1 ≤ 256 by omega)
  have e2 := mask_assoc (cov x0 x1 (x0 / 256)) ((y1 - 1) % 256 + 1) alpha
  have e1 := mask_r (cov x0 x1 (x0 / 256)) alpha
  have hle1 := mask_le (f := alpha) hcl (show 256 ≤ 256 by omega)
  rw [← e2, ← e1]
  generalize hg0 : cov x0 x1 (x0 / 256) * cov y0 y1 (y0 / 256) * alpha / 65536 = m0 at *
  generalize hg1 : cov x0 x1 (x0 / 256) * 256 * alpha / 65536 = m1 at *
  generalize hg2 : cov x0 x1 (x0 / 256) * ((y1 - 1) % 256 + 1) * alpha / 65536 = m2 at *
  have hlen : (Bufs.new.cmds.set 0 (cmask (x0 / 256) ((x1 + 255) / 256) m0)).length = 12 := rfl
  rw [show Bufs.new.cmd 0 (cmask (x0 / 256) ((x1 + 255) / 256) m0) =
    some ⟨Bufs.new.cmds.set 0 (cmask (x0 / 256) ((x1 + 255) / 256) m0), Bufs.new.mem⟩ from rfl]
  simp only [Option.bind_eq_bind, Option.bind_some]
  rw [show ∀ b : Bufs, b.cmd 1 (repeats 1) = some ⟨b.cmds.set 1 (repeats 1), b.mem⟩ from fun _ => rfl]
  simp only [Option.bind_some]
  have hchain : ∀ (mem : Mem) y m, m ≤ 255 → cov x0 x1 (x0 / 256) * cov y0 y1 y * alpha / 65536 = m →
      Chain 255 mem (fun x => boxMask alpha x0 y0 x1 y1 x y) (x0 / 256) ((x1 + 255) / 256) [cmask (x0 / 256) ((x1 + 255) / 256) m] := by
    intro mem y m h1 h2
    exact chain_const (by omega) h1 (fun x a b => by rw [hm x y a b, h2]) (Chain.nil _)
  by_cases h1 : (y1 + 255) / 256 - y0 / 256 = 1
  · rw [if_pos h1]
    refine ⟨_, rfl, ?_, ?_⟩
    · intro hz x y
      have hz : m0 = 0 := by simpa using hz
      by_cases c : y = y0 / 256
      · rw [c]; exact hzx _ (by rw [hg0]; exact hz) x
      · exact boxMask_zero_y (cov_out (by omega))
    · intro hz
      refine ⟨x0 / 256, [([cmask (x0 / 256) ((x1 + 255) / 256) m0], 1)], List.replicate 10 ⟨0, 0, 0, 0⟩, by omega, rfl, ?_, ?_, ?_, ?_⟩
      · refine ⟨by omega, by omega, fun t t1 t2 => ?_, fun c => ?_⟩
        · rw [show t = 0 by omega]
          exact hchain _ (y0 / 256) m0 (by omega) hg0
        · simp only [] at c; omega
      · simp only []; omega
      · simp only []; omega
      · intro x y hn
        simp only [] at hn
        by_cases c : x0 / 256 ≤ x ∧ x < (x1 + 255) / 256
        · exact boxMask_zero_y (cov_out (by omega))
        · exact boxMask_zero_x (cov_out c)
  · rw [if_neg h1]
    obtain ⟨post, hp⟩ := programs_one (b := ⟨(Bufs.new.cmds.set 0 (cmask (x0 / 256) ((x1 + 255) / 256) m0)).set 1 (repeats 1), Bufs.new.mem⟩)
      (by simp only [List.length_set]; rfl) (h := (y1 + 255) / 256 - y0 / 256) (m0 := m0) (by omega) (cmask (x0 / 256) ((x1 + 255) / 256) m0)
      (cmask (x0 / 256) ((x1 + 255) / 256) m1) (cmask (x0 / 256) ((x1 + 255) / 256) m2)
    rw [hp]
    simp only [Option.bind_some]
    refine ⟨_, rfl, finish hx hy hlt (Nat.le_refl _) (hchain _ _ _ (by omega) hg0) ?_ ?_ ?_ ?_ ?_ (fun c => absurd c h1) ?_ ?_⟩
    · intro y hc
      exact hchain _ _ _ (by omega) (by rw [hc, hg1])
    · simp [next_cmask]
    · intro y hc
      exact hchain _ _ _ (by omega) (by rw [hc, hg2])
    · intro hz; exact hzx _ (by rw [hg0, hz])
    · intro hz x y hc; exact hzx _ (by rw [hc, hg2, hz]) x
    · intro hf
      exact (of_decide_eq_true hf).1
    · intro hf
      have := of_decide_eq_false hf
      by_cases c : m1 = 0
      · refine .inr fun x y => hzx y ?_ x
        have : cov x0 x1 (x0 / 256) * cov y0 y1 y * alpha ≤ cov x0 x1 (x0 / 256) * 256 * alpha :=
          Nat.mul_le_mul_right _ (Nat.mul_le_mul_left _ (cov_le ..))
        omega
      · exact .inl fun h => this ⟨h, c⟩

/-- Covered completely or partially, in the general case. -/
theorem zero_row {alpha x0 y0 x1 y1 y : Nat} (h : cov y0 y1 y * alpha / 2 ^ 8 = 0) (x : Nat) : boxMask alpha x0 y0 x1 y1 x y = 0 := by
  rw [boxMask]
  refine mask_mono (c' := 256) (cov_le ..) ?_
  rw [mask_l]; exact h

theorem even_ok {alpha x0 y0 x1 y1 : Nat} (ha : alpha ≤ 255) (hx : x0 < x1) (hy : y0 < y1) (hlt : y1 + 255 < 2 ^ 32)
    (hx0 : x0 % 256 = 0) (hx1 : x1 % 256 = 0) :
    ∃ r, boxEven alpha (x0 / 256) ((x1 + 255) / 256) (y0 / 256) ((y1 + 255) / 256 - y0 / 256)
        (((if (y1 + 255) / 256 - y0 / 256 = 1 then (y1 - 1) % 256 + 1 else 256) - y0 % 256) * alpha)
        (((y1 - 1) % 256 + 1) * alpha) = some r ∧ Result alpha x0 y0 x1 y1 r := by
  rw [← covy_top hy]
  have hm : ∀ x y, x0 / 256 ≤ x → x < (x1 + 255) / 256 → boxMask alpha x0 y0 x1 y1 x y = cov y0 y1 y * alpha / 2 ^ 8 := by
    intro x y h1 h2
    have : cov x0 x1 x = 256 := by rw [cov]; omega
    rw [boxMask, this, mask_l]
  have hle : ∀ c, c ≤ 256 → c * alpha / 2 ^ 8 ≤ 255 := by
    intro c hc
    have : c * alpha ≤ 256 * alpha := Nat.mul_le_mul_right _ hc
    omega
  have hchain : ∀ (mem : Mem) y m, m ≤ 255 → cov y0 y1 y * alpha / 2 ^ 8 = m →
      Chain 255 mem (fun x => boxMask alpha x0 y0 x1 y1 x y) (x0 / 256) ((x1 + 255) / 256) [cmask (x0 / 256) ((x1 + 255) / 256) m] := by
    intro mem y m h1 h2
    exact chain_const (by omega) h1 (fun x a b => by rw [hm x y a b, h2]) (Chain.nil _)
  simp only [boxEven]
  obtain ⟨post, hp⟩ := programs_one (b := Bufs.new) rfl (h := (y1 + 255) / 256 - y0 / 256) (m0 := cov y0 y1 (y0 / 256) * alpha / 2 ^ 8)
    (by omega) (cmask (x0 / 256) ((x1 + 255) / 256) (cov y0 y1 (y0 / 256) * alpha / 2 ^ 8)) (cmask (x0 / 256) ((x1 + 255) / 256) alpha)
    (cmask (x0 / 256) ((x1 + 255) / 256) (((y1 - 1) % 256 + 1) * alpha / 2 ^ 8))
  rw [hp]
  simp only [Option.bind_eq_bind, Option.bind_some]
  refine ⟨_, rfl, finish hx hy hlt (Nat.le_refl _) (hchain _ _ _ (hle _ (cov_le ..)) rfl) ?_ ?_ ?_ ?_ ?_ ?_ ?_ ?_⟩
  · intro y hc
    exact hchain _ _ _ ha (by rw [hc]; omega)
  · simp [next_cmask]
  · intro y hc
    exact hchain _ _ _ (hle _ (by omega)) (by rw [hc])
  · intro hz; exact zero_row hz
  · intro hz x y hc; exact zero_row (by rw [hc]; exact hz) x
  · intro h1 hz
    rw [covy_top hy, if_pos h1]
    have : ((y1 - 1) % 256 + 1 - y0 % 256) * alpha ≤ ((y1 - 1) % 256 + 1) * alpha := Nat.mul_le_mul_right _ (by omega)
    omega
  · intro hf
    exact of_decide_eq_true hf
  · intro hf
    exact .inl (of_decide_eq_false hf)

end Blend2D.FillMask
