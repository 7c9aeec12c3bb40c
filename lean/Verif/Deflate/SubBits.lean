import Verif.Deflate.Short

/-!
# The size of a subtable
-/

namespace Blend2D.Deflate

/-- The prefix of a placed codeword. -/
abbrev pref (tb : Nat) (d : Nat × Nat × Nat) : Nat := d.2.2 / wt tb

theorem wt_mul {tb k : Nat} (h : tb + k ≤ 15) : wt tb = 2 ^ k * wt (tb + k) := by
  rw [wt, wt, ← Nat.pow_add]; congr 1; omega

theorem sum_const {α : Type} (L : List α) (f : α → Nat) (c : Nat) (h : ∀ x ∈ L, f x = c) : (L.map f).sum = L.length * c := by
  induction L with
  | nil => simp
  | cons a L ih =>
    simp only [List.map_cons, List.sum_cons, List.length_cons]
    rw [h a List.mem_cons_self, ih (fun x hx => h x (List.mem_cons_of_mem _ hx)), Nat.add_mul]
    omega

theorem sum_filter {α : Type} (L : List α) (f : α → Nat) (p : α → Bool) :
    (L.map f).sum = ((L.filter p).map f).sum + ((L.filter (fun x => !p x)).map f).sum := by
  induction L with
  | nil => rfl
  | cons a L ih =>
    simp only [List.map_cons, List.sum_cons, List.filter_cons]
    cases h : p a <;> simp [ih] <;> omega

theorem length_filter_split {α : Type} (L : List α) (p : α → Bool) :
    L.length = (L.filter p).length + (L.filter (fun x => !p x)).length := by
  induction L with
  | nil => rfl
  | cons a L ih =>
    simp only [List.length_cons, List.filter_cons]
    cases h : p a <;> simp [ih] <;> omega

theorem placed_V (m : Nat) : ∀ (P : Nat) (R : List (Nat × Nat)),
    (((placed P R).filter (fun d => decide (d.2.1 ≤ m))).map (fun d => wt d.2.1)).sum = V m R
  | _, [] => rfl
  | P, (s, l) :: R => by
    simp only [placed, V, List.filter_cons]
    by_cases h : l ≤ m
    · simp [h, placed_V m (P + wt l) R]
    · simp [h, placed_V m (P + wt l) R]

theorem placed_cntLe (m P : Nat) (R : List (Nat × Nat)) :
    ((placed P R).filter (fun d => decide (d.2.1 ≤ m))).length = cntLe R m := by
  induction R generalizing P with
  | nil => rfl
  | cons r R ih =>
    obtain ⟨s, l⟩ := r
    simp only [placed, cntLe, List.countP_cons, List.filter_cons] at ih ⊢
    by_cases h : l ≤ m
    · simp [h, ih]
    · simp [h, ih]

/-- The loop that finds the number of bits of a subtable. -/
theorem subBits_loop {cnt : Nat → Nat} {tb a q : Nat} {R : List (Nat × Nat)} (hL : Lay (q * wt tb) R) (hq : q < 2 ^ tb)
    (htb : tb ≤ 15) (hlen : ∀ r ∈ R, tb + a ≤ r.2) (hcnt : ∀ k, tb + a < k → cnt k = cntL R k) :
    ∀ (fuel k used : Nat), a ≤ k → tb + k ≤ 15 → 15 < tb + k + fuel → used * wt (tb + k) = V (tb + k) R →
      (∀ d ∈ placed (q * wt tb) R, d.2.1 < tb + k → pref tb d = q) →
      2 ^ a + (k - a) + used ≤ cntLe R (tb + k) + 2 ^ k →
      ∃ b, subBits cnt tb fuel k used = some b ∧ a ≤ b ∧ tb + b ≤ 15 ∧
        (∀ d ∈ placed (q * wt tb) R, pref tb d = q → d.2.1 ≤ tb + b) ∧
        (∀ d ∈ placed (q * wt tb) R, pref tb d ≠ q → tb + b ≤ d.2.1) ∧
        2 ^ a + (b - a) ≤ ((placed (q * wt tb) R).filter (fun d => decide (pref tb d = q))).length
  | 0, k, used, h1, h2, h3, _, _, _ => by omega
  | fuel + 1, k, used, h1, h2, h3, hV, hB, hN => by
    have hpos : 0 < wt tb := wt_pos tb
    have hposk : 0 < wt (tb + k) := wt_pos (tb + k)
    have hwt := wt_mul h2
    have hend : (q + 1) * wt tb ≤ 2 ^ 15 := by
      rw [pow_split htb]
      exact Nat.mul_le_mul_right _ hq
    have e1 : (q + 1) * wt tb = q * wt tb + wt tb := by rw [Nat.add_mul]; omega
    have hpref : ∀ d ∈ placed (q * wt tb) R, (pref tb d = q ↔ d.2.2 < (q + 1) * wt tb) := by
      intro d hd
      have := (hL.facts hd).2.2.2.1
      constructor
      · intro h
        have := Nat.lt_mul_div_succ d.2.2 hpos
        rw [show d.2.2 / wt tb = q from h, Nat.mul_comm] at this
        exact this
      · intro h
        exact Nat.div_eq_of_lt_le this h
    by_cases hu : used < 2 ^ k
    · have hlt : tb + k < 15 := by
        by_contra h
        have e : tb + k = 15 := by omega
        have hv := hL.V_all
        rw [e] at hV hwt hposk
        have : wt 15 = 1 := by simp [wt]
        rw [this] at hV hwt
        omega
      have hsm : V (tb + k) R < wt tb := by
        rw [← hV, hwt]
        exact (Nat.mul_lt_mul_right hposk).2 hu
      simp only [subBits, if_pos hu, if_neg (show ¬ 15 < tb + (k + 1) by omega)]
      apply subBits_loop hL hq htb hlen hcnt fuel (k + 1) _ (by omega) (by omega) (by omega)
      · rw [← Nat.add_assoc, V_succ, ← hV, hcnt _ (by omega), Nat.add_mul]
        congr 1
        have : wt (tb + k) = 2 * wt (tb + k + 1) := by
          rw [wt, wt, ← Nat.pow_succ']; congr 1; omega
        rw [this, Nat.mul_assoc]
      · intro d hd hdl
        rw [hpref d hd]
        have h1 := hL.before hd (show d.2.1 ≤ tb + k by omega)
        have := wt_pos d.2.1
        omega
      · rw [show tb + (k + 1) = tb + k + 1 from rfl, cntLe_succ, hcnt _ (by omega), Nat.pow_succ]
        omega
    · have hVk : wt tb ≤ V (tb + k) R := by
        rw [← hV, hwt]
        exact Nat.mul_le_mul_right _ (by omega)
      have hi : ∀ d ∈ placed (q * wt tb) R, pref tb d = q → d.2.1 ≤ tb + k := by
        intro d hd hq
        by_contra hlt
        have := hL.after hd (show tb + k < d.2.1 by omega)
        rw [hpref d hd] at hq
        omega
      have hii : ∀ d ∈ placed (q * wt tb) R, pref tb d ≠ q → tb + k ≤ d.2.1 := by
        intro d hd hq
        by_contra hlt
        exact hq (hB d hd (by omega))
      refine ⟨k, by simp only [subBits, if_neg hu], h1, h2, hi, hii, ?_⟩
      -- Count the symbols of the block.
      have hblock := hL.block (tb := tb) (Y := (q + 1) * wt tb) (Nat.dvd_mul_left _ _) (by omega) hend
        (fun r hr => by have := hlen r hr; omega)
      generalize hX : placed (q * wt tb) R = X at *
      have eqF : X.filter (fun d => decide (d.2.2 < (q + 1) * wt tb)) = X.filter (fun d => decide (pref tb d = q)) := by
        apply List.filter_congr
        intro d hd
        simp only [decide_eq_decide]
        exact (hpref d hd).symm
      rw [eqF] at hblock
      have hc := placed_cntLe (tb + k) (q * wt tb) R
      have hv := placed_V (tb + k) (q * wt tb) R
      rw [hX] at hc hv
      have hs := sum_filter (X.filter (fun d => decide (d.2.1 ≤ tb + k))) (fun d => wt d.2.1) (fun d => decide (pref tb d = q))
      have hs1 : (X.filter (fun d => decide (d.2.1 ≤ tb + k))).filter (fun d => decide (pref tb d = q)) =
          X.filter (fun d => decide (pref tb d = q)) := by
        rw [List.filter_filter]
        apply List.filter_congr
        intro d hd
        by_cases h : pref tb d = q
        · simp [h, hi d hd h]
        · simp [h]
      have hs2 := sum_const ((X.filter (fun d => decide (d.2.1 ≤ tb + k))).filter (fun d => !decide (pref tb d = q)))
        (fun d => wt d.2.1) (wt (tb + k)) (by
          intro d hd
          simp only [List.mem_filter, decide_eq_true_eq, Bool.not_eq_true', decide_eq_false_iff_not] at hd
          have := hii d hd.1.1 hd.2
          have e : d.2.1 = tb + k := by omega
          rw [e])
      have hl : (X.filter (fun d => decide (d.2.1 ≤ tb + k))).length =
          (X.filter (fun d => decide (pref tb d = q))).length +
          ((X.filter (fun d => decide (d.2.1 ≤ tb + k))).filter (fun d => !decide (pref tb d = q))).length := by
        rw [← hs1]
        exact length_filter_split _ _
      rw [hs1, hs2, hv, ← hV, hblock] at hs
      generalize ((X.filter (fun d => decide (d.2.1 ≤ tb + k))).filter (fun d => !decide (pref tb d = q))).length = y at *
      have : used = 2 ^ k + y := by
        have e2 : (q + 1) * wt tb - q * wt tb = 2 ^ k * wt (tb + k) := by omega
        rw [e2, ← Nat.add_mul] at hs
        exact Nat.eq_of_mul_eq_mul_right hposk hs
      omega

/-- The number of bits is enough for the codewords with the prefix, no codeword beyond is shorter, and the block has many
symbols. -/
theorem subBits_spec {cnt : Nat → Nat} {tb q s l count : Nat} {R : List (Nat × Nat)} (hL : Lay (q * wt tb) ((s, l) :: R))
    (hq : q < 2 ^ tb) (hl : tb < l) (hc : Counts cnt ((s, l) :: R) l count) :
    ∃ b, subBits cnt tb 16 (l - tb) count = some b ∧ l - tb ≤ b ∧ tb + b ≤ 15 ∧
      (∀ d ∈ placed (q * wt tb) ((s, l) :: R), pref tb d = q → d.2.1 ≤ tb + b) ∧
      (∀ d ∈ placed (q * wt tb) ((s, l) :: R), pref tb d ≠ q → tb + b ≤ d.2.1) ∧
      2 ^ (l - tb) + (b - (l - tb)) ≤
        ((placed (q * wt tb) ((s, l) :: R)).filter (fun d => decide (pref tb d = q))).length := by
  have hge : ∀ r ∈ (s, l) :: R, l ≤ r.2 := by
    intro r hr
    rcases List.mem_cons.1 hr with rfl | hr
    · exact Nat.le_refl _
    · exact hL.2.2.2.1 r hr
  have h15 := hL.2.1
  have e : tb + (l - tb) = l := by omega
  apply subBits_loop hL hq (by omega) (a := l - tb) (by rw [e]; exact hge) (by rw [e]; exact hc.2) 16 (l - tb) count
    (Nat.le_refl _) (by omega) (by omega)
  · rw [e, V_first hge, hc.1]
  · intro d hd hlt
    have := hge _ (mem_placed hd)
    simp only at this
    omega
  · rw [e, cntLe_first hge, ← hc.1]
    omega

end Blend2D.Deflate
