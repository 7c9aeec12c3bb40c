import Verif.Deflate.Long

/-!
# Table building: the main table
-/

namespace Blend2D.Deflate

variable {results : List Entry} {tb cap : Nat}

/-- All short codewords, then all long ones. -/
theorem shortLoop_spec {cnt : Nat → Nat} (htb : tb ≤ 15) (hcap : 2 ^ tb ≤ cap) : ∀ (R : List (Nat × Nat)) (s l count P : Nat)
    (D : List (Nat × Nat × Nat)) (T : Tab),
    Lay P ((s, l) :: R) → l ≤ tb → Counts cnt ((s, l) :: R) l count →
    (∀ r ∈ (s, l) :: R, ∃ e, results[r.1]? = some e) →
    (R.any (fun r => decide (tb < r.2)) = true → 1 ≤ tb ∧ 2 ∣ cap ∧
      2 ^ tb + (R.filter (fun r => decide (tb < r.2))).length + 2 ^ (15 - tb) ≤ cap + 2 + (15 - tb)) →
    (∀ d ∈ D, Past P d ∧ d.2.1 ≤ l ∧ ShortGood results l T d) →
    ∃ T', shortLoop cap cnt results tb (s :: R.map Prod.fst) l count (rev 15 P) (2 ^ l) T = some T' ∧
      ∀ d ∈ D ++ placed P ((s, l) :: R), Good results tb cap T' d
  | R, s, l, count, P, D, T, hL, hl, hc, hres, hroom, hD => by
    have h15 := hL.2.1
    have hdv := hL.2.2.1
    have hPlt := hL.lt
    have hlast : rev 15 P = 2 ^ l - 1 ↔ P + wt l = 2 ^ 15 := rev15_last h15 hdv hPlt
    obtain ⟨e, he⟩ := hres (s, l) List.mem_cons_self
    have hrlt := rev15_lt h15 hdv
    have hple : 2 ^ l ≤ 2 ^ tb := Nat.pow_le_pow_right (by omega) hl
    -- The entry of the symbol.
    have hD1 : ∀ d ∈ D ++ [(s, l, P)], Past (P + wt l) d ∧ d.2.1 ≤ l ∧
        ShortGood results l (Function.update T (rev 15 P) (makeTop e l)) d := by
      intro d hd
      rcases List.mem_append.1 hd with hd | hd
      · obtain ⟨⟨p0, p1, p2, p3⟩, h2, h3⟩ := hD d hd
        refine ⟨⟨p0, p1, p2, by omega⟩, h2, ?_⟩
        intro e' he' i hi hm
        rw [Function.update_of_ne, h3 e' he' i hi hm]
        intro h
        rw [h] at hm
        exact rev15_noclash p1 p2 p3 hPlt hm
      · obtain rfl : d = (s, l, P) := by simpa using hd
        refine ⟨⟨hL.1, h15, hdv, Nat.le_refl _⟩, Nat.le_refl _, ?_⟩
        intro e' he' i hi hm
        simp only at he' hm
        rw [he] at he'
        obtain rfl := Option.some.inj he'
        rw [Nat.mod_eq_of_lt hi] at hm
        rw [hm, Function.update_self]
    generalize hT1 : Function.update T (rev 15 P) (makeTop e l) = T1 at hD1
    simp only [shortLoop, if_pos hl, he, Tab.write, if_pos (show rev 15 P < cap by omega), hT1]
    -- Copies of the table.
    have hcopy : ∀ (n : Nat) (T2 : Tab), l ≤ n → (∀ i < 2 ^ n, T2 i = T1 (i % 2 ^ l)) → ∀ d ∈ D ++ [(s, l, P)],
        ShortGood results n T2 d := by
      intro n T2 hn hT2 d hd e' he' i hi hm
      obtain ⟨_, h2, h3⟩ := hD1 d hd
      rw [hT2 i hi]
      apply h3 e' he' _ (Nat.mod_lt _ (Nat.two_pow_pos l))
      rw [Nat.mod_mod_of_dvd _ (Nat.pow_dvd_pow 2 h2)]
      exact hm
    cases R with
    | nil =>
      have hend : P + wt l = 2 ^ 15 := hL.2.2.2.2
      rw [if_pos (hlast.2 hend)]
      obtain ⟨T', g1, g2⟩ := growAll_spec (cap := cap) (tb - l) l T1 (by rw [show l + (tb - l) = tb by omega]; exact hcap)
      rw [show l + (tb - l) = tb by omega] at g2
      refine ⟨T', g1, ?_⟩
      intro d hd
      have hd : d ∈ D ++ [(s, l, P)] := hd
      exact ⟨fun _ => hcopy tb T' hl g2 d hd, fun h => by have := (hD1 d hd).2.1; omega⟩
    | cons r R =>
      obtain ⟨s', l'⟩ := r
      have hL' := hL.2.2.2.2
      have hlt : P + wt l < 2 ^ 15 := hL'.lt
      have hl' : l ≤ l' := hL.2.2.2.1 (s', l') List.mem_cons_self
      have hl'15 := hL'.2.1
      rw [if_neg (fun h => by have := hlast.1 h; omega), rev15_next h15 hdv hlt]
      obtain ⟨n1, n2⟩ := hc.next hL
      have hres' : ∀ r ∈ (s', l') :: R, ∃ e, results[r.1]? = some e := fun r hr => hres r (List.mem_cons_of_mem _ hr)
      have hmem : ∀ d ∈ D ++ placed P ((s, l) :: (s', l') :: R), d ∈ (D ++ [(s, l, P)]) ++ placed (P + wt l) ((s', l') :: R) := by
        intro d hd
        simpa [placed] using hd
      have hroom' : (R.any (fun r => decide (tb < r.2)) = true → 1 ≤ tb ∧ 2 ∣ cap ∧
          2 ^ tb + (R.filter (fun r => decide (tb < r.2))).length + 2 ^ (15 - tb) ≤ cap + 2 + (15 - tb)) := by
        intro h
        obtain ⟨x1, x2, x3⟩ := hroom (by simp [h])
        refine ⟨x1, x2, ?_⟩
        rw [List.filter_cons] at x3
        split at x3
        · simp only [List.length_cons] at x3; omega
        · exact x3
      by_cases h0 : count - 1 = 0
      · obtain ⟨m1, m2, m3, m4⟩ := n2 h0
        rw [if_neg (by omega)]
        obtain ⟨T2, g1, g2⟩ := nextLen_spec (cap := cap) (cnt := cnt) (tb := tb) hcap m3 hl'15 16 l T1 m1 (by omega) m2
        rw [Nat.min_eq_left hl] at g1 g2
        simp only [g1]
        by_cases hs : l' ≤ tb
        · rw [Nat.min_eq_left hs] at g1 g2 ⊢
          obtain ⟨T', f1, f2⟩ := shortLoop_spec htb hcap R s' l' (cnt l') (P + wt l) (D ++ [(s, l, P)]) T2 hL' hs m4 hres' hroom'
            (fun d hd => ⟨(hD1 d hd).1, by have := (hD1 d hd).2.1; omega, hcopy l' T2 hl' g2 d hd⟩)
          exact ⟨T', f1, fun d hd => f2 d (hmem d hd)⟩
        · rw [Nat.min_eq_right (by omega)] at g1 g2 ⊢
          obtain ⟨x1, x2, x3⟩ := hroom (by simp; left; omega)
          have hall : ∀ r ∈ (s', l') :: R, l' ≤ r.2 := by
            intro r hr
            rcases List.mem_cons.1 hr with rfl | hr
            · exact Nat.le_refl _
            · exact hL'.2.2.2.1 r hr
          have hflt : ((s', l') :: R).filter (fun r => decide (tb < r.2)) = (s', l') :: R := by
            rw [List.filter_eq_self]
            intro r hr
            have := hall r hr
            simp only [decide_eq_true_eq]
            omega
          rw [hflt] at x3
          have hready : Ready results tb cap (D ++ [(s, l, P)]) (P + wt l) l' ((s', l') :: R) ⟨none, 0, 2 ^ tb⟩ T2 := by
            constructor
            · exact Nat.le_refl _
            · exact hcap
            · obtain ⟨k, rfl⟩ : ∃ k, tb = k + 1 := ⟨tb - 1, by omega⟩
              show 2 ∣ 2 ^ (k + 1)
              rw [Nat.pow_succ]; exact Nat.dvd_mul_left _ _
            · have hfm := fmono (show 1 ≤ l' - tb by omega)
              show 2 ^ tb + _ + 2 ^ (15 - tb) + (l' - tb) ≤ _
              generalize 2 ^ (l' - tb) = A at *
              generalize 2 ^ (15 - tb) = B at *
              omega
            · exact fun d hd => (hD1 d hd).1
            · intro d hd r hr
              have := (hD1 d hd).2.1
              have := hall r hr
              omega
            · exact fun d hd _ => hcopy tb T2 hl g2 d hd
            · intro d hd h
              have := (hD1 d hd).2.1
              omega
          have hdv' : wt tb ∣ P + wt l :=
            (Nat.dvd_add_right (Nat.dvd_trans (wt_dvd hl) hdv)).2 (wt_dvd hl)
          obtain ⟨T', f1, f2⟩ := longLoop_spec (cnt := cnt) x2 R s' l' (cnt l') (P + wt l) (D ++ [(s, l, P)]) ⟨none, 0, 2 ^ tb⟩ T2 hL'
            (by omega) m4 hres' (Or.inl ⟨hdv', rfl, hready⟩)
          refine ⟨T', ?_, fun d hd => f2 d (hmem d hd)⟩
          simp only [List.map_cons, shortLoop, if_neg hs]
          exact f1
      · obtain ⟨rfl, m2⟩ := n1 h0
        rw [if_pos h0]
        obtain ⟨T', f1, f2⟩ := shortLoop_spec htb hcap R s' l' (count - 1) (P + wt l') (D ++ [(s, l', P)]) T1 hL' hl m2 hres' hroom'
          hD1
        exact ⟨T', f1, fun d hd => f2 d (hmem d hd)⟩

end Blend2D.Deflate
