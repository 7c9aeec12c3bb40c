import Verif.Deflate.Canon

/-!
# The tables are large enough

The number of entries that subtables need is bounded by the number of long codewords.  That number is bounded because the
short codewords, which fill the rest of the codespace, are at least as many as the one bits of the rest.
-/

namespace Blend2D.Deflate

open Spec

/-- The number of one bits. -/
def pc : Nat → Nat
  | 0 => 0
  | n + 1 => (n + 1) % 2 + pc ((n + 1) / 2)
decreasing_by omega

theorem pc_step (n : Nat) : pc n = n % 2 + pc (n / 2) := by
  cases n with
  | zero => simp [pc]
  | succ n => rw [pc]

theorem pc_succ_le (n : Nat) : pc (n + 1) ≤ pc n + 1 := by
  induction n using Nat.strongRecOn with
  | ind n ih =>
    rw [pc_step (n + 1), pc_step n]
    by_cases h : n % 2 = 0
    · rw [show (n + 1) % 2 = 1 by omega, show (n + 1) / 2 = n / 2 by omega]; omega
    · rw [show (n + 1) % 2 = 0 by omega, show (n + 1) / 2 = n / 2 + 1 by omega]
      have := ih (n / 2) (by omega)
      omega

theorem pc_add_pow (k n : Nat) : pc (n + 2 ^ k) ≤ pc n + 1 := by
  induction k generalizing n with
  | zero => exact pc_succ_le n
  | succ k ih =>
    rw [pc_step (n + 2 ^ (k + 1)), pc_step n, Nat.pow_succ]
    rw [show (n + 2 ^ k * 2) % 2 = n % 2 by omega, show (n + 2 ^ k * 2) / 2 = n / 2 + 2 ^ k by omega]
    have := ih (n / 2)
    omega

theorem pc_sum (L : List Nat) : pc ((L.map (fun k => 2 ^ k)).sum) ≤ L.length := by
  induction L with
  | nil => simp [pc]
  | cons k L ih =>
    simp only [List.map_cons, List.sum_cons, List.length_cons]
    rw [Nat.add_comm]
    have := pc_add_pow k (L.map (fun k => 2 ^ k)).sum
    omega

theorem wsum_filter (S : List (Nat × Nat)) (p : Nat × Nat → Bool) :
    wsum S = wsum (S.filter p) + wsum (S.filter (fun r => !p r)) := sum_filter S _ p

/-- The weights of short codewords. -/
theorem wsum_short {tb : Nat} (htb : tb ≤ 15) (A : List (Nat × Nat)) (hA : ∀ r ∈ A, r.2 ≤ tb) :
    wsum A = (A.map (fun r => 2 ^ (tb - r.2))).sum * wt tb := by
  induction A with
  | nil => simp [wsum]
  | cons a A ih =>
    have ih := ih (fun r hr => hA r (List.mem_cons_of_mem _ hr))
    have h := hA a List.mem_cons_self
    simp only [wsum, List.map_cons, List.sum_cons, Nat.add_mul] at ih ⊢
    rw [ih]
    congr 1
    rw [wt, wt, ← Nat.pow_add]
    congr 1
    omega

theorem wsum_long {tb : Nat} (L : List (Nat × Nat)) (hL : ∀ r ∈ L, tb < r.2) : wsum L ≤ L.length * wt (tb + 1) := by
  induction L with
  | nil => simp [wsum]
  | cons a L ih =>
    have ih := ih (fun r hr => hL r (List.mem_cons_of_mem _ hr))
    have h := wt_le (show tb + 1 ≤ a.2 from hL a List.mem_cons_self)
    simp only [wsum, List.map_cons, List.sum_cons, List.length_cons, Nat.add_mul] at ih ⊢
    omega

/-- How many short codewords there are. -/
theorem short_count {tb : Nat} (htb : tb < 15) {S : List (Nat × Nat)} (hS : wsum S = 2 ^ 15) :
    ∃ n, 2 * n ≤ (S.filter (fun r => decide (tb < r.2))).length ∧
      (S.filter (fun r => decide (tb < r.2)) ≠ [] → 1 ≤ n) ∧ n ≤ 2 ^ tb ∧
      pc (2 ^ tb - n) + (S.filter (fun r => decide (tb < r.2))).length ≤ S.length := by
  have h1 := wsum_filter S (fun r => decide (tb < r.2))
  have h2 := length_filter_split S (fun r => decide (tb < r.2))
  have hA : ∀ r ∈ S.filter (fun r => !decide (tb < r.2)), r.2 ≤ tb := by
    intro r hr
    simp only [List.mem_filter, Bool.not_eq_true', decide_eq_false_iff_not] at hr
    omega
  have hLm : ∀ r ∈ S.filter (fun r => decide (tb < r.2)), tb < r.2 := by
    intro r hr
    simp only [List.mem_filter, decide_eq_true_eq] at hr
    exact hr.2
  have h3 := wsum_short (by omega) _ hA
  have h4 := wsum_long _ hLm
  have h5 := pc_sum ((S.filter (fun r => !decide (tb < r.2))).map (fun r => tb - r.2))
  rw [List.map_map, List.length_map] at h5
  simp only [Function.comp_def] at h5
  generalize S.filter (fun r => !decide (tb < r.2)) = A at *
  generalize hLd : S.filter (fun r => decide (tb < r.2)) = L at *
  generalize (A.map (fun r => 2 ^ (tb - r.2))).sum = x at *
  have hp := pow_split (show tb ≤ 15 by omega)
  have hw : wt tb = 2 * wt (tb + 1) := by rw [wt, wt, ← Nat.pow_succ']; congr 1; omega
  have hwp := wt_pos tb
  have hx : x ≤ 2 ^ tb := by
    apply Nat.le_of_mul_le_mul_right _ hwp
    rw [← hp, ← hS, h1, ← h3]
    omega
  have hn : wsum L = (2 ^ tb - x) * wt tb := by
    rw [Nat.sub_mul, ← h3]
    have : 2 ^ tb * wt tb = 2 ^ 15 := hp.symm
    omega
  refine ⟨2 ^ tb - x, ?_, ?_, by omega, ?_⟩
  · apply Nat.le_of_mul_le_mul_right _ (wt_pos (tb + 1))
    rw [hn, hw] at h4
    rw [Nat.mul_comm 2, Nat.mul_assoc]
    exact h4
  · intro hne
    by_contra h0
    have hz : 2 ^ tb - x = 0 := by omega
    rw [hz, Nat.zero_mul] at hn
    cases L with
    | nil => exact hne rfl
    | cons a L =>
      simp only [wsum, List.map_cons, List.sum_cons] at hn
      have := wt_pos a.2
      omega
  · rw [show 2 ^ tb - (2 ^ tb - x) = x by omega]
    omega

theorem canon_length (lens : List Nat) : (canon lens).length ≤ lens.length := by
  have h : ∀ m, (canonTo lens m).length ≤ lens.countP (fun l => decide (l ≤ m)) := by
    intro m
    induction m with
    | zero => simp [canonTo]
    | succ m ih =>
      rw [canonTo_succ, List.length_append, List.length_map, symsOf_length]
      have : ∀ L : List Nat, L.countP (fun l => decide (l ≤ m + 1)) = L.countP (fun l => decide (l ≤ m)) + L.count (m + 1) := by
        intro L
        induction L with
        | nil => rfl
        | cons a L ih =>
          simp only [List.countP_cons, List.count_cons, ih]
          by_cases h1 : a ≤ m
          · simp [h1, show a ≤ m + 1 by omega, show a ≠ m + 1 by omega]; omega
          · by_cases h2 : a = m + 1
            · simp [h2, show ¬ m + 1 ≤ m by omega]; omega
            · simp [h1, h2, show ¬ a ≤ m + 1 by omega]
      rw [this]
      omega
  rw [canon_eq]
  exact Nat.le_trans (h 15) List.countP_le_length

theorem long_nonempty {S : List (Nat × Nat)} {tb : Nat} (h : S.any (fun r => decide (tb < r.2)) = true) :
    S.filter (fun r => decide (tb < r.2)) ≠ [] := by
  rw [List.any_eq_true] at h
  obtain ⟨r, h1, h2⟩ := h
  intro he
  have : r ∈ S.filter (fun r => decide (tb < r.2)) := List.mem_filter.2 ⟨h1, h2⟩
  rw [he] at this
  cases this

/-- Enough room for literals and lengths. -/
theorem room_litlen {S : List (Nat × Nat)} (hS : wsum S = 2 ^ 15) (hn : S.length ≤ 288)
    (h : S.any (fun r => decide (11 < r.2)) = true) :
    2 ^ 11 + (S.filter (fun r => decide (11 < r.2))).length + 2 ^ (15 - 11) ≤ 2342 + 2 + (15 - 11) := by
  obtain ⟨n, h1, h2, h3, h4⟩ := short_count (tb := 11) (by omega) hS
  have h2 := h2 (long_nonempty h)
  have hpc : ∀ n ≤ 144, 1 ≤ n → 4 ≤ pc (2 ^ 11 - n) := by decide +kernel
  have := hpc n (by omega) h2
  omega

/-- Enough room for offsets. -/
theorem room_offset {S : List (Nat × Nat)} (hS : wsum S = 2 ^ 15) (hn : S.length ≤ 32)
    (h : S.any (fun r => decide (9 < r.2)) = true) :
    2 ^ 9 + (S.filter (fun r => decide (9 < r.2))).length + 2 ^ (15 - 9) ≤ 594 + 2 + (15 - 9) := by
  obtain ⟨n, h1, h2, h3, h4⟩ := short_count (tb := 9) (by omega) hS
  have h2 := h2 (long_nonempty h)
  have hpc : ∀ n ≤ 16, 1 ≤ n → 5 ≤ pc (2 ^ 9 - n) := by decide +kernel
  have := hpc n (by omega) h2
  have hpc2 : ∀ n ≤ 13, 1 ≤ n → 6 ≤ pc (2 ^ 9 - n) := by decide +kernel
  have := hpc2 n (by omega) h2
  omega

theorem cntL_canon (lens : List Nat) (k m : Nat) (h1 : 1 ≤ k) : cntL (canonTo lens m) k = if k ≤ m then lenCount lens k else 0 := by
  induction m with
  | zero => simp [canonTo, cntL]; omega
  | succ m ih =>
    have e : cntL (canonTo lens (m + 1)) k = cntL (canonTo lens m) k + cntL ((symsOf lens (m + 1)).map (fun s => (s, m + 1))) k := by
      rw [canonTo_succ]; simp [cntL, List.countP_append]
    rw [e, ih]
    have e2 : cntL ((symsOf lens (m + 1)).map (fun s => (s, m + 1))) k = if m + 1 = k then lenCount lens k else 0 := by
      simp only [cntL, List.countP_map]
      by_cases h : m + 1 = k
      · subst h
        rw [if_pos rfl, lenCount, ← symsOf_length, List.countP_eq_length]
        intro a _
        simp
      · rw [if_neg h, List.countP_eq_zero]
        intro a _
        simpa using h
    rw [e2]
    by_cases h : k ≤ m
    · simp [h, show k ≤ m + 1 by omega, show m + 1 ≠ k by omega]
    · by_cases h' : m + 1 = k
      · simp [← h']; omega
      · simp [h, h', show ¬ k ≤ m + 1 by omega]

/-- The table of a complete code is built and has the entries of every codeword. -/
theorem build_complete {cap maxTb maxCw : Nat} {table : Tab} {garbage : Nat → Nat} {lens : List Nat} {results : List Entry}
    {type : TableType} (h288 : lens.length ≤ 288) (hcw : maxCw ≤ 15) (hcw1 : 1 ≤ maxCw) (hlens : ∀ l ∈ lens, l ≤ maxCw)
    (hres : lens.length ≤ results.length) (hmt : 1 ≤ maxTb) (hcap : 2 ^ tableBitsOf maxTb (usedMaxLen lens maxCw) ≤ cap)
    (hroom : (canon lens).any (fun r => decide (tableBitsOf maxTb (usedMaxLen lens maxCw) < r.2)) = true → 2 ∣ cap ∧
      2 ^ tableBitsOf maxTb (usedMaxLen lens maxCw) +
        ((canon lens).filter (fun r => decide (tableBitsOf maxTb (usedMaxLen lens maxCw) < r.2))).length +
        2 ^ (15 - tableBitsOf maxTb (usedMaxLen lens maxCw)) ≤ cap + 2 + (15 - tableBitsOf maxTb (usedMaxLen lens maxCw)))
    (hc : Complete lens) :
    ∃ T, buildDecodeTable cap table garbage lens results maxTb maxCw type =
        some (some (⟨tableBitsOf maxTb (usedMaxLen lens maxCw), usedMaxLen lens maxCw, literalMask lens⟩, T)) ∧
      ∀ s < lens.length, 1 ≤ lens.getD s 0 →
        Good results (tableBitsOf maxTb (usedMaxLen lens maxCw)) cap T (s, lens.getD s 0, codeOf lens s * wt (lens.getD s 0)) := by
  have h15 : ∀ l ∈ lens, l ≤ 15 := fun l hl => Nat.le_trans (hlens l hl) hcw
  have hany : lens.any (fun x => decide (15 < x)) = false := by
    rw [List.any_eq_false]
    intro l hl
    have := h15 l hl
    simp; omega
  have hks := codespace_kraft hcw hlens
  have hml := usedMaxLen_le (lens := lens) (maxCw := maxCw)
  have hmg := usedMaxLen_ge hlens
  have hml1 := usedMaxLen_pos (lens := lens) hcw1
  generalize hM : usedMaxLen lens maxCw = M at *
  have htb15 : tableBitsOf maxTb M ≤ 15 := by simp only [tableBitsOf]; omega
  have htb1 : 1 ≤ tableBitsOf maxTb M := by simp only [tableBitsOf]; omega
  generalize htb : tableBitsOf maxTb M = tb at *
  have hused : codespace (lenCount lens) M 1 0 = 2 ^ M := by
    rw [hc, pow_split (show M ≤ 15 by omega)] at hks
    exact Nat.eq_of_mul_eq_mul_right (wt_pos M) hks
  have hsum : wsum (canon lens) = 2 ^ 15 := by rw [kraft_eq h15]; exact hc
  have hmem : ∀ r ∈ canon lens, 1 ≤ r.2 ∧ r.2 ≤ 15 ∧ r.1 < lens.length ∧ lens.getD r.1 0 = r.2 := fun r hr => mem_canonTo.1 hr
  have hlay : Lay 0 (canon lens) := lay_of_sorted (canonTo_sorted lens 15) (fun r hr => ⟨(hmem r hr).1, (hmem r hr).2.1⟩)
    (fun _ _ => Nat.dvd_zero _) (by omega)
  have hresC : ∀ r ∈ canon lens, ∃ e, results[r.1]? = some e := by
    intro r hr
    have := (hmem r hr).2.2.1
    exact ⟨_, List.getElem?_eq_getElem (show r.1 < results.length by omega)⟩
  -- The first symbol.
  cases hS : canon lens with
  | nil => rw [hS] at hsum; simp [wsum] at hsum
  | cons a R =>
    obtain ⟨s0, l0⟩ := a
    have hmem0 := hmem (s0, l0) (by rw [hS]; exact List.mem_cons_self)
    have hcnt : ∀ k, 1 ≤ k → lenCount lens k = cntL ((s0, l0) :: R) k := by
      intro k hk
      rw [← hS, canon_eq, cntL_canon _ _ _ hk]
      split
      · rfl
      · rw [lenCount, List.count_eq_zero]
        intro h
        have := h15 _ h
        omega
    rw [hS] at hlay hresC hroom
    have hsort : ∀ r ∈ (s0, l0) :: R, l0 ≤ r.2 := by
      intro r hr
      rcases List.mem_cons.1 hr with rfl | hr
      · exact Nat.le_refl _
      · exact hlay.2.2.2.1 r hr
    have hfirst : firstLen (lenCount lens) 16 1 = some l0 := by
      apply firstLen_spec _ hmem0.2.1 16 1 hmem0.1 (by simp only at hmem0; omega)
      · intro k h1 h2
        rw [hcnt k h1]
        exact cntL_zero (fun r hr => by have := hsort r hr; omega)
      · rw [hcnt l0 hmem0.1, cntL_cons, if_pos rfl]
        omega
    have hcounts : Counts (lenCount lens) ((s0, l0) :: R) l0 (lenCount lens l0) :=
      ⟨hcnt l0 hmem0.1, fun k hk => hcnt k (by omega)⟩
    have hloop : ∃ T, shortLoop cap (lenCount lens) results tb (s0 :: R.map Prod.fst) l0 (lenCount lens l0) 0 (2 ^ l0) table = some T ∧
        ∀ d ∈ placed 0 ((s0, l0) :: R), Good results tb cap T d := by
      have h0 : rev 15 0 = 0 := rfl
      by_cases hl : l0 ≤ tb
      · have hfc : ((s0, l0) :: R).filter (fun r => decide (tb < r.2)) = R.filter (fun r => decide (tb < r.2)) := by
          rw [List.filter_cons, if_neg (by simp; omega)]
        have := shortLoop_spec (cnt := lenCount lens) htb15 hcap R s0 l0 (lenCount lens l0) 0 [] table hlay hl hcounts hresC
          (fun h => by
            obtain ⟨x1, x2⟩ := hroom (by simp [h])
            rw [hfc] at x2
            exact ⟨htb1, x1, x2⟩)
          (fun d hd => by cases hd)
        simpa [h0] using this
      · obtain ⟨x1, x2⟩ := hroom (by simp; left; omega)
        have hflt : ((s0, l0) :: R).filter (fun r => decide (tb < r.2)) = (s0, l0) :: R := by
          rw [List.filter_eq_self]
          intro r hr
          have := hsort r hr
          simp only [decide_eq_true_eq]
          omega
        rw [hflt] at x2
        have hready : Ready results tb cap [] 0 l0 ((s0, l0) :: R) ⟨none, 0, 2 ^ tb⟩ table := by
          constructor
          · exact Nat.le_refl _
          · exact hcap
          · obtain ⟨k, rfl⟩ : ∃ k, tb = k + 1 := ⟨tb - 1, by omega⟩
            show 2 ∣ 2 ^ (k + 1)
            rw [Nat.pow_succ]; exact Nat.dvd_mul_left _ _
          · have hfm := fmono (show 1 ≤ l0 - tb by omega)
            show 2 ^ tb + _ + 2 ^ (15 - tb) + (l0 - tb) ≤ _
            generalize 2 ^ (l0 - tb) = A at *
            generalize 2 ^ (15 - tb) = B at *
            omega
          · intro d hd; cases hd
          · intro d hd; cases hd
          · intro d hd; cases hd
          · intro d hd; cases hd
        have := longLoop_spec (cnt := lenCount lens) x1 R s0 l0 (lenCount lens l0) 0 [] ⟨none, 0, 2 ^ tb⟩ table hlay (by omega) hcounts
          hresC (Or.inl ⟨Nat.dvd_zero _, rfl, hready⟩)
        simp only [shortLoop, if_neg hl]
        simpa [h0] using this
    obtain ⟨T, f1, f2⟩ := hloop
    refine ⟨T, ?_, ?_⟩
    · have hso := sortedSyms_eq garbage h288 hmg h15
      simp only [buildDecodeTable, hany, hM, htb, hused, hso, hS, hfirst, List.map_cons, f1]
      simp
    · intro s hs hs1
      have hsl : lens.getD s 0 ≤ 15 := by
        rw [List.getD_eq_getElem?_getD, List.getElem?_eq_getElem hs]
        exact h15 _ (List.getElem_mem hs)
      obtain ⟨A, B, hAB, hw⟩ := canon_split hs hs1 hsl
      apply f2
      rw [← hS, hAB, placed_append, ← hw, Nat.zero_add]
      simp [placed]

end Blend2D.Deflate
