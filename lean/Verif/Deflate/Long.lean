import Verif.Deflate.SubBits

/-!
# Table building: subtables
-/

namespace Blend2D.Deflate

theorem fillStride_spec {cap stride stop : Nat} {e : Entry} (hs : 0 < stride) (hcap : stop ≤ cap) :
    ∀ (fuel i : Nat) (T : Tab), i < stop → stop - i ≤ fuel →
    ∃ T', fillStride cap stride stop e fuel i T = some T' ∧
      ∀ j, T' j = if i ≤ j ∧ j < stop ∧ (j - i) % stride = 0 then e else T j
  | 0, i, T, h1, h2 => by omega
  | fuel + 1, i, T, h1, h2 => by
    simp only [fillStride, Tab.write, if_pos (show i < cap by omega)]
    by_cases hn : i + stride < stop
    · simp only [if_pos hn]
      obtain ⟨T', g1, g2⟩ := fillStride_spec hs hcap fuel (i + stride) (Function.update T i e) hn (by omega)
      refine ⟨T', g1, ?_⟩
      intro j
      rw [g2 j]
      by_cases hj : i + stride ≤ j
      · have : (j - i) % stride = (j - (i + stride)) % stride := by
          rw [Nat.mod_eq_sub_mod (a := j - i) (by omega)]; congr 1; omega
        simp only [hj, show i ≤ j by omega, true_and, this, Function.update_of_ne (show j ≠ i by omega)]
      · rw [if_neg (by omega)]
        by_cases hji : j = i
        · subst hji; simp; omega
        · rw [Function.update_of_ne hji, if_neg]
          rintro ⟨a, b, c⟩
          rw [Nat.mod_eq_of_lt (by omega)] at c
          omega
    · simp only [if_neg hn]
      refine ⟨_, rfl, ?_⟩
      intro j
      by_cases hji : j = i
      · subst hji; simp; omega
      · rw [Function.update_of_ne hji, if_neg]
        rintro ⟨a, b, c⟩
        rw [Nat.mod_eq_of_lt (by omega)] at c
        omega

/-- A long codeword in the subtable at `st` with `b` bits. -/
def LongAt (results : List Entry) (tb : Nat) (T : Tab) (d : Nat × Nat × Nat) (st b : Nat) : Prop :=
  d.2.1 ≤ tb + b ∧ tb + b ≤ 15 ∧ 2 ^ tb ≤ st ∧ T (rev 15 d.2.2 % 2 ^ tb) = makeSubLink st tb (tb + b) ∧
    ∀ e, results[d.1]? = some e → ∀ j < 2 ^ b, j % 2 ^ (d.2.1 - tb) = rev 15 d.2.2 / 2 ^ tb → T (st + j) = makeSub e d.2.1

/-- Codewords that precede the position `P`. -/
def Past (P : Nat) (d : Nat × Nat × Nat) : Prop := 1 ≤ d.2.1 ∧ d.2.1 ≤ 15 ∧ wt d.2.1 ∣ d.2.2 ∧ d.2.2 + wt d.2.1 ≤ P

variable {results : List Entry} {tb cap : Nat}

/-- The state at the beginning of a block. -/
structure Ready (results : List Entry) (tb cap : Nat) (D : List (Nat × Nat × Nat)) (P l : Nat) (R : List (Nat × Nat)) (s : Sub)
    (T : Tab) : Prop where
  lo : 2 ^ tb ≤ s.stop
  hi : s.stop ≤ cap
  even : 2 ∣ s.stop
  room : s.stop + R.length + 2 ^ (15 - tb) + (l - tb) ≤ cap + 1 + (15 - tb) + 2 ^ (l - tb)
  past : ∀ d ∈ D, Past P d
  sorted : ∀ d ∈ D, ∀ r ∈ R, d.2.1 ≤ r.2
  short : ∀ d ∈ D, d.2.1 ≤ tb → ShortGood results tb T d
  long : ∀ d ∈ D, tb < d.2.1 → ∃ st b, LongAt results tb T d st b ∧ st + 2 ^ b ≤ s.stop

/-- The state inside of the block with prefix `q`, whose subtable has `b` bits. -/
structure Inside (results : List Entry) (tb cap : Nat) (D : List (Nat × Nat × Nat)) (P : Nat) (R : List (Nat × Nat)) (s : Sub)
    (T : Tab) (q b : Nat) : Prop where
  pfx : s.pfx = some (rev tb q)
  qlt : q < 2 ^ tb
  stop : s.stop = s.start + 2 ^ b
  b15 : tb + b ≤ 15
  lo : 2 ^ tb ≤ s.start
  hi : s.stop ≤ cap
  even : 2 ∣ s.stop
  fits : ∀ d ∈ placed P R, pref tb d = q → d.2.1 ≤ tb + b
  beyond : ∀ d ∈ placed P R, pref tb d ≠ q → tb + b ≤ d.2.1
  room : s.stop + ((placed P R).filter (fun d => !decide (pref tb d = q))).length + 2 ^ (15 - tb) + b ≤
    cap + 1 + (15 - tb) + 2 ^ b
  link : T (rev tb q) = makeSubLink s.start tb (tb + b)
  ge : q * wt tb ≤ P
  le : P ≤ (q + 1) * wt tb
  past : ∀ d ∈ D, Past P d
  sorted : ∀ d ∈ D, ∀ r ∈ R, d.2.1 ≤ r.2
  short : ∀ d ∈ D, d.2.1 ≤ tb → ShortGood results tb T d
  long : ∀ d ∈ D, tb < d.2.1 → ∃ st b', LongAt results tb T d st b' ∧
    ((pref tb d = q ∧ st = s.start ∧ b' = b) ∨ (pref tb d < q ∧ st + 2 ^ b' ≤ s.start))

theorem fmono {x y : Nat} (h : x ≤ y) : 2 ^ x + y ≤ 2 ^ y + x := by
  induction y with
  | zero => have : x = 0 := by omega
            subst this; omega
  | succ y ih =>
    by_cases hx : x = y + 1
    · subst hx; omega
    · have := ih (by omega)
      rw [Nat.pow_succ]
      have := Nat.two_pow_pos y
      omega

theorem pref_lt {P : Nat} (hP : P < 2 ^ 15) (htb : tb ≤ 15) : P / wt tb < 2 ^ tb :=
  (Nat.div_lt_iff_lt_mul (wt_pos tb)).2 (by rw [← pow_split htb]; exact hP)

/-- A block begins. -/
theorem open_block {cnt : Nat → Nat} {D : List (Nat × Nat × Nat)} {P l s count : Nat} {R : List (Nat × Nat)} {σ : Sub} {T : Tab}
    (hcap : 2 ∣ cap) (hL : Lay P ((s, l) :: R)) (hl : tb < l) (hd : wt tb ∣ P) (hc : Counts cnt ((s, l) :: R) l count)
    (hp : σ.pfx ≠ some (rev tb (P / wt tb))) (hr : Ready results tb cap D P l ((s, l) :: R) σ T) :
    ∃ σ' T' b, startSub cap cnt tb l count (rev 15 P) σ T = some (σ', T') ∧
      Inside results tb cap D P ((s, l) :: R) σ' T' (P / wt tb) b := by
  have h15 := hL.2.1
  have hP := hL.lt
  have hq := pref_lt (tb := tb) hP (by omega)
  obtain ⟨q, hPq⟩ : ∃ q, P = q * wt tb := by obtain ⟨q, h⟩ := hd; exact ⟨q, by rw [h, Nat.mul_comm]⟩
  have hqe : P / wt tb = q := by rw [hPq]; exact Nat.mul_div_cancel _ (wt_pos tb)
  rw [hqe] at hq hp ⊢
  obtain ⟨b, g1, g2, g3, g4, g5, g6⟩ := subBits_spec (cnt := cnt) (count := count) (hPq ▸ hL) hq hl hc
  rw [← hPq] at g4 g5 g6
  have hpc : rev 15 P % 2 ^ tb = rev tb q := by rw [rev15_cut (by omega), hqe]
  have hrlt := rev_lt tb q
  refine ⟨⟨some (rev tb q), σ.stop, σ.stop + 2 ^ b⟩, Function.update T (rev tb q) (makeSubLink σ.stop tb (tb + b)), b, ?_, ?_⟩
  · have hne : some (rev 15 P % 2 ^ tb) ≠ σ.pfx := by rw [hpc]; exact fun h => hp h.symm
    simp only [startSub, if_pos hne, g1, Tab.write, if_pos (show rev 15 P % 2 ^ tb < cap by have := hr.lo; have := hr.hi; omega)]
    rw [hpc]
  · have hsplit := length_filter_split (placed P ((s, l) :: R)) (fun d => decide (pref tb d = q))
    rw [placed_length] at hsplit
    have hroom := hr.room
    have hfm := fmono (show b ≤ 15 - tb by omega)
    have hev : 2 ∣ 2 ^ b := by
      obtain ⟨k, rfl⟩ : ∃ k, b = k + 1 := ⟨b - 1, by omega⟩
      rw [Nat.pow_succ]; exact Nat.dvd_mul_left _ _
    have hroom' : σ.stop + 2 ^ b + ((placed P ((s, l) :: R)).filter (fun d => !decide (pref tb d = q))).length + 2 ^ (15 - tb) + b ≤
        cap + 1 + (15 - tb) + 2 ^ b := by
      generalize 2 ^ (l - tb) = A at *
      generalize 2 ^ (15 - tb) = B at *
      generalize 2 ^ b = C at *
      omega
    have hst : 2 ∣ σ.stop + 2 ^ b := (Nat.dvd_add_iff_right hr.even).1 hev
    -- Writing the link leaves other entries alone.
    have hkeep : ∀ d ∈ D, ∀ i < 2 ^ tb, d.2.1 ≤ tb → i % 2 ^ d.2.1 = rev 15 d.2.2 → i ≠ rev tb q := by
      intro d hd i hi hdl hmod he
      obtain ⟨_, p1, p2, p3⟩ := hr.past d hd
      apply rev15_noclash p1 p2 p3 hP
      rw [← hmod, he, ← hpc]
      exact (Nat.mod_mod_of_dvd _ (Nat.pow_dvd_pow 2 hdl)).symm
    have hpast : ∀ d ∈ D, tb < d.2.1 → pref tb d < q ∧ rev 15 d.2.2 % 2 ^ tb ≠ rev tb q := by
      intro d hd hdl
      obtain ⟨_, p1, p2, p3⟩ := hr.past d hd
      have hlt : pref tb d < q := by
        apply (Nat.div_lt_iff_lt_mul (wt_pos tb)).2
        have := wt_pos d.2.1
        omega
      refine ⟨hlt, fun he => ?_⟩
      rw [rev15_cut (by omega)] at he
      have hlt' : d.2.2 / 2 ^ (15 - tb) < q := hlt
      have := rev_inj (by omega) hq he
      omega
    constructor
    · rfl
    · exact hq
    · rfl
    · exact g3
    · exact hr.lo
    · show σ.stop + 2 ^ b ≤ cap
      have h1 : σ.stop + 2 ^ b ≤ cap + 1 := by
        generalize 2 ^ (15 - tb) = B at *
        generalize 2 ^ b = C at *
        omega
      omega
    · exact hst
    · exact g4
    · exact g5
    · exact hroom'
    · exact Function.update_self _ _ _
    · omega
    · rw [Nat.add_mul]; omega
    · exact hr.past
    · exact hr.sorted
    · intro d hd hdl e he i hi hmod
      rw [Function.update_of_ne (hkeep d hd i hi hdl hmod)]
      exact hr.short d hd hdl e he i hi hmod
    · intro d hd hdl
      obtain ⟨st, b', ⟨a1, a2, a3, a4, a5⟩, a6⟩ := hr.long d hd hdl
      obtain ⟨x1, x2⟩ := hpast d hd hdl
      refine ⟨st, b', ⟨a1, a2, a3, ?_, ?_⟩, Or.inr ⟨x1, a6⟩⟩
      · rw [Function.update_of_ne x2]; exact a4
      · intro e he j hj hjm
        rw [Function.update_of_ne (by omega)]
        exact a5 e he j hj hjm

/-- The block ends. -/
theorem close_block {D : List (Nat × Nat × Nat)} {P l s q b : Nat} {R : List (Nat × Nat)} {σ : Sub} {T : Tab}
    (hL : Lay P ((s, l) :: R)) (hl : tb < l) (hi : Inside results tb cap D P ((s, l) :: R) σ T q b) (hne : P / wt tb ≠ q) :
    wt tb ∣ P ∧ σ.pfx ≠ some (rev tb (P / wt tb)) ∧ Ready results tb cap D P l ((s, l) :: R) σ T := by
  have hP := hL.lt
  have h15 := hL.2.1
  have hq' := pref_lt (tb := tb) hP (by omega)
  have hPe : P = (q + 1) * wt tb := by
    have := hi.le
    have h2 := hi.ge
    rcases Nat.lt_or_ge P ((q + 1) * wt tb) with h | h
    · exact absurd (Nat.div_eq_of_lt_le h2 h) hne
    · omega
  have hall : (placed P ((s, l) :: R)).filter (fun d => !decide (pref tb d = q)) = placed P ((s, l) :: R) := by
    rw [List.filter_eq_self]
    intro d hd
    have := (hL.facts hd).2.2.2.1
    have : q + 1 ≤ pref tb d := (Nat.le_div_iff_mul_le (wt_pos tb)).2 (by omega)
    simp only [Bool.not_eq_true', decide_eq_false_iff_not]
    omega
  have hlb : tb + b ≤ l := hi.beyond (s, l, P) (by simp [placed]) hne
  refine ⟨by rw [hPe]; exact Nat.dvd_mul_left _ _, ?_, ?_⟩
  · rw [hi.pfx]
    intro h
    exact hne (rev_inj hq' hi.qlt (Option.some.inj h).symm)
  · constructor
    · have := hi.lo; have := hi.stop; have := Nat.two_pow_pos b; omega
    · exact hi.hi
    · exact hi.even
    · have := hi.room
      rw [hall, placed_length] at this
      have hfm := fmono (show b ≤ l - tb by omega)
      generalize 2 ^ (l - tb) = A at *
      generalize 2 ^ (15 - tb) = B at *
      generalize 2 ^ b = C at *
      omega
    · exact hi.past
    · exact hi.sorted
    · exact hi.short
    · intro d hd hdl
      obtain ⟨st, b', h1, h2⟩ := hi.long d hd hdl
      refine ⟨st, b', h1, ?_⟩
      have hs := hi.stop
      have := Nat.two_pow_pos b
      rcases h2 with ⟨_, rfl, rfl⟩ | ⟨_, h⟩ <;> omega

/-- The block at the head of the remaining symbols is open. -/
theorem enter {cnt : Nat → Nat} {D : List (Nat × Nat × Nat)} {P l s count : Nat} {R : List (Nat × Nat)} {σ : Sub} {T : Tab}
    (hcap : 2 ∣ cap) (hL : Lay P ((s, l) :: R)) (hl : tb < l) (hc : Counts cnt ((s, l) :: R) l count)
    (h : (wt tb ∣ P ∧ σ.pfx = none ∧ Ready results tb cap D P l ((s, l) :: R) σ T) ∨
      ∃ q b, Inside results tb cap D P ((s, l) :: R) σ T q b) :
    ∃ σ' T' b, startSub cap cnt tb l count (rev 15 P) σ T = some (σ', T') ∧
      Inside results tb cap D P ((s, l) :: R) σ' T' (P / wt tb) b := by
  have h15 := hL.2.1
  rcases h with ⟨h1, h2, h3⟩ | ⟨q, b, hi⟩
  · exact open_block hcap hL hl h1 hc (by rw [h2]; simp) h3
  · by_cases hq : P / wt tb = q
    · refine ⟨σ, T, b, ?_, by rw [hq]; exact hi⟩
      have : some (rev 15 P % 2 ^ tb) = σ.pfx := by rw [hi.pfx, rev15_cut (by omega), ← hq]
      simp only [startSub, this, ne_eq, not_true_eq_false, if_false]
    · obtain ⟨a1, a2, a3⟩ := close_block hL hl hi hq
      exact open_block hcap hL hl a1 hc a2 a3

theorem sub_index {l tb b N : Nat} (h1 : tb ≤ l) (h2 : l ≤ tb + b) :
    N % 2 ^ (tb + b) / 2 ^ tb % 2 ^ (l - tb) = N % 2 ^ l / 2 ^ tb := by
  apply Nat.eq_of_testBit_eq
  intro i
  simp only [Nat.testBit_mod_two_pow, Nat.testBit_div_two_pow]
  by_cases h : i < l - tb
  · simp [h, show i + tb < l by omega, show i + tb < tb + b by omega]
  · simp [h, show ¬ i + tb < l by omega]

/-- A symbol of the block gets its entries. -/
theorem fill {D : List (Nat × Nat × Nat)} {P l s b : Nat} {R : List (Nat × Nat)} {σ : Sub} {T : Tab} {e : Entry}
    (hL : Lay P ((s, l) :: R)) (hl : tb < l) (he : results[s]? = some e)
    (hi : Inside results tb cap D P ((s, l) :: R) σ T (P / wt tb) b) :
    ∃ T', fillStride cap (2 ^ (l - tb)) σ.stop (makeSub e l) (σ.stop - σ.start) (σ.start + rev 15 P / 2 ^ tb) T = some T' ∧
      Inside results tb cap (D ++ [(s, l, P)]) (P + wt l) R σ T' (P / wt tb) b := by
  have h15 := hL.2.1
  have hP := hL.lt
  have hdv := hL.2.2.1
  have hpos := wt_pos tb
  have hlb : l ≤ tb + b := hi.fits (s, l, P) (by simp [placed]) rfl
  have hx : rev 15 P / 2 ^ tb < 2 ^ (l - tb) := by
    rw [Nat.div_lt_iff_lt_mul (Nat.two_pow_pos _), ← Nat.pow_add, show l - tb + tb = l by omega]
    exact rev15_lt h15 hdv
  have hle : 2 ^ (l - tb) ≤ 2 ^ b := Nat.pow_le_pow_right (by omega) (by omega)
  have hstop := hi.stop
  obtain ⟨T', g1, g2⟩ := fillStride_spec (cap := cap) (stride := 2 ^ (l - tb)) (stop := σ.stop) (e := makeSub e l)
    (Nat.two_pow_pos _) hi.hi (σ.stop - σ.start) (σ.start + rev 15 P / 2 ^ tb) T
    (by generalize rev 15 P / 2 ^ tb = x at *; omega) (by generalize rev 15 P / 2 ^ tb = x at *; omega)
  refine ⟨T', g1, ?_⟩
  -- In terms of indexes in the subtable.
  have hin : ∀ j < 2 ^ b, T' (σ.start + j) = if j % 2 ^ (l - tb) = rev 15 P / 2 ^ tb then makeSub e l else T (σ.start + j) := by
    intro j hj
    rw [g2]
    congr 1
    apply propext
    constructor
    · rintro ⟨a1, _, a3⟩
      have e1 : j = (σ.start + j - (σ.start + rev 15 P / 2 ^ tb)) + rev 15 P / 2 ^ tb := by generalize rev 15 P / 2 ^ tb = x at *; omega
      rw [e1, Nat.add_mod, a3, Nat.zero_add, Nat.mod_mod, Nat.mod_eq_of_lt hx]
    · intro h
      have e1 := Nat.div_add_mod j (2 ^ (l - tb))
      rw [h] at e1
      generalize rev 15 P / 2 ^ tb = x at *
      refine ⟨by omega, by omega, ?_⟩
      have e2 : σ.start + j - (σ.start + x) = 2 ^ (l - tb) * (j / 2 ^ (l - tb)) := by omega
      rw [e2, Nat.mul_mod_right]
  have hout : ∀ j, j < σ.start → T' j = T j := by
    intro j hj
    rw [g2, if_neg (by generalize rev 15 P / 2 ^ tb = x at *; omega)]
  have hlow := hi.lo
  have hnb : ∀ d ∈ placed (P + wt l) R, d ∈ placed P ((s, l) :: R) := fun d hd => List.mem_cons_of_mem _ hd
  constructor
  · exact hi.pfx
  · exact hi.qlt
  · exact hi.stop
  · exact hi.b15
  · exact hi.lo
  · exact hi.hi
  · exact hi.even
  · exact fun d hd => hi.fits d (hnb d hd)
  · exact fun d hd => hi.beyond d (hnb d hd)
  · have := hi.room
    simp only [placed, List.filter_cons, pref, decide_true, Bool.not_true] at this
    exact this
  · rw [hout _ (by have := rev_lt tb (P / wt tb); omega)]
    exact hi.link
  · have := hi.ge; omega
  · have h1 : P < (P / wt tb + 1) * wt tb := by
      have := Nat.lt_mul_div_succ P hpos
      rw [Nat.mul_comm] at this
      exact this
    obtain ⟨y, hy⟩ := wt_dvd (show tb ≤ l by omega)
    obtain ⟨p, hp⟩ := hdv
    generalize P / wt tb + 1 = Q at h1 ⊢
    rw [hy] at h1 ⊢
    rw [hp] at h1 ⊢
    have e1 : Q * (wt l * y) = wt l * (Q * y) := by rw [Nat.mul_left_comm]
    rw [e1] at h1 ⊢
    have : p < Q * y := Nat.lt_of_mul_lt_mul_left h1
    calc wt l * p + wt l = wt l * (p + 1) := by rw [Nat.mul_add]; omega
      _ ≤ wt l * (Q * y) := Nat.mul_le_mul_left _ this
  · intro d hd
    rcases List.mem_append.1 hd with hd | hd
    · obtain ⟨p0, p1, p2, p3⟩ := hi.past d hd
      exact ⟨p0, p1, p2, by omega⟩
    · obtain rfl : d = (s, l, P) := by simpa using hd
      exact ⟨hL.1, h15, hL.2.2.1, Nat.le_refl _⟩
  · intro d hd r hr
    rcases List.mem_append.1 hd with hd | hd
    · exact hi.sorted d hd r (List.mem_cons_of_mem _ hr)
    · obtain rfl : d = (s, l, P) := by simpa using hd
      exact hL.2.2.2.1 r hr
  · intro d hd hdl
    rcases List.mem_append.1 hd with hd | hd
    · intro e' he' i hi' hm
      rw [hout i (by omega)]
      exact hi.short d hd hdl e' he' i hi' hm
    · obtain rfl : d = (s, l, P) := by simpa using hd
      simp only at hdl
      omega
  · intro d hd hdl
    rcases List.mem_append.1 hd with hd | hd
    · obtain ⟨st, b', ⟨a1, a2, a3, a4, a5⟩, a6⟩ := hi.long d hd hdl
      refine ⟨st, b', ⟨a1, a2, a3, ?_, ?_⟩, a6⟩
      · rw [hout _ (by have := Nat.mod_lt (rev 15 d.2.2) (Nat.two_pow_pos tb); omega)]
        exact a4
      · intro e' he' j hj hm
        rcases a6 with ⟨x1, rfl, rfl⟩ | ⟨x1, x2⟩
        · rw [hin j hj, if_neg, a5 e' he' j hj hm]
          intro hm2
          -- The same entry would mean the same codeword.
          obtain ⟨_, p1, p2, p3⟩ := hi.past d hd
          apply rev15_noclash p1 p2 p3 hP
          have hdle : d.2.1 ≤ l := hi.sorted d hd (s, l) List.mem_cons_self
          have e1 : rev 15 P / 2 ^ tb % 2 ^ (d.2.1 - tb) = rev 15 d.2.2 / 2 ^ tb := by
            rw [← hm2, Nat.mod_mod_of_dvd _ (Nat.pow_dvd_pow 2 (by omega)), hm]
          have e2 : rev 15 P % 2 ^ tb = rev 15 d.2.2 % 2 ^ tb := by
            have x1' : d.2.2 / 2 ^ (15 - tb) = P / 2 ^ (15 - tb) := x1
            rw [rev15_cut (by omega), rev15_cut (by omega), x1']
          rw [pow_split (show tb ≤ d.2.1 by omega), Nat.mod_mul, e1, e2]
          exact Nat.mod_add_div _ _
        · rw [hout _ (by omega)]
          exact a5 e' he' j hj hm
    · obtain rfl : d = (s, l, P) := by simpa using hd
      refine ⟨σ.start, b, ⟨hlb, hi.b15, hlow, ?_, ?_⟩, Or.inl ⟨rfl, rfl, rfl⟩⟩
      · rw [hout _ (by have := Nat.mod_lt (rev 15 P) (Nat.two_pow_pos tb); omega)]
        have := hi.link
        rw [rev15_cut (by omega)]
        exact this
      · intro e' he' j hj hm
        rw [he] at he'
        obtain rfl := Option.some.inj he'
        rw [hin j hj, if_pos hm]

/-- All long codewords. -/
theorem longLoop_spec {cnt : Nat → Nat} (hcap : 2 ∣ cap) : ∀ (R : List (Nat × Nat)) (s l count P : Nat)
    (D : List (Nat × Nat × Nat)) (σ : Sub) (T : Tab),
    Lay P ((s, l) :: R) → tb < l → Counts cnt ((s, l) :: R) l count →
    (∀ r ∈ (s, l) :: R, ∃ e, results[r.1]? = some e) →
    ((wt tb ∣ P ∧ σ.pfx = none ∧ Ready results tb cap D P l ((s, l) :: R) σ T) ∨
      ∃ q b, Inside results tb cap D P ((s, l) :: R) σ T q b) →
    ∃ T', longLoop cap cnt results tb (s :: R.map Prod.fst) l count (rev 15 P) σ T = some T' ∧
      ∀ d ∈ D ++ placed P ((s, l) :: R), Good results tb cap T' d
  | R, s, l, count, P, D, σ, T, hL, hl, hc, hres, hinv => by
    have h15 := hL.2.1
    have hdv := hL.2.2.1
    obtain ⟨σ', T1, b, g1, hi⟩ := enter hcap hL hl hc hinv
    obtain ⟨e, he⟩ := hres (s, l) List.mem_cons_self
    obtain ⟨T2, g2, hi2⟩ := fill hL hl he hi
    have hlast : rev 15 P = 2 ^ l - 1 ↔ P + wt l = 2 ^ 15 := rev15_last h15 hdv hL.lt
    simp only [longLoop, g1, he, g2]
    cases R with
    | nil =>
      have hend : P + wt l = 2 ^ 15 := hL.2.2.2.2
      rw [if_pos (hlast.2 hend)]
      refine ⟨T2, rfl, ?_⟩
      intro d hd
      have hd : d ∈ D ++ [(s, l, P)] := hd
      refine ⟨fun h => hi2.short d hd h, fun h => ?_⟩
      obtain ⟨st, b', ⟨a1, a2, a3, a4, a5⟩, a6⟩ := hi2.long d hd h
      refine ⟨st, b', a1, a2, a3, ?_, a4, a5⟩
      have := hi2.stop
      have := hi2.hi
      have := Nat.two_pow_pos b
      rcases a6 with ⟨_, rfl, rfl⟩ | ⟨_, h⟩ <;> omega
    | cons r R =>
      obtain ⟨s', l'⟩ := r
      have hL' := hL.2.2.2.2
      have hlt : P + wt l < 2 ^ 15 := hL'.lt
      have hl' : l ≤ l' := hL.2.2.2.1 (s', l') List.mem_cons_self
      rw [if_neg (fun h => by have := hlast.1 h; omega), rev15_next h15 hdv hlt]
      obtain ⟨n1, n2⟩ := hc.next hL
      have hrec : ∃ count', advanceLen cnt 16 l (count - 1) = some (l', count') ∧ Counts cnt ((s', l') :: R) l' count' := by
        by_cases h0 : count - 1 = 0
        · obtain ⟨m1, m2, m3, m4⟩ := n2 h0
          refine ⟨cnt l', ?_, m4⟩
          rw [h0]
          exact advanceLen_spec m3 hL'.2.1 16 l m1 (by have := hL'.2.1; omega) m2
        · obtain ⟨rfl, m2⟩ := n1 h0
          refine ⟨count - 1, ?_, m2⟩
          simp only [advanceLen, if_neg h0]
      obtain ⟨count', r1, r2⟩ := hrec
      simp only [r1]
      obtain ⟨T', f1, f2⟩ := longLoop_spec hcap R s' l' count' (P + wt l) (D ++ [(s, l, P)]) σ' T2 hL' (by omega) r2
        (fun r hr => hres r (List.mem_cons_of_mem _ hr)) (Or.inr ⟨_, _, hi2⟩)
      refine ⟨T', f1, ?_⟩
      intro d hd
      apply f2
      simpa [placed] using hd

end Blend2D.Deflate
