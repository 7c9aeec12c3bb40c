import Verif.Deflate.Layout
import Mathlib.Tactic.ByContra

/-!
# Table building: loops over lengths and the main table
-/

namespace Blend2D.Deflate

/-- The entries of a codeword that fits in a table of `n` bits. -/
def ShortGood (results : List Entry) (n : Nat) (T : Tab) (d : Nat × Nat × Nat) : Prop :=
  ∀ e, results[d.1]? = some e → ∀ i < 2 ^ n, i % 2 ^ d.2.1 = rev 15 d.2.2 → T i = makeTop e d.2.1

/-- The entries of a codeword that does not fit in the main table. -/
def LongGood (results : List Entry) (tb cap : Nat) (T : Tab) (d : Nat × Nat × Nat) : Prop :=
  ∃ st b, d.2.1 ≤ tb + b ∧ tb + b ≤ 15 ∧ 2 ^ tb ≤ st ∧ st + 2 ^ b ≤ cap ∧
    T (rev 15 d.2.2 % 2 ^ tb) = makeSubLink st tb (tb + b) ∧
    ∀ e, results[d.1]? = some e → ∀ j < 2 ^ b, j % 2 ^ (d.2.1 - tb) = rev 15 d.2.2 / 2 ^ tb → T (st + j) = makeSub e d.2.1

/-- The entries of a codeword. -/
def Good (results : List Entry) (tb cap : Nat) (T : Tab) (d : Nat × Nat × Nat) : Prop :=
  (d.2.1 ≤ tb → ShortGood results tb T d) ∧ (tb < d.2.1 → LongGood results tb cap T d)

theorem double_eq (T : Tab) {n y : Nat} (hy : y < n + n) : (if n ≤ y ∧ y < n + n then T (y - n) else T y) = T (y % n) := by
  split
  · rename_i hc
    rw [Nat.mod_eq_sub_mod hc.1, Nat.mod_eq_of_lt (show y - n < n by omega)]
  · rw [Nat.mod_eq_of_lt (show y < n by omega)]

theorem growAll_spec {cap : Nat} : ∀ (n len : Nat) (T : Tab), 2 ^ (len + n) ≤ cap →
    ∃ T', growAll cap n (2 ^ len) T = some T' ∧ ∀ i < 2 ^ (len + n), T' i = T (i % 2 ^ len)
  | 0, len, T, _ => ⟨T, rfl, fun i hi => by rw [Nat.mod_eq_of_lt (show i < 2 ^ len from hi)]⟩
  | n + 1, len, T, h => by
    have hp : 2 ^ (len + 1) = 2 ^ len + 2 ^ len := by rw [Nat.pow_succ]; omega
    have hle : 2 ^ (len + 1) ≤ 2 ^ (len + (n + 1)) := Nat.pow_le_pow_right (by omega) (by omega)
    have e : len + (n + 1) = (len + 1) + n := by omega
    obtain ⟨T', h1, h2⟩ := growAll_spec n (len + 1)
      (fun i => if 2 ^ len ≤ i ∧ i < 2 ^ len + 2 ^ len then T (i - 2 ^ len) else T i) (by rw [← e]; exact h)
    refine ⟨T', ?_, ?_⟩
    · simp only [growAll, Tab.double, if_pos (show 2 ^ len + 2 ^ len ≤ cap by omega)]
      rw [← h1, Nat.pow_succ]
    · intro i hi
      rw [h2 i (by rw [← e]; exact hi)]
      have hlt : i % 2 ^ (len + 1) < 2 ^ (len + 1) := Nat.mod_lt _ (Nat.two_pow_pos _)
      have hm : i % 2 ^ (len + 1) % 2 ^ len = i % 2 ^ len := Nat.mod_mod_of_dvd _ (Nat.pow_dvd_pow 2 (by omega))
      rw [← hm]
      exact double_eq T (by omega)

theorem nextLen_spec {cap : Nat} {cnt : Nat → Nat} {tb l' : Nat} (hcap : 2 ^ tb ≤ cap) (h0 : cnt l' ≠ 0) (h15 : l' ≤ 15) :
    ∀ (fuel len : Nat) (T : Tab), len < l' → l' - len ≤ fuel → (∀ k, len < k → k < l' → cnt k = 0) →
    ∃ T', nextLen cap cnt tb fuel len (2 ^ min len tb) T = some (l', 2 ^ min l' tb, T') ∧
      ∀ i < 2 ^ min l' tb, T' i = T (i % 2 ^ min len tb)
  | 0, len, T, h1, h2, _ => by omega
  | fuel + 1, len, T, h1, h2, h3 => by
    by_cases hlt : len + 1 ≤ tb
    · have e1 : min len tb = len := by omega
      have e2 : min (len + 1) tb = len + 1 := by omega
      have hp : 2 ^ (len + 1) = 2 ^ len + 2 ^ len := by rw [Nat.pow_succ]; omega
      have hle : 2 ^ (len + 1) ≤ 2 ^ tb := Nat.pow_le_pow_right (by omega) hlt
      simp only [nextLen, if_pos hlt, e1, Tab.double, if_pos (show 2 ^ len + 2 ^ len ≤ cap by omega), Option.map_some,
        if_neg (show ¬ 15 < len + 1 by omega)]
      by_cases hk : len + 1 = l'
      · subst hk
        simp only [if_neg h0]
        refine ⟨_, by rw [e2, Nat.pow_succ], ?_⟩
        intro i hi
        rw [e2] at hi
        exact double_eq T (by omega)
      · simp only [if_pos (h3 (len + 1) (by omega) (by omega))]
        obtain ⟨T', g1, g2⟩ := nextLen_spec hcap h0 h15 fuel (len + 1)
          (fun i => if 2 ^ len ≤ i ∧ i < 2 ^ len + 2 ^ len then T (i - 2 ^ len) else T i) (by omega) (by omega)
          (fun k a b => h3 k (by omega) b)
        refine ⟨T', by rw [← g1, e2, Nat.pow_succ], ?_⟩
        intro i hi
        rw [g2 i hi, e2]
        have hlt : i % 2 ^ (len + 1) < 2 ^ (len + 1) := Nat.mod_lt _ (Nat.two_pow_pos _)
        have hm : i % 2 ^ (len + 1) % 2 ^ len = i % 2 ^ len := Nat.mod_mod_of_dvd _ (Nat.pow_dvd_pow 2 (by omega))
        rw [← hm]
        exact double_eq T (by omega)
    · have e1 : min len tb = tb := by omega
      simp only [nextLen, if_neg hlt, if_neg (show ¬ 15 < len + 1 by omega)]
      by_cases hk : len + 1 = l'
      · subst hk
        simp only [if_neg h0]
        have e2 : min (len + 1) tb = tb := by omega
        exact ⟨T, by rw [e1, e2], fun i hi => by rw [e1, Nat.mod_eq_of_lt (by rw [← e2]; exact hi)]⟩
      · simp only [if_pos (h3 (len + 1) (by omega) (by omega))]
        have e2 : min (len + 1) tb = tb := by omega
        obtain ⟨T', g1, g2⟩ := nextLen_spec hcap h0 h15 fuel (len + 1) T (by omega) (by omega) (fun k a b => h3 k (by omega) b)
        rw [e2] at g1 g2
        rw [e1]
        exact ⟨T', g1, g2⟩

theorem advanceLen_spec {cnt : Nat → Nat} {l' : Nat} (h0 : cnt l' ≠ 0) (h15 : l' ≤ 15) :
    ∀ (fuel len : Nat), len < l' → l' - len < fuel → (∀ k, len < k → k < l' → cnt k = 0) →
    advanceLen cnt fuel len 0 = some (l', cnt l')
  | 0, len, h1, h2, _ => by omega
  | fuel + 1, len, h1, h2, h3 => by
    simp only [advanceLen, if_true, if_neg (show ¬ 15 < len + 1 by omega)]
    by_cases hk : len + 1 = l'
    · subst hk
      cases fuel with
      | zero => omega
      | succ fuel => simp only [advanceLen, if_neg h0]
    · rw [h3 (len + 1) (by omega) (by omega)]
      exact advanceLen_spec h0 h15 fuel (len + 1) (by omega) (by omega) (fun k a b => h3 k (by omega) b)

theorem firstLen_spec {cnt : Nat → Nat} {l' : Nat} (h0 : cnt l' ≠ 0) (h15 : l' ≤ 15) :
    ∀ (fuel len : Nat), len ≤ l' → l' - len < fuel → (∀ k, len ≤ k → k < l' → cnt k = 0) → firstLen cnt fuel len = some l'
  | 0, len, h1, h2, _ => by omega
  | fuel + 1, len, h1, h2, h3 => by
    simp only [firstLen, if_neg (show ¬ 15 < len by omega)]
    by_cases hk : len = l'
    · subst hk
      simp only [if_neg h0]
    · simp only [if_pos (h3 len (by omega) (by omega))]
      exact firstLen_spec h0 h15 fuel (len + 1) (by omega) (by omega) (fun k a b => h3 k (by omega) b)

/-- What the counters say about the remaining symbols. -/
def Counts (cnt : Nat → Nat) (R : List (Nat × Nat)) (l count : Nat) : Prop :=
  count = cntL R l ∧ ∀ k, l < k → cnt k = cntL R k

theorem cntL_cons (s l : Nat) (R : List (Nat × Nat)) (k : Nat) : cntL ((s, l) :: R) k = cntL R k + (if l = k then 1 else 0) := by
  simp only [cntL, List.countP_cons]
  by_cases h : l = k <;> simp [h]

theorem cntL_zero {R : List (Nat × Nat)} {k : Nat} (h : ∀ r ∈ R, r.2 ≠ k) : cntL R k = 0 := by
  simp only [cntL, List.countP_eq_zero]
  intro r hr
  simpa using h r hr

/-- After a symbol: either the next symbol has the same length, or the length is exhausted. -/
theorem Counts.next {cnt : Nat → Nat} {s l count s' l' : Nat} {R : List (Nat × Nat)} {P : Nat}
    (hL : Lay P ((s, l) :: (s', l') :: R)) (hc : Counts cnt ((s, l) :: (s', l') :: R) l count) :
    (count - 1 ≠ 0 → l' = l ∧ Counts cnt ((s', l') :: R) l' (count - 1)) ∧
    (count - 1 = 0 → l < l' ∧ (∀ k, l < k → k < l' → cnt k = 0) ∧ cnt l' ≠ 0 ∧ Counts cnt ((s', l') :: R) l' (cnt l')) := by
  obtain ⟨hc1, hc2⟩ := hc
  obtain ⟨_, _, _, hs, _, _, _, hs', _⟩ := hL
  have hll : l ≤ l' := hs (s', l') List.mem_cons_self
  have hge : ∀ r ∈ (s', l') :: R, l' ≤ r.2 := by
    intro r hr
    rcases List.mem_cons.1 hr with rfl | hr
    · exact Nat.le_refl _
    · exact hs' r hr
  rw [cntL_cons, if_pos rfl] at hc1
  constructor
  · intro hne
    have hl : l' = l := by
      by_contra h
      apply hne
      have : cntL ((s', l') :: R) l = 0 := cntL_zero (fun r hr => by have := hge r hr; omega)
      omega
    subst hl
    refine ⟨rfl, by omega, ?_⟩
    intro k hk
    rw [hc2 k hk, cntL_cons, if_neg (by omega), Nat.add_zero]
  · intro h0
    have hl : l < l' := by
      by_contra h
      have e : l' = l := by omega
      subst e
      rw [cntL_cons, if_pos rfl] at hc1
      omega
    have hcnt : ∀ k, l < k → cnt k = cntL ((s', l') :: R) k := by
      intro k hk
      rw [hc2 k hk, cntL_cons (k := k), if_neg (by omega), Nat.add_zero]
    refine ⟨hl, ?_, ?_, hcnt l' hl, fun k hk => hcnt k (by omega)⟩
    · intro k h1 h2
      rw [hcnt k h1]
      exact cntL_zero (fun r hr => by have := hge r hr; omega)
    · rw [hcnt l' hl, cntL_cons, if_pos rfl]
      omega

end Blend2D.Deflate
