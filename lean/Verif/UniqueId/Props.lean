import Verif.UniqueId.Model
/-!
# C23: generated unique identifiers are unique
-/
namespace Blend2D.UniqueId

/-- Does thread `t` own a range of identifiers it did not return yet? -/
def Owns (s : State) (t : Nat) : Prop := s.ready t = true ∨ s.tls t % 256 ≠ 0

theorem and_255 (n : Nat) : n &&& (kLocalCacheCount - 1) = n % 256 := by
  have := Nat.and_two_pow_sub_one_eq_mod n 8
  simpa [kLocalCacheCount] using this

structure Inv (s : State) : Prop where
  index : s.index = 256 * s.fetches
  range : ∀ t, Owns s t → s.tls t / 256 < s.fetches
  apart : ∀ t u, Owns s t → Owns s u → t ≠ u → s.tls t / 256 ≠ s.tls u / 256
  issued : ∀ x ∈ s.issued, 1 ≤ x ∧ x ≤ 256 * s.fetches
  nodup : s.issued.Nodup
  fresh : ∀ t, Owns s t → ∀ x ∈ s.issued, ¬ (s.tls t < x ∧ x ≤ 256 * (s.tls t / 256 + 1))

theorem fetches_mono (s : State) (t : Nat) : s.fetches ≤ (step s t).fetches := by
  unfold step
  split
  · exact Nat.le_refl _
  · split
    · exact Nat.le_succ _
    · exact Nat.le_refl _

theorem inv_step {s : State} (h : Inv s) (t : Nat) (hb : (step s t).fetches < 2 ^ 56) : Inv (step s t) := by
  by_cases hr : s.ready t = true
  · -- an identifier is returned
    have hst : step s t = { s with
        tls := fun u => if u = t then (s.tls t + 1) % 2 ^ 64 else s.tls u
        ready := fun u => if u = t then false else s.ready u
        issued := (s.tls t + 1) % 2 ^ 64 :: s.issued } := by simp [step, hr]
    rw [hst] at hb ⊢
    change s.fetches < 2 ^ 56 at hb
    have ho : Owns s t := .inl hr
    have hrt := h.range t ho
    have hid : (s.tls t + 1) % 2 ^ 64 = s.tls t + 1 := by omega
    rw [hid]
    have own : ∀ u, Owns { s with
        tls := fun u => if u = t then s.tls t + 1 else s.tls u
        ready := fun u => if u = t then false else s.ready u
        issued := (s.tls t + 1) :: s.issued } u → Owns s u ∧ (u = t → (s.tls t + 1) % 256 ≠ 0) := by
      intro u hu
      by_cases hut : u = t
      · subst hut
        refine ⟨ho, fun _ => ?_⟩
        rcases hu with hu | hu
        · simp at hu
        · simpa using hu
      · refine ⟨?_, fun hh => absurd hh hut⟩
        rcases hu with hu | hu
        · left; simpa [hut] using hu
        · right; simpa [hut] using hu
    refine ⟨h.index, ?_, ?_, ?_, ?_, ?_⟩
    · intro u hu
      obtain ⟨h1, h2⟩ := own u hu
      have := h.range u h1
      by_cases hut : u = t
      · subst hut
        have := h2 rfl
        simp only [if_true]; omega
      · simpa [hut] using this
    · intro u v hu hv huv
      obtain ⟨h1, h2⟩ := own u hu
      obtain ⟨h3, h4⟩ := own v hv
      have := h.apart u v h1 h3 huv
      by_cases hut : u = t
      · subst hut
        have := h2 rfl
        have hv' : v ≠ u := fun hh => huv hh.symm
        simp only [if_true, if_neg hv']; omega
      · by_cases hvt : v = t
        · subst hvt
          have := h4 rfl
          simp only [if_true, if_neg hut]; omega
        · simpa [hut, hvt] using this
    · intro x hx
      simp only [List.mem_cons] at hx
      rcases hx with rfl | hx
      · simp only; omega
      · exact h.issued x hx
    · simp only [List.nodup_cons]
      refine ⟨fun hx => h.fresh t ho _ hx ⟨by omega, by omega⟩, h.nodup⟩
    · intro u hu x hx
      obtain ⟨h1, h2⟩ := own u hu
      simp only [List.mem_cons] at hx
      by_cases hut : u = t
      · subst hut
        have := h2 rfl
        simp only [if_true]
        rcases hx with rfl | hx
        · omega
        · have := h.fresh u h1 x hx; omega
      · simp only [if_neg hut]
        rcases hx with rfl | hx
        · have := h.apart u t h1 ho hut; omega
        · exact h.fresh u h1 x hx
  · by_cases hc : s.tls t % 256 = 0
    · -- a range is fetched
      have hst : step s t = { s with
          index := (s.index + 256) % 2 ^ 64
          tls := fun u => if u = t then s.index else s.tls u
          ready := fun u => if u = t then true else s.ready u
          fetches := s.fetches + 1 } := by
        simp only [step, hr, and_255, hc, if_true, Bool.false_eq_true, if_false]; rfl
      rw [hst] at hb ⊢
      change s.fetches + 1 < 2 ^ 56 at hb
      have hi := h.index
      have own : ∀ u, u ≠ t → Owns { s with
          index := (s.index + 256) % 2 ^ 64
          tls := fun u => if u = t then s.index else s.tls u
          ready := fun u => if u = t then true else s.ready u
          fetches := s.fetches + 1 } u → Owns s u := by
        intro u hut hu
        rcases hu with hu | hu
        · left; simpa [hut] using hu
        · right; simpa [hut] using hu
      refine ⟨?_, ?_, ?_, ?_, h.nodup, ?_⟩
      · simp only; omega
      · intro u hu
        by_cases hut : u = t
        · subst hut; simp only [if_true]; omega
        · have := h.range u (own u hut hu)
          simp only [if_neg hut]; omega
      · intro u v hu hv huv
        by_cases hut : u = t
        · have hvt : v ≠ t := fun hh => huv (hut.trans hh.symm)
          have := h.range v (own v hvt hv)
          simp only [if_pos hut, if_neg hvt]; omega
        · have hu' := own u hut hu
          by_cases hvt : v = t
          · have := h.range u hu'
            simp only [if_pos hvt, if_neg hut]; omega
          · simpa [hut, hvt] using h.apart u v hu' (own v hvt hv) huv
      · intro x hx
        have := h.issued x hx
        simp only; omega
      · intro u hu x hx
        by_cases hut : u = t
        · have := h.issued x hx
          simp only [if_pos hut]; omega
        · simpa [hut] using h.fresh u (own u hut hu) x hx
    · have hst : step s t = { s with ready := fun u => if u = t then true else s.ready u } := by
        simp only [step, hr, and_255, hc, if_false, Bool.false_eq_true]
      rw [hst]
      have own : ∀ u, Owns { s with ready := fun u => if u = t then true else s.ready u } u → Owns s u := by
        intro u hu
        by_cases hut : u = t
        · subst hut; exact .inr hc
        · rcases hu with hu | hu
          · left; simpa [hut] using hu
          · exact .inr hu
      exact ⟨h.index, fun u hu => h.range u (own u hu), fun u v hu hv => h.apart u v (own u hu) (own v hv), h.issued, h.nodup,
        fun u hu => h.fresh u (own u hu)⟩

theorem reach_inv {s : State} (h : Reach s) : s.fetches < 2 ^ 56 → Inv s := by
  induction h with
  | init =>
    intro _
    have : ∀ t, ¬ Owns initial t := by intro t ht; rcases ht with ht | ht <;> simp [initial] at ht
    exact ⟨rfl, fun t ht => absurd ht (this t), fun t u ht => absurd ht (this t), fun x hx => by simp [initial] at hx, by simp [initial],
      fun t ht => absurd ht (this t)⟩
  | step t _ ih =>
    intro hb
    exact inv_step (ih (Nat.lt_of_le_of_lt (fetches_mono _ t) hb)) t hb

/-- C23: with 64-bit atomics and thread local caches, all identifiers ever returned to any thread in any schedule are different and
none is zero, as long as fewer than 2^56 ranges of 256 were fetched (which takes centuries). -/
theorem C23_unique (s : State) (h : Reach s) (hb : s.fetches < 2 ^ 56) : s.issued.Nodup ∧ 0 ∉ s.issued := by
  have hi := reach_inv h hb
  exact ⟨hi.nodup, fun h0 => by have := (hi.issued 0 h0).1; omega⟩

theorem runNoTls_spec (k : Nat) (hk : k < 2 ^ 64) : (runNoTls k).1 = k ∧ (∀ x ∈ (runNoTls k).2, 1 ≤ x ∧ x ≤ k) ∧ (runNoTls k).2.Nodup := by
  induction k with
  | zero => simp [runNoTls]
  | succ k ih =>
    obtain ⟨h1, h2, h3⟩ := ih (by omega)
    have hm : (k + 1) % 2 ^ 64 = k + 1 := Nat.mod_eq_of_lt hk
    simp only [runNoTls, stepNoTls, h1, hm, List.mem_cons, List.nodup_cons]
    refine ⟨trivial, ?_, ?_, h3⟩
    · rintro x (rfl | hx)
      · omega
      · have := h2 x hx; omega
    · intro hx; have := h2 _ hx; omega

/-- C23: the same without thread local storage, for the first 2^64 - 1 identifiers. -/
theorem C23_unique_no_tls (k : Nat) (hk : k < 2 ^ 64) : (runNoTls k).2.length = k ∧ (runNoTls k).2.Nodup ∧ 0 ∉ (runNoTls k).2 := by
  obtain ⟨h1, h2, h3⟩ := runNoTls_spec k hk
  refine ⟨?_, h3, fun h0 => by have := (h2 0 h0).1; omega⟩
  have : ∀ k, (runNoTls k).2.length = k := by
    intro k; induction k with
    | zero => rfl
    | succ k ih => simp [runNoTls, stepNoTls, ih]
  exact this k

/-- Two threads interleave. -/
example : (([0, 1, 1, 0, 0, 1, 0, 1].foldl step initial).issued) = [258, 2, 1, 257] := by decide +kernel

/-! ## The 32-bit fallback -/

/-- Thread `t` runs its loop `k` times without meeting the threshold. -/
theorem run32 (n : Nat) (t : Nat) (s : State32) (h : Reach32 n s) (hpc : s.pc t = .load) :
    ∀ k, s.lo + n * k ≤ 2 ^ 31 → ∃ s', Reach32 n s' ∧ s'.hi = s.hi ∧ s'.lo = s.lo + n * k ∧ s'.pc = s.pc ∧
      (∃ x, s'.returned = x ++ s.returned) := by
  intro k
  induction k with
  | zero => intro _; exact ⟨s, h, rfl, by simp, rfl, [], rfl⟩
  | succ k ih =>
    intro hk
    rw [Nat.mul_succ] at hk
    obtain ⟨s', h1, h2, h3, h4, x, h5⟩ := ih (by omega)
    have hp : s'.pc t = .load := by rw [h4]; exact hpc
    have r1 := Reach32.step t h1
    have r2 := Reach32.step t r1
    by_cases hn : n = 0
    · subst hn; exact ⟨s', h1, h2, by rw [h3]; simp, h4, x, h5⟩
    have hlt : s'.lo < 2 ^ 31 := by rw [h3]; omega
    have hbit : ¬ (s'.lo &&& 0x80000000 ≠ 0) := by
      have : s'.lo &&& 0x80000000 = 0 := by
        apply Nat.eq_of_testBit_eq
        intro i
        rw [Nat.testBit_and]
        have h31 : (0x80000000 : Nat) = 2 ^ 31 := rfl
        rw [h31, Nat.testBit_two_pow]
        by_cases hi : 31 = i
        · subst hi; rw [Nat.testBit_lt_two_pow hlt]; simp
        · simp [hi]
      simp [this]
    refine ⟨_, r2, ?_, ?_, ?_, ?_⟩
    · simp [step32, hp, hbit, h2]
    · simp only [step32, hp, hbit, if_true, if_false]
      rw [h3, Nat.mul_succ, Nat.mod_eq_of_lt (by omega)]; omega
    · simp only [step32, hp, hbit, if_true, if_false]
      funext u
      by_cases hu : u = t
      · subst hu; simp [hpc]
      · simp [hu, h4]
    · simp only [step32, hp, hbit, if_true, if_false]
      exact ⟨_ :: x, by rw [h5]; rfl⟩

/-- Counterexample: on targets without 64-bit atomics two threads can be given the same identifiers.  A thread reads the high word
and is suspended while other threads use up the low word and start over; the range it gets then is one that was
returned before. -/
theorem C23_32bit_duplicates : ∃ s, Reach32 256 s ∧ ¬ s.returned.Nodup := by
  -- thread 0 takes two ranges
  have a1 := Reach32.step 0 (Reach32.step 0 (Reach32.step 0 (Reach32.step 0 (Reach32.init (n := 256)))))
  -- thread 1 reads `_hi`
  have a2 := Reach32.step 1 a1
  obtain ⟨s, hs⟩ : ∃ s, s = step32 256 (step32 256 (step32 256 (step32 256 (step32 256 initial32 0) 0) 0) 0) 1 := ⟨_, rfl⟩
  rw [← hs] at a2
  have e0 : s.pc 0 = .load := by rw [hs]; decide
  have e1 : s.pc 1 = .add 0 := by rw [hs]; decide
  have elo : s.lo = 512 := by rw [hs]; decide
  have er : s.returned = [256, 0] := by rw [hs]; decide
  -- thread 0 uses up the low word
  obtain ⟨s', h1, h2, h3, h4, x, h5⟩ := run32 256 0 s a2 e0 (2 ^ 23 - 2) (by rw [elo]; decide)
  have hlo : s'.lo = 2 ^ 31 := by rw [h3, elo]
  have p0 : s'.pc 0 = .load := by rw [h4, e0]
  have p1 : s'.pc 1 = .add 0 := by rw [h4, e1]
  -- thread 0 reaches the threshold and clears it, leaving 256 in the low word
  have b1 := Reach32.step 0 h1
  have b2 := Reach32.step 0 b1
  have b3 := Reach32.step 0 b2
  have b4 := Reach32.step 0 b3
  obtain ⟨t, ht⟩ : ∃ t, t = step32 256 (step32 256 (step32 256 (step32 256 s' 0) 0) 0) 0 := ⟨_, rfl⟩
  rw [← ht] at b4
  have t1 : t.lo = 256 ∧ t.pc 1 = .add 0 ∧ t.pc 0 = .load ∧ t.returned = s'.returned := by
    rw [ht]
    simp [step32, p0, p1, hlo]
  -- and thread 1 finally adds: it returns the range at 256 of era 0, which thread 0 got already.
  have c1 := Reach32.step 1 b4
  refine ⟨_, c1, ?_⟩
  have hret : (step32 256 t 1).returned = 256 :: s'.returned := by
    simp [step32, t1.2.1, t1.1, t1.2.2.2]
  rw [hret, List.nodup_cons]
  intro hc
  apply hc.1
  rw [h5, er]
  simp

end Blend2D.UniqueId
