import Verif.Worker.Invariant

/-!
# Multi-threaded rendering: properties C24 and C25 (futex implementation)

`Reach n s` ranges over every interleaving of one user thread and `n` workers, over
any number of consecutive batches with any numbers of jobs and bands, with spurious
wake-ups allowed at any time.
-/

namespace Blend2D.Worker

theorem perm_range_of_count {l : List Nat} {m : Nat} (h1 : ∀ x ∈ l, x < m)
    (h2 : ∀ x, x < m → l.count x = 1) : l.Perm (List.range m) := by
  rw [List.perm_iff_count]
  intro a
  by_cases ha : a < m
  · rw [h2 a ha]
    exact ((List.nodup_range).count.trans (if_pos (List.mem_range.2 ha))).symm
  · rw [List.count_eq_zero_of_not_mem (fun hm => ha (h1 a hm)),
      List.count_eq_zero_of_not_mem (fun hm => ha (List.mem_range.1 hm))]

theorem jobs_complete {n : Nat} {s : State} (h : Inv n s) (hp : s.cnt pend = 0)
    (hpast : s.cnt past ≠ 0) : s.jobLog.Perm (List.range s.jobs) := by
  have hidx := h.idx hpast
  refine perm_range_of_count h.execlt ?_
  intro j hj
  have e := h.exec j
  have hz : s.cnt (isExec j) = 0 := by
    rw [State.cnt, List.countP_eq_zero] at hp ⊢
    intro t ht
    have := hp t ht
    obtain ⟨pc, todo⟩ := t
    cases pc <;> simp_all [pend, isExec]
  rw [hz, due, if_pos (by omega)] at e
  omega

/-- **C24.** At every moment every job of the current batch has been executed or is being
executed at most once, no matter how the threads interleave, and nothing else is. -/
theorem C24_job_at_most_once {n : Nat} {s : State} (h : Reach n s) :
    s.jobLog.Nodup ∧ (∀ j ∈ s.jobLog, j < s.jobs) ∧
    (∀ (i : Nat) j todo, s.ths[i]? = some ⟨.exec j, todo⟩ → j < s.jobs ∧ j ∉ s.jobLog ∧
      ∀ (k : Nat) todo', s.ths[k]? = some ⟨.exec j, todo'⟩ → k = i) := by
  have hi := h.inv
  refine ⟨?_, hi.execlt, ?_⟩
  · rw [List.nodup_iff_count]
    intro j
    have := hi.exec j
    simp only [due] at this
    split at this <;> omega
  · intro i j todo ht
    have e := hi.exec j
    have hpos : 0 < s.cnt (isExec j) := countP_pos ht (by simp [isExec])
    simp only [due] at e
    split at e
    · rename_i hc
      refine ⟨hc.2, fun hm => ?_, ?_⟩
      · have := List.count_pos_iff.2 hm; omega
      · intro k todo' hk
        by_cases hik : k = i
        · exact hik
        · exfalso
          have hset : (s.ths.set i ⟨.idle, false⟩)[k]? = some ⟨.exec j, todo'⟩ := by
            rw [List.getElem?_set_ne (fun e => hik e.symm)]; exact hk
          have c := countP_set_add (isExec j) ⟨.idle, false⟩ ht
          have c' := countP_pos (p := isExec j) hset (by simp [isExec])
          have e1 : isExec j ⟨.exec j, todo⟩ = true := by simp [isExec]
          have e2 : isExec j ⟨.idle, false⟩ = false := rfl
          rw [e1, e2, Bool.toNat_true, Bool.toNat_false] at c
          simp only [State.cnt] at e
          omega
    · omega

/-- **C24.** At every moment every band has been rendered at most once, and a band is
only ever touched by the worker whose number is the band number modulo the number of
threads — so no two threads ever render the same band. -/
theorem C24_band_at_most_once {n : Nat} {s : State} (h : Reach n s) :
    s.bandLog.Nodup ∧ (∀ b ∈ s.bandLog, b < s.bands) ∧
    (∀ (i : Nat) b todo, s.ths[i]? = some ⟨.band b, todo⟩ → b % (n + 1) = i ∧
      (b < s.bands → b ∉ s.bandLog)) := by
  have hi := h.inv
  have hN : ∀ b : Nat, ∃ t, s.ths[b % (n + 1)]? = some t := by
    intro b
    have : b % (n + 1) < s.ths.length := by rw [hi.len]; exact Nat.mod_lt _ (by omega)
    exact ⟨_, List.getElem?_eq_getElem this⟩
  refine ⟨?_, hi.bandlt, ?_⟩
  · rw [List.nodup_iff_count]
    intro b
    by_cases hb : b < s.bands
    · obtain ⟨t, ht⟩ := hN b
      rw [hi.band b hb t ht]
      cases prog b t <;> simp
    · rw [List.count_eq_zero_of_not_mem (fun hm => hb (hi.bandlt b hm))]; omega
  · intro i b todo ht
    have hb := (hi.loc i _ ht).band b rfl
    refine ⟨hb, fun hlt hm => ?_⟩
    have e := hi.band b hlt ⟨.band b, todo⟩ (by rw [hb]; exact ht)
    have := List.count_pos_iff.2 hm
    rw [e] at this
    cases todo <;> simp [prog] at this

/-- **C24/C25.** When the user's call returns, every job of the batch has been executed
exactly once, every band has been rendered exactly once, and no other thread is still
working on the batch. -/
theorem C24_batch_complete {n : Nat} {s : State} (h : Reach n s) (hu : s.userIdle) :
    s.jobLog.Perm (List.range s.jobs) ∧ s.bandLog.Perm (List.range s.bands) ∧
    ∀ t ∈ s.ths, t.todo = false ∧ (t.pc = .idle ∨ t.pc = .wakeDone) := by
  have hi := h.inv
  obtain ⟨u, hu0, hq, _⟩ := hi.glob
  obtain ⟨u', hu', hpc⟩ := hu
  rw [hu0] at hu'; cases hu'
  obtain ⟨hbusy, _⟩ := hq (by simp [isIdle, hpc])
  have hth : ∀ t ∈ s.ths, t.todo = false ∧ (t.pc = .idle ∨ t.pc = .wakeDone) := by
    intro t ht
    rw [State.cnt, List.countP_eq_zero] at hbusy
    have := hbusy t ht
    obtain ⟨pc, todo⟩ := t
    cases todo <;> cases pc <;> simp_all [busy]
  refine ⟨?_, ?_, hth⟩
  · apply jobs_complete hi
    · rw [State.cnt, List.countP_eq_zero]
      intro t ht
      obtain ⟨h1, h2⟩ := hth t ht
      rcases h2 with e | e <;> simp [pend, h1, e]
    · have : 0 < s.cnt past := by
        apply countP_pos hu0
        have := (hth u (List.mem_of_getElem? hu0)).1
        simp [past, hpc, this]
      omega
  · refine perm_range_of_count hi.bandlt ?_
    intro b hb
    have hlt : b % (n + 1) < s.ths.length := by rw [hi.len]; exact Nat.mod_lt _ (by omega)
    have ht := List.getElem?_eq_getElem hlt
    rw [hi.band b hb _ ht]
    obtain ⟨h1, h2⟩ := hth _ (List.getElem_mem hlt)
    rcases h2 with e | e <;> simp [prog, h1, e]

/-- **C25, the barrier.** As long as any job of the batch is unfinished, no thread has
started rendering bands: whenever some thread is rendering, or has rendered, any band,
all jobs are done. -/
theorem C25_barrier {n : Nat} {s : State} (h : Reach n s)
    (hb : s.bandLog ≠ [] ∨ ∃ (i : Nat) (b : Nat) (todo : Bool), s.ths[i]? = some ⟨.band b, todo⟩) :
    s.jobLog.Perm (List.range s.jobs) := by
  have hi := h.inv
  have key : ∃ (i : Nat) (t : Th), s.ths[i]? = some t ∧ passed t = true ∧ past t = true := by
    rcases hb with hb | ⟨i, b, todo, hb⟩
    · obtain ⟨b, hb⟩ := List.exists_mem_of_ne_nil _ hb
      have hlt : b % (n + 1) < s.ths.length := by rw [hi.len]; exact Nat.mod_lt _ (by omega)
      have ht := List.getElem?_eq_getElem hlt
      have e := hi.band b (hi.bandlt b hb) _ ht
      have hp := List.count_pos_iff.2 hb
      rw [e] at hp
      refine ⟨_, _, ht, ?_⟩
      generalize s.ths[b % (n + 1)] = t at hp
      obtain ⟨pc, todo⟩ := t
      cases todo <;> cases pc <;> simp_all [prog, passed, past]
    · refine ⟨i, _, hb, ?_⟩
      have := (hi.loc i _ hb).todo
      cases todo with
      | true => have := (this rfl).2; simp at this
      | false => simp [passed, past]
  obtain ⟨i, t, ht, h1, h2⟩ := key
  have hpassed := countP_pos ht h1
  have hpast := countP_pos ht h2
  obtain ⟨u, hu, hq, ha⟩ := hi.glob
  by_cases hid : u.pc = .idle
  · exact (C24_batch_complete h ⟨u, hu, hid⟩).1
  · have hz : (isIdle u).toNat = 0 := by
      obtain ⟨pc, todo⟩ := u
      cases pc <;> simp_all [isIdle]
    obtain ⟨J, _⟩ := ha hz
    by_cases hj : s.jobs = 0
    · rw [hj]
      have : s.jobLog = [] := by
        cases hl : s.jobLog with
        | nil => rfl
        | cons a l => have := hi.execlt a (by simp [hl]); omega
      rw [this]; exact List.Perm.refl _
    · by_cases hf : s.jobsFin = 0
      · have := (J.before hj hf).1
        simp only [State.cnt] at this; omega
      · apply jobs_complete hi (J.after hj hf).2.1
        simp only [State.cnt]; omega

/-- **C25, no deadlock.** As long as the user's call has not returned, some thread can
make a step: it is impossible that all of them wait for each other. -/
theorem C25_no_deadlock {n : Nat} {s : State} (h : Reach n s) (hu : ¬ s.userIdle) :
    ∃ (i : Nat) (t : Th) (s' : State), s.ths[i]? = some t ∧ stepTh s i t = some s' := by
  have hi := h.inv
  obtain ⟨u, hu0, hq, ha⟩ := hi.glob
  have hid : u.pc ≠ .idle := fun e => hu ⟨u, hu0, e⟩
  have hz : (isIdle u).toNat = 0 := by
    obtain ⟨pc, todo⟩ := u
    cases pc <;> simp_all [isIdle]
  obtain ⟨J, D⟩ := ha hz
  by_cases hex : ∃ (i : Nat) (t : Th) (s' : State), s.ths[i]? = some t ∧ stepTh s i t = some s'
  · exact hex
  · exfalso
    have hblk : ∀ t ∈ s.ths, t.pc = .sleepJobs ∨ t.pc = .sleepDone ∨ (t.pc = .idle ∧ t.todo = false) := by
      intro t ht
      obtain ⟨i, hti⟩ := List.mem_iff_getElem?.1 ht
      cases hst : stepTh s i t with
      | some s' => exact absurd ⟨i, t, s', hti, hst⟩ hex
      | none =>
        obtain ⟨pc, todo⟩ := t
        cases pc <;> simp [stepTh] at hst <;> simp [hst]
    have hnone : ∀ p : Th → Bool, (∀ todo, p ⟨.sleepJobs, todo⟩ = false) →
        (∀ todo, p ⟨.sleepDone, todo⟩ = false) → p ⟨.idle, false⟩ = false → s.cnt p = 0 := by
      intro p h1 h2 h3
      rw [State.cnt, List.countP_eq_zero]
      intro t ht
      obtain ⟨pc, todo⟩ := t
      rcases hblk _ ht with e | e | ⟨e, e'⟩
      · cases e; simp [h1]
      · cases e; simp [h2]
      · cases e; cases e'; simp [h3]
    have hsig := hnone isSig (fun _ => rfl) (fun _ => rfl) rfl
    have hwk := hnone isWake (fun _ => rfl) (fun _ => rfl) rfl
    have hsd := hnone isSigD (fun _ => rfl) (fun _ => rfl) rfl
    have hwd := hnone isWakeD (fun b => by cases b <;> rfl) (fun b => by cases b <;> rfl) rfl
    have htodo : ∀ t ∈ s.ths, t.todo = false := by
      intro t ht
      obtain ⟨i, hti⟩ := List.mem_iff_getElem?.1 ht
      cases e : t.todo with
      | false => rfl
      | true =>
        have := ((hi.loc i t hti).todo e).2
        rcases hblk t ht with e1 | e1 | ⟨e1, e2⟩
        · rw [e1] at this; simp at this
        · rw [e1] at this; simp at this
        · rw [e] at e2; cases e2
    have hpend : s.cnt pend = 0 := by
      rw [State.cnt, List.countP_eq_zero]
      intro t ht
      have h1 := htodo t ht
      obtain ⟨pc, todo⟩ := t
      rcases hblk _ ht with e | e | ⟨e, _⟩ <;> cases e <;> cases h1 <;> simp [pend]
    have hsl : s.cnt isSleep = 0 := by
      by_cases hj : s.jobs = 0
      · have := J.nojobs hj
        rw [State.cnt, List.countP_eq_zero] at this ⊢
        intro t ht
        have := this t ht
        obtain ⟨pc, todo⟩ := t
        cases pc <;> simp_all [inJobs, isSleep]
      · by_cases hf : s.jobsFin = 0
        · have := (J.before hj hf).2.1 hpend; omega
        · have := (J.after hj hf).2.2.2
          by_cases hne : s.cnt isSleep = 0
          · exact hne
          · have := this hne; omega
    have hun : s.cnt unfin = 0 := by
      rw [State.cnt, List.countP_eq_zero] at hsl ⊢
      intro t ht
      have h1 := htodo t ht
      have h2 := hsl t ht
      obtain ⟨pc, todo⟩ := t
      rcases hblk _ ht with e | e | ⟨e, _⟩ <;> cases e <;> cases h1 <;> simp_all [unfin, isSleep]
    have hrun := D.running
    rw [hun] at hrun
    have hus : u.pc = .sleepDone := by
      have hm := List.mem_of_getElem? hu0
      rcases hblk u hm with e | e | ⟨e, _⟩
      · rw [State.cnt, List.countP_eq_zero] at hsl
        exact absurd (by simp [isSleep, e]) (hsl u hm)
      · exact e
      · exact absurd e hid
    have hn := D.waits (by simp [isWaitD, hus])
    by_cases hb : s.bandsFin = 0
    · have := (D.notYet hb).2 (by omega) hn; omega
    · have := (D.signalled hb).2.2.2.2 (by simp [isSleepD, hus]); omega

/-! ## Termination -/

/-- How much a thread still has to do; depends on whether the two futex words have been set. -/
def rank (N bands : Nat) (jf bf : Bool) (t : Th) : Nat :=
  (if t.todo then 5 * N + 30 + bands else 0) + match t.pc with
  | .idle => 0
  | .wakeDone => 2 * N + 5
  | .sigDone => 4 * N + 10
  | .done => 4 * N + 11
  | .band b => 4 * N + 12 + (bands - b)
  | .wakeJobs => 4 * N + 14 + bands
  | .checkJobs => if jf then 4 * N + 14 + bands else 4 * N + 16 + bands
  | .sleepJobs => if jf then 4 * N + 15 + bands else 4 * N + 14 + bands
  | .waitJobs => if jf then 4 * N + 16 + bands else 4 * N + 15 + bands
  | .sigJobs => 5 * N + 17 + bands
  | .arrive => 5 * N + 18 + bands
  | .take => 5 * N + 19 + bands
  | .exec _ => 5 * N + 20 + bands
  | .readDone => if bf then 2 else 4
  | .waitDone => if bf then 4 else 3
  | .sleepDone => if bf then 3 else 2
  | .resetDone => 1

/-- An upper bound on the number of steps left in the current batch. -/
def State.measure (s : State) : Nat :=
  2 * (s.jobs - s.jobIndex) +
    (s.ths.map (rank s.ths.length s.bands (s.jobsFin != 0) (s.bandsFin != 0))).sum

theorem sum_set_add {l : List Th} {i : Nat} {t : Th} (r : Th → Nat) (x : Th)
    (h : l[i]? = some t) : ((l.set i x).map r).sum + r t = (l.map r).sum + r x := by
  induction l generalizing i with
  | nil => simp at h
  | cons a l ih =>
    cases i with
    | zero => simp at h; subst h; simp; omega
    | succ i =>
      rw [List.getElem?_cons_succ] at h
      have := ih h
      simp only [List.set_cons_succ, List.map_cons, List.sum_cons]; omega

theorem sum_le_add {l : List Th} (r r' : Th → Nat) (k : Nat) (h : ∀ t, r' t ≤ r t + k) :
    (l.map r').sum ≤ (l.map r).sum + k * l.length := by
  induction l with
  | nil => simp
  | cons a l ih =>
    have := h a
    simp only [List.map_cons, List.sum_cons, List.length_cons, Nat.mul_add]; omega

theorem sum_le {l : List Th} (r r' : Th → Nat) (h : ∀ t ∈ l, r' t ≤ r t) :
    (l.map r').sum ≤ (l.map r).sum := by
  induction l with
  | nil => simp
  | cons a l ih =>
    have := h a (by simp)
    have := ih (fun t ht => h t (by simp [ht]))
    simp; omega

theorem measure_goto {s : State} {i : Nat} {t : Th} (ht : s.ths[i]? = some t) (pc : PC)
    (h : rank s.ths.length s.bands (s.jobsFin != 0) (s.bandsFin != 0) ⟨pc, false⟩ <
      rank s.ths.length s.bands (s.jobsFin != 0) (s.bandsFin != 0) t) :
    (s.goto i pc).measure < s.measure := by
  have e := sum_set_add (rank s.ths.length s.bands (s.jobsFin != 0) (s.bandsFin != 0))
    ⟨pc, false⟩ ht
  simp only [State.measure, State.goto, List.length_set]
  omega

/-- **C25, termination.** Every step of a thread other than a spurious wake-up strictly
decreases `measure`.  So, together with `C25_no_deadlock`, a batch completes after at
most `measure` steps under every schedule that contains no spurious wake-ups, and
after finitely many under every schedule that contains finitely many of them. -/
theorem C25_terminates {n : Nat} {s s' : State} (h : Reach n s) (i : Nat) (t : Th)
    (ht : s.ths[i]? = some t) (hs : stepTh s i t = some s') : s'.measure < s.measure := by
  have hi := h.inv
  have hloc := hi.loc i t ht
  have hact : busy t = true → ∃ u, s.ths[0]? = some u ∧ ActJ s ∧ ActD n s u := by
    intro hb
    obtain ⟨u, hu, hq, ha⟩ := hi.glob
    have hpos := countP_pos ht hb
    have hz : (isIdle u).toNat = 0 := by
      cases e : isIdle u with
      | false => rfl
      | true =>
        have := (hq (by rw [e]; rfl)).1
        simp only [State.cnt] at this; omega
    exact ⟨u, hu, ha hz⟩
  obtain ⟨pc, todo⟩ := t
  cases pc with
  | idle =>
    simp only [stepTh] at hs
    cases todo with
    | false => simp at hs
    | true =>
      simp only [if_true, Option.some.injEq] at hs
      subst hs
      apply measure_goto ht
      simp only [rank, startPC]
      by_cases hj : s.jobs = 0 <;> simp [hj] <;> omega
  | take =>
    simp only [stepTh, Option.some.injEq] at hs
    subst hs
    by_cases hj : s.jobIndex ≥ s.jobs
    · simp only [if_pos hj]
      have := measure_goto ht .arrive (by simp only [rank]; simp; omega)
      simp only [State.measure, State.goto] at this ⊢
      omega
    · simp only [if_neg hj]
      have e := sum_set_add (rank s.ths.length s.bands (s.jobsFin != 0) (s.bandsFin != 0))
        ⟨.exec s.jobIndex, false⟩ ht
      simp only [State.measure, State.goto, List.length_set]
      simp only [rank] at e ⊢
      simp only [Bool.false_eq_true, if_false] at e
      omega
  | exec j =>
    simp only [stepTh, Option.some.injEq] at hs
    subst hs
    have := measure_goto ht .take (by simp only [rank]; simp; omega)
    simpa only [State.measure, State.goto] using this
  | arrive =>
    simp only [stepTh, Option.some.injEq] at hs
    subst hs
    have := measure_goto ht (if s.jobsRunning = 1 then .sigJobs else .waitJobs) (by
      simp only [rank]
      by_cases hj : s.jobsRunning = 1
      · simp [hj]; omega
      · simp only [if_neg hj]
        by_cases hf : s.jobsFin = 0 <;> simp [hf] <;> omega)
    simpa only [State.measure, State.goto] using this
  | sigJobs =>
    simp only [stepTh, Option.some.injEq] at hs
    subst hs
    obtain ⟨u, _, J, _⟩ := hact (by simp [busy])
    have hsig : 0 < s.cnt isSig := countP_pos ht rfl
    have hin : 0 < s.cnt inJobs := countP_pos ht rfl
    have hj : s.jobs ≠ 0 := fun e => by have := J.nojobs e; omega
    have hf : s.jobsFin = 0 := by
      by_cases e : s.jobsFin = 0
      · exact e
      · have := (J.after hj e).2.2.1; omega
    have htodo : todo = false := by
      cases todo with
      | false => rfl
      | true => have := (hloc.todo rfl).2; simp at this
    subst htodo
    have e := sum_set_add (rank s.ths.length s.bands true (s.bandsFin != 0))
      ⟨.wakeJobs, false⟩ ht
    have e2 := sum_le_add (l := s.ths) (rank s.ths.length s.bands false (s.bandsFin != 0))
      (rank s.ths.length s.bands true (s.bandsFin != 0)) 1 (by
        intro t
        obtain ⟨pc, todo⟩ := t
        cases pc <;> simp [rank] <;> omega)
    have d1 : (s.jobsFin + 1 != 0) = true := by simp
    have d2 : (s.jobsFin != 0) = false := by simp [hf]
    simp only [State.measure, State.goto, List.length_set, d1, d2]
    have r1 : rank s.ths.length s.bands true (s.bandsFin != 0) ⟨.sigJobs, false⟩ =
      5 * s.ths.length + 17 + s.bands := by simp [rank]
    have r2 : rank s.ths.length s.bands true (s.bandsFin != 0) ⟨.wakeJobs, false⟩ =
      4 * s.ths.length + 14 + s.bands := by simp [rank]
    omega
  | wakeJobs =>
    simp only [stepTh, Option.some.injEq] at hs
    subst hs
    obtain ⟨u, _, J, _⟩ := hact (by simp [busy])
    have hin : 0 < s.cnt inJobs := countP_pos ht rfl
    have hj : s.jobs ≠ 0 := fun e => by have := J.nojobs e; omega
    have htodo : todo = false := by
      cases todo with
      | false => rfl
      | true => have := (hloc.todo rfl).2; simp at this
    subst htodo
    have hpa : 0 < s.cnt passed := countP_pos ht rfl
    have hf : s.jobsFin ≠ 0 := fun e => by have := (J.before hj e).1; omega
    have d2 : (s.jobsFin != 0) = true := by simp [hf]
    have ht' : (s.ths.map wakeJ)[i]? = some ⟨.wakeJobs, false⟩ := by
      rw [List.getElem?_map, ht]; rfl
    have e := sum_set_add (rank s.ths.length s.bands true (s.bandsFin != 0))
      ⟨.band i, false⟩ ht'
    have e2 := sum_le (l := s.ths) (rank s.ths.length s.bands true (s.bandsFin != 0))
      (rank s.ths.length s.bands true (s.bandsFin != 0) ∘ wakeJ) (by
        intro t _
        obtain ⟨pc, todo⟩ := t
        cases pc <;> simp [rank, wakeJ, Function.comp] <;> omega)
    rw [List.map_map] at e
    simp only [State.measure, State.goto, List.length_set, List.length_map, d2]
    have r1 : rank s.ths.length s.bands true (s.bandsFin != 0) ⟨.wakeJobs, false⟩ =
      4 * s.ths.length + 14 + s.bands := by simp [rank]
    have r2 : rank s.ths.length s.bands true (s.bandsFin != 0) ⟨.band i, false⟩ =
      4 * s.ths.length + 12 + (s.bands - i) := by simp [rank]
    omega
  | waitJobs =>
    simp only [stepTh, Option.some.injEq] at hs
    subst hs
    apply measure_goto ht
    by_cases hf : s.jobsFin = 0 <;> simp [rank, hf] <;> omega
  | sleepJobs => simp [stepTh] at hs
  | checkJobs =>
    simp only [stepTh, Option.some.injEq] at hs
    subst hs
    obtain ⟨u, _, J, _⟩ := hact (by simp [busy])
    have hin : 0 < s.cnt inJobs := countP_pos ht rfl
    have hj : s.jobs ≠ 0 := fun e => by have := J.nojobs e; omega
    apply measure_goto ht
    by_cases hf : s.jobsFin = 0
    · simp [rank, hf]; omega
    · have := (J.after hj hf).1
      simp [rank, this]; omega
  | band b =>
    simp only [stepTh, Option.some.injEq] at hs
    subst hs
    have hpos : 0 < s.ths.length := by rw [hi.len]; omega
    by_cases hb : b < s.bands
    · simp only [if_pos hb]
      have := measure_goto ht (.band (b + s.ths.length)) (by
        simp only [rank]; simp; omega)
      simpa only [State.measure, State.goto] using this
    · simp only [if_neg hb]
      apply measure_goto ht
      by_cases h0 : i = 0
      · simp only [if_pos h0]
        by_cases hl : s.ths.length = 1
        · simp [rank, hl]; omega
        · simp only [if_neg hl]
          by_cases hbf : s.bandsFin = 0 <;> simp [rank, hbf] <;> omega
      · simp only [if_neg h0]; simp [rank]; omega
  | done =>
    simp only [stepTh, Option.some.injEq] at hs
    subst hs
    have := measure_goto ht (if s.threadsRunning = 1 then .sigDone else .idle) (by
      by_cases hj : s.threadsRunning = 1 <;> simp [rank, hj] <;> omega)
    simpa only [State.measure, State.goto] using this
  | sigDone =>
    simp only [stepTh, Option.some.injEq] at hs
    subst hs
    obtain ⟨u, _, _, D⟩ := hact (by simp [busy])
    have hsig : 0 < s.cnt isSigD := countP_pos ht rfl
    have hf : s.bandsFin = 0 := by
      by_cases e : s.bandsFin = 0
      · exact e
      · have := (D.signalled e).2.2.1; omega
    have htodo : todo = false := by
      cases todo with
      | false => rfl
      | true => have := (hloc.todo rfl).2; simp at this
    subst htodo
    have e := sum_set_add (rank s.ths.length s.bands (s.jobsFin != 0) true)
      ⟨.wakeDone, false⟩ ht
    have e2 := sum_le_add (l := s.ths) (rank s.ths.length s.bands (s.jobsFin != 0) false)
      (rank s.ths.length s.bands (s.jobsFin != 0) true) 1 (by
        intro t
        obtain ⟨pc, todo⟩ := t
        cases pc <;> simp [rank] <;> omega)
    have d1 : (s.bandsFin + 1 != 0) = true := by simp
    have d2 : (s.bandsFin != 0) = false := by simp [hf]
    simp only [State.measure, State.goto, List.length_set, d1, d2]
    have r1 : rank s.ths.length s.bands (s.jobsFin != 0) true ⟨.sigDone, false⟩ =
      4 * s.ths.length + 10 := by simp [rank]
    have r2 : rank s.ths.length s.bands (s.jobsFin != 0) true ⟨.wakeDone, false⟩ =
      2 * s.ths.length + 5 := by simp [rank]
    omega
  | wakeDone =>
    simp only [stepTh, Option.some.injEq] at hs
    subst hs
    have ht' : (s.ths.map wakeD)[i]? = some ⟨.wakeDone, todo⟩ := by
      rw [List.getElem?_map, ht]; rfl
    have e := sum_set_add (rank s.ths.length s.bands (s.jobsFin != 0) (s.bandsFin != 0))
      ⟨.idle, todo⟩ ht'
    have e2 := sum_le_add (l := s.ths)
      (rank s.ths.length s.bands (s.jobsFin != 0) (s.bandsFin != 0))
      (rank s.ths.length s.bands (s.jobsFin != 0) (s.bandsFin != 0) ∘ wakeD) 2 (by
        intro t
        obtain ⟨pc, todo⟩ := t
        cases pc <;> simp [rank, wakeD, Function.comp]
        by_cases hb : s.bandsFin = 0 <;> simp [hb] <;> omega)
    rw [List.map_map] at e
    simp only [State.measure, List.length_set, List.length_map]
    have r1 : rank s.ths.length s.bands (s.jobsFin != 0) (s.bandsFin != 0) ⟨.wakeDone, todo⟩ =
      rank s.ths.length s.bands (s.jobsFin != 0) (s.bandsFin != 0) ⟨.idle, todo⟩ +
        (2 * s.ths.length + 5) := by simp [rank]
    omega
  | readDone =>
    simp only [stepTh, Option.some.injEq] at hs
    subst hs
    apply measure_goto ht
    by_cases hf : s.bandsFin = 0 <;> simp [rank, hf] <;> omega
  | waitDone =>
    simp only [stepTh, Option.some.injEq] at hs
    subst hs
    apply measure_goto ht
    by_cases hf : s.bandsFin = 0 <;> simp [rank, hf] <;> omega
  | sleepDone => simp [stepTh] at hs
  | resetDone =>
    simp only [stepTh, Option.some.injEq] at hs
    subst hs
    have hi0 : i = 0 := by
      by_cases e : i = 0
      · exact e
      · exact absurd rfl (hloc.worker e).2.2.2
    subst hi0
    have hlen : 0 < s.ths.length := by rw [hi.len]; omega
    have e := sum_set_add (rank s.ths.length s.bands (s.jobsFin != 0) (s.bandsFin != 0))
      ⟨.idle, false⟩ ht
    have e2 := sum_le (l := s.ths.set 0 ⟨.idle, false⟩)
      (rank s.ths.length s.bands (s.jobsFin != 0) (s.bandsFin != 0))
      (rank s.ths.length s.bands (s.jobsFin != 0) false) (by
        intro t hm
        obtain ⟨k, hk⟩ := List.mem_iff_getElem?.1 hm
        by_cases hk0 : k = 0
        · subst hk0
          rw [List.getElem?_set, if_pos rfl, if_pos hlen] at hk
          cases hk; simp [rank]
        · rw [List.getElem?_set_ne (fun e => hk0 e.symm)] at hk
          have := (hi.loc k t hk).worker hk0
          obtain ⟨pc, todo⟩ := t
          cases pc <;> simp_all [rank])
    have d1 : ((0 : Nat) != 0) = false := by simp
    simp only [State.measure, State.goto, List.length_set, d1]
    have r1 : rank s.ths.length s.bands (s.jobsFin != 0) (s.bandsFin != 0) ⟨.resetDone, todo⟩ =
      rank s.ths.length s.bands (s.jobsFin != 0) (s.bandsFin != 0) ⟨.idle, todo⟩ + 1 := by simp [rank]
    have r2 : rank s.ths.length s.bands (s.jobsFin != 0) (s.bandsFin != 0) ⟨.idle, false⟩ = 0 := by
      simp [rank]
    omega

/-! ## Non-vacuity: a concrete run -/

/-- One event of a schedule. -/
inductive Ev
  | begin (jobs bands : Nat) | th (i : Nat) | spur (i : Nat)

/-- Executes a schedule. -/
def run : State → List Ev → Option State
  | s, [] => some s
  | s, .begin j b :: es =>
    if s.ths[0]?.map Th.pc = some .idle then run (begin s j b) es else none
  | s, .th i :: es => do
    let t ← s.ths[i]?
    let s' ← stepTh s i t
    run s' es
  | s, .spur i :: es => do
    let t ← s.ths[i]?
    let s' ← spurious s i t
    run s' es

theorem run_reach {n : Nat} : ∀ (es : List Ev) (s s' : State), Reach n s → run s es = some s' → Reach n s' := by
  intro es
  induction es with
  | nil => intro s s' h e; cases e; exact h
  | cons ev es ih =>
    intro s s' h e
    cases ev with
    | begin j b =>
      simp only [run] at e
      split at e
      · rename_i h0
        rw [Option.map_eq_some_iff] at h0
        exact ih _ _ (Reach.step h (Step.begin j b h0)) e
      · cases e
    | th i =>
      simp only [run, Option.bind_eq_bind, Option.bind_eq_some_iff] at e
      obtain ⟨t, ht, s1, h1, h2⟩ := e
      exact ih _ _ (Reach.step h (Step.thread i t ht h1)) h2
    | spur i =>
      simp only [run, Option.bind_eq_bind, Option.bind_eq_some_iff] at e
      obtain ⟨t, ht, s1, h1, h2⟩ := e
      exact ih _ _ (Reach.step h (Step.spurious i t ht h1)) h2

/-- A whole batch of 3 jobs and 5 bands on a user thread and one worker: the user
sleeps at the barrier, wakes up spuriously, sleeps again, is woken, finishes its bands
first and sleeps until the worker signals completion. -/
def demo : List Ev :=
  [.begin 3 5, .th 1, .th 1, .th 0, .th 0, .th 0, .th 0, .th 0, .th 0, .th 0, .spur 0, .th 0, .th 0,
   .th 1, .th 1, .th 1, .th 1, .th 1, .th 0,
   .th 0, .th 0, .th 0, .th 0, .th 0, .th 0,
   .th 1, .th 1, .th 1, .th 1, .th 1, .th 1, .th 0, .th 0]

example : (run (init 1) demo).map (fun s => (s.jobLog, s.bandLog, s.ths)) =
    some ([1, 2, 0], [0, 2, 4, 1, 3], [⟨.idle, false⟩, ⟨.idle, false⟩]) := by decide

example : ∃ s, Reach 1 s ∧ s.userIdle ∧ s.bandLog = [0, 2, 4, 1, 3] := by
  refine ⟨(run (init 1) demo).get (by decide), run_reach demo (init 1) _ Reach.init (by simp), ?_, by decide⟩
  exact ⟨⟨.idle, false⟩, by decide, rfl⟩

end Blend2D.Worker
