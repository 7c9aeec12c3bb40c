import Verif.Worker.Lemmas

/-! # Multi-threaded rendering: the invariant is preserved by every step -/

namespace Blend2D.Worker

/-- Closes the arithmetic part about the barrier. -/
syntax "actJ_tac " ident : tactic
macro_rules
  | `(tactic| actJ_tac $J:ident) => `(tactic| (
  obtain ⟨a1, a2, a3, a4⟩ := $J
  dsimp only [State.goto] at *
  refine ⟨?_, ?_, ?_, ?_⟩
  · dsimp only; intro hJ; have := a1 hJ; clear a2 a3 a4; omega
  · dsimp only; intro hJ; have := a2 hJ; clear a1 a3 a4; omega
  · dsimp only
    intro hJ hF
    have b2 := a2 hJ
    by_cases hF' : (State.jobsFin ‹State›) = 0
    · have := a3 hJ hF'; clear a1 a2 a3 a4; omega
    · have := a4 hJ hF'; clear a1 a2 a3 a4; omega
  · dsimp only
    intro hJ hF
    have b2 := a2 hJ
    by_cases hF' : (State.jobsFin ‹State›) = 0
    · have := a3 hJ hF'; clear a1 a2 a3 a4; omega
    · have := a4 hJ hF'; clear a1 a2 a3 a4; omega))

/-- Closes the arithmetic part of the invariant after one thread changed. -/
macro "glob_tac" : tactic => `(tactic| (
  intro u u' C L _ L2 hrel hg
  have lu := fun h0 => L2 h0 unfin
  have c1 := C pend
  have c2 := C passed
  have c3 := C isSig
  have c4 := C isWake
  have c5 := C isSleep
  have c6 := C inJobs
  have c7 := C past
  have c8 := C unfin
  have c9 := C isSigD
  have c10 := C isWakeD
  have c11 := C busy
  have l1 := L pend
  have l2 := L passed
  have l3 := L isSig
  have l4 := L isWake
  have l5 := L isSleep
  have l6 := L inJobs
  have l7 := L past
  have l8 := L unfin
  have l9 := L isSigD
  have l10 := L isWakeD
  have l11 := L busy
  clear C L L2
  obtain ⟨g1, g2, g3⟩ := hg
  simp only [pend, passed, isSig, isWake, isSleep, inJobs, past, unfin, isSigD, isWakeD, busy,
    Bool.false_or, Bool.or_false, Bool.not_false, Bool.true_and, Bool.or_true, Bool.true_or,
    Bool.not_true, Bool.false_and, Bool.toNat_true, Bool.toNat_false] at c1 c2 c3 c4 c5 c6 c7 c8 c9 c10 c11 l1 l2 l3 l4 l5 l6 l7 l8 l9 l10 l11
  have hid : (isIdle u).toNat = 0 ∨ (isIdle u).toNat = 1 := by cases isIdle u <;> simp
  rcases hrel with ⟨hi, hu, hu'⟩ | ⟨hi, hu'⟩
  · clear lu
    subst hu hu'
    first
    | (exfalso; omega)
    | (obtain ⟨J, D⟩ : ActJ _ ∧ ActD _ _ _ := g3 rfl
       clear g2 g3 hid
       refine ⟨?_, ?_, ?_⟩
       · clear J D c1 c2 c3 c4 c5 c6 c8 c9 c10 c11 l1 l2 l3 l4 l5 l6 l8 l9 l10 l11
         dsimp only [State.goto] at *; omega
       · intro hh
         simp only [isIdle, Bool.toNat_true, Bool.toNat_false] at hh
         first
         | (exfalso; omega)
         | (obtain ⟨a5, a6, a7, a8, a9⟩ := D
            simp only [isSleepD, isReset, isWaitD, unfin, Bool.false_or, Bool.or_false, Bool.true_or, Bool.or_true, Bool.toNat_true, Bool.toNat_false] at a5 a7 a8 a9
            dsimp only [State.goto] at *; omega)
       · intro hh
         first
         | (exfalso; simp [isIdle] at hh; done)
         | (clear hh g1 c11 l11
            refine ⟨?_, ?_⟩
            · clear D c8 c9 c10 l8 l9 l10
              actJ_tac J
            · clear J c1 c2 c3 c4 c5 c6 c7 l1 l2 l3 l4 l5 l6 l7
              obtain ⟨a5, a6, a7, a8, a9⟩ := D
              simp only [isSleepD, isReset, isWaitD, unfin, Bool.false_or, Bool.or_false, Bool.true_or, Bool.or_true, Bool.toNat_true, Bool.toNat_false] at a5 a7 a8 a9
              refine ⟨?_, ?_, ?_, ?_, ?_⟩ <;>
                (try simp only [isSleepD, isReset, isWaitD, unfin, Bool.false_or, Bool.or_false, Bool.true_or, Bool.or_true, Bool.toNat_true, Bool.toNat_false]) <;>
                (dsimp only [State.goto] at *; omega)))
  · subst hu'
    have lu := lu hi
    rw [unfin] at lu
    simp only [Bool.false_or, Bool.or_false, Bool.true_or, Bool.or_true, Bool.toNat_true, Bool.toNat_false] at lu
    rcases hid with hid | hid
    · obtain ⟨J, D⟩ := g3 hid
      clear g2 g3
      refine ⟨?_, ?_, ?_⟩
      · clear J D c1 c2 c3 c4 c5 c6 c8 c9 c10 c11 l1 l2 l3 l4 l5 l6 l8 l9 l10 l11
        dsimp only [State.goto] at *; omega
      · intro hh; omega
      · intro hh
        clear hh g1 c11 l11
        refine ⟨?_, ?_⟩
        · clear D c8 c9 c10 l8 l9 l10
          actJ_tac J
        · clear J c1 c2 c3 c4 c5 c6 c7 l1 l2 l3 l4 l5 l6 l7
          obtain ⟨a5, a6, a7, a8, a9⟩ := D
          have hub : (unfin u').toNat ≤ 1 := by cases unfin u' <;> simp
          refine ⟨?_, ?_, ?_, ?_, ?_⟩ <;> (dsimp only [State.goto] at *; omega)
    · have := g2 hid
      clear g2 g3
      refine ⟨?_, ?_, ?_⟩
      · dsimp only [State.goto] at *; omega
      · intro _; dsimp only [State.goto] at *; omega
      · intro hh; omega))

theorem loc_simple {n i : Nat} (pc : PC) (h1 : ∀ b, pc ≠ .band b)
    (h2 : i = 0 → pc ≠ .done ∧ pc ≠ .sigDone ∧ pc ≠ .wakeDone)
    (h3 : i ≠ 0 → pc ≠ .readDone ∧ pc ≠ .waitDone ∧ pc ≠ .sleepDone ∧ pc ≠ .resetDone) :
    Loc n i ⟨pc, false⟩ :=
  ⟨by simp, fun b h => absurd h (h1 b), h2, h3⟩

set_option maxHeartbeats 4000000 in
theorem Inv.stepTh {n : Nat} {s s' : State} {i : Nat} {t : Th} (h : Inv n s)
    (ht : s.ths[i]? = some t) (hs : stepTh s i t = some s') : Inv n s' := by
  have hloc := h.loc i t ht
  have hi : i < n + 1 := by
    rw [← h.len]
    rcases Nat.lt_or_ge i s.ths.length with h | h
    · exact h
    · rw [List.getElem?_eq_none h] at ht; cases ht
  obtain ⟨pc, todo⟩ := t
  have htodo : pc ≠ .idle → pc ≠ .wakeDone → todo = false := by
    intro h1 h2
    cases todo with
    | false => rfl
    | true => rcases (hloc.todo rfl).2 with e | e
              · exact absurd e h1
              · exact absurd e h2
  cases pc with
  | idle =>
    simp only [Worker.stepTh] at hs
    cases todo with
    | false => simp at hs
    | true =>
      have hi0 := (hloc.todo rfl).1
      simp only [if_true, Option.some.injEq] at hs
      subst hs
      by_cases hj : s.jobs = 0
      · simp only [startPC, if_pos hj]
        refine inv_set h ht rfl ?_ ?_ h.execlt rfl ?_ h.bandlt ?_
        · exact ⟨by simp, fun b hb => by cases hb; exact Nat.mod_eq_of_lt hi, fun e => absurd e hi0, by simp⟩
        · intro j; rfl
        · intro b _
          by_cases hb : b % (n + 1) = i
          · have : ¬ b < i := by
              intro hlt; rw [Nat.mod_eq_of_lt (by omega)] at hb; omega
            simp [State.goto, prog, hb, this]
          · simp [State.goto, hb]
        · clear ht hloc h; glob_tac
      · simp only [startPC, if_neg hj]
        refine inv_set h ht rfl ?_ ?_ h.execlt rfl ?_ h.bandlt ?_
        · exact loc_simple _ (by simp) (by simp) (by simp)
        · intro j; rfl
        · intro b _; simp [State.goto, prog]
        · clear ht hloc h; glob_tac
  | take =>
    cases htodo (by simp) (by simp)
    simp only [Worker.stepTh, Option.some.injEq] at hs
    subst hs
    by_cases hj : s.jobIndex ≥ s.jobs
    · simp only [if_pos hj]
      refine inv_set h ht rfl ?_ ?_ h.execlt rfl ?_ h.bandlt ?_
      · exact loc_simple _ (by simp) (by simp) (by simp)
      · intro j
        have e : due (s.jobIndex + 1) s.jobs j = due s.jobIndex s.jobs j := by
          simp only [due]; congr 1; exact propext (by omega)
        simp [State.goto, isExec, e]
      · intro b _; simp [State.goto, prog]
      · clear ht hloc h; glob_tac
    · simp only [if_neg hj]
      refine inv_set h ht rfl ?_ ?_ h.execlt rfl ?_ h.bandlt ?_
      · exact loc_simple _ (by simp) (by simp) (by simp)
      · intro j
        simp only [State.goto, isExec, Bool.toNat_false]
        by_cases hjj : s.jobIndex = j
        · subst hjj
          simp only [due]
          rw [if_neg (by omega), if_pos (by omega)]; simp
        · have e : due (s.jobIndex + 1) s.jobs j = due s.jobIndex s.jobs j := by
            simp only [due]; congr 1; exact propext (by omega)
          simp [hjj, e]
      · intro b _; simp [State.goto, prog]
      · clear ht hloc h; glob_tac
  | exec j =>
    cases htodo (by simp) (by simp)
    simp only [Worker.stepTh, Option.some.injEq] at hs
    subst hs
    refine inv_set h ht rfl ?_ ?_ ?_ rfl ?_ h.bandlt ?_
    · exact loc_simple _ (by simp) (by simp) (by simp)
    · intro k
      simp only [State.goto, isExec, List.count_append, List.count_singleton, Bool.toNat_false]
      by_cases hk : j = k
      · subst hk; simp
      · have : (j == k) = false := by simp [hk]
        simp [this]
    · intro k hk
      simp only [State.goto, List.mem_append, List.mem_singleton] at hk ⊢
      rcases hk with hk | hk
      · exact h.execlt k hk
      · subst hk
        have e := h.exec k
        have : 0 < s.cnt (isExec k) := countP_pos ht (by simp [isExec])
        by_cases hc : k < s.jobIndex ∧ k < s.jobs
        · exact hc.2
        · simp only [due] at e; rw [if_neg hc] at e; omega
    · intro b _; simp [State.goto, prog]
    · clear ht hloc h; glob_tac
  | arrive =>
    cases htodo (by simp) (by simp)
    simp only [Worker.stepTh, Option.some.injEq] at hs
    subst hs
    by_cases hj : s.jobsRunning = 1
    · simp only [if_pos hj]
      refine inv_set h ht rfl ?_ ?_ h.execlt rfl ?_ h.bandlt ?_
      · exact loc_simple _ (by simp) (by simp) (by simp)
      · intro j; rfl
      · intro b _; simp [State.goto, prog]
      · clear ht hloc h; glob_tac
    · simp only [if_neg hj]
      refine inv_set h ht rfl ?_ ?_ h.execlt rfl ?_ h.bandlt ?_
      · exact loc_simple _ (by simp) (by simp) (by simp)
      · intro j; rfl
      · intro b _; simp [State.goto, prog]
      · clear ht hloc h; glob_tac
  | sigJobs =>
    cases htodo (by simp) (by simp)
    simp only [Worker.stepTh, Option.some.injEq] at hs
    subst hs
    refine inv_set h ht rfl ?_ ?_ h.execlt rfl ?_ h.bandlt ?_
    · exact loc_simple _ (by simp) (by simp) (by simp)
    · intro j; rfl
    · intro b _; simp [State.goto, prog]
    · clear ht hloc h; glob_tac
  | wakeJobs =>
    cases htodo (by simp) (by simp)
    simp only [Worker.stepTh, Option.some.injEq] at hs
    subst hs
    have hf : ∀ t, wakeJ t = t ∨ (t.pc = .sleepJobs ∧ wakeJ t = ⟨.checkJobs, t.todo⟩) ∨
        (t.pc = .sleepDone ∧ wakeJ t = ⟨.readDone, t.todo⟩) := by
      intro t; simp only [wakeJ]; split
      · right; left; exact ⟨‹_›, rfl⟩
      · left; rfl
    have hm := inv_map h hf
    have ht' : (s.ths.map wakeJ)[i]? = some ⟨.wakeJobs, false⟩ := by
      rw [List.getElem?_map, ht]; rfl
    have hz : State.cnt { s with ths := s.ths.map wakeJ } isSleep = 0 := by
      simp only [State.cnt, List.countP_map, List.countP_eq_zero, Function.comp]
      intro t _
      obtain ⟨pc, todo⟩ := t
      cases pc <;> simp [wakeJ, isSleep]
    obtain ⟨s1, hs1⟩ : ∃ s1 : State, s1 = { s with ths := s.ths.map wakeJ } := ⟨_, rfl⟩
    have ht'' : s1.ths[i]? = some ⟨.wakeJobs, false⟩ := by rw [hs1]; exact ht'
    rw [← hs1] at hm hz ⊢
    refine inv_set hm ht'' rfl ?_ ?_ hm.execlt rfl ?_ hm.bandlt ?_
    · refine ⟨by simp, fun b hb => by cases hb; exact Nat.mod_eq_of_lt hi, by simp, by simp⟩
    · intro j; rfl
    · intro b _
      by_cases hb : b % (n + 1) = i
      · have : ¬ b < i := by
          intro hlt; rw [Nat.mod_eq_of_lt (by omega)] at hb; omega
        simp [State.goto, prog, hb, this]
      · simp [State.goto, hb]
    · clear hs1 ht' h ht hloc
      glob_tac
  | waitJobs =>
    cases htodo (by simp) (by simp)
    simp only [Worker.stepTh, Option.some.injEq] at hs
    subst hs
    by_cases hj : s.jobsFin = 0
    · simp only [if_pos hj]
      refine inv_set h ht rfl ?_ ?_ h.execlt rfl ?_ h.bandlt ?_
      · exact loc_simple _ (by simp) (by simp) (by simp)
      · intro j; rfl
      · intro b _; simp [State.goto, prog]
      · clear ht hloc h; glob_tac
    · simp only [if_neg hj]
      refine inv_set h ht rfl ?_ ?_ h.execlt rfl ?_ h.bandlt ?_
      · exact loc_simple _ (by simp) (by simp) (by simp)
      · intro j; rfl
      · intro b _; simp [State.goto, prog]
      · clear ht hloc h; glob_tac
  | sleepJobs => simp [Worker.stepTh] at hs
  | checkJobs =>
    cases htodo (by simp) (by simp)
    simp only [Worker.stepTh, Option.some.injEq] at hs
    subst hs
    by_cases hj : s.jobsFin = 1
    · simp only [if_pos hj]
      refine inv_set h ht rfl ?_ ?_ h.execlt rfl ?_ h.bandlt ?_
      · refine ⟨by simp, fun b hb => by cases hb; exact Nat.mod_eq_of_lt hi, by simp, by simp⟩
      · intro j; rfl
      · intro b _
        by_cases hb : b % (n + 1) = i
        · have : ¬ b < i := by
            intro hlt; rw [Nat.mod_eq_of_lt (by omega)] at hb; omega
          simp [State.goto, prog, hb, this]
        · simp [State.goto, hb]
      · clear ht hloc h; glob_tac
    · simp only [if_neg hj]
      refine inv_set h ht rfl ?_ ?_ h.execlt rfl ?_ h.bandlt ?_
      · exact loc_simple _ (by simp) (by simp) (by simp)
      · intro j; rfl
      · intro b _; simp [State.goto, prog]
      · clear ht hloc h; glob_tac
  | band c =>
    cases htodo (by simp) (by simp)
    have hc : c % (n + 1) = i := hloc.band c rfl
    simp only [Worker.stepTh, Option.some.injEq] at hs
    subst hs
    by_cases hj : c < s.bands
    · simp only [if_pos hj]
      refine inv_set h ht rfl ?_ ?_ h.execlt rfl ?_ ?_ ?_
      · refine ⟨by simp, fun b hb => ?_, by simp, by simp⟩
        cases hb; rw [h.len, Nat.add_mod_right]; exact hc
      · intro j; rfl
      · intro b _
        simp only [State.goto, prog, h.len, List.count_append, List.count_singleton]
        by_cases hb : b % (n + 1) = i
        · rw [if_pos hb, if_pos hb]
          by_cases hbc : b = c
          · subst hbc; simp
          · have e : b < c + (n + 1) ↔ b < c := by
              constructor
              · intro hlt
                rcases Nat.lt_or_ge b c with h1 | h1
                · exact h1
                · exfalso
                  have h2 : b - c < n + 1 := by omega
                  have h3 : (c + (b - c)) % (n + 1) = c % (n + 1) := by
                    rw [show c + (b - c) = b by omega, hb, hc]
                  rw [Nat.add_mod, Nat.mod_eq_of_lt h2, hc] at h3
                  by_cases h4 : i + (b - c) < n + 1
                  · rw [Nat.mod_eq_of_lt h4] at h3; omega
                  · rw [Nat.mod_eq_sub_mod (by omega), Nat.mod_eq_of_lt (by omega)] at h3; omega
              · omega
            have hcb : (c == b) = false := by simp; omega
            simp [e, hcb]
        · have hcb : (c == b) = false := by
            simp only [beq_eq_false_iff_ne]; intro e; subst e; exact hb hc
          simp [hb, hcb]
      · intro b hb
        simp only [State.goto, List.mem_append, List.mem_singleton] at hb ⊢
        rcases hb with hb | hb
        · exact h.bandlt b hb
        · subst hb; exact hj
      · clear ht hloc h; glob_tac
    · simp only [if_neg hj]
      by_cases hi0 : i = 0
      · simp only [if_pos hi0]
        have hlen := h.len
        by_cases hl : s.ths.length = 1
        · simp only [if_pos hl]
          refine inv_set h ht rfl ?_ ?_ h.execlt rfl ?_ h.bandlt ?_
          · exact loc_simple _ (by simp) (by simp) (by simp)
          · intro j; rfl
          · intro b hb
            have : b < c := by omega
            simp [State.goto, prog, this]
          · have hb : s.cnt busy ≤ 1 := by
              rw [State.cnt, ← hl]; exact List.countP_le_length
            clear ht hloc h; glob_tac
        · simp only [if_neg hl]
          refine inv_set h ht rfl ?_ ?_ h.execlt rfl ?_ h.bandlt ?_
          · exact loc_simple _ (by simp) (by simp) (fun h => absurd hi0 h)
          · intro j; rfl
          · intro b hb
            have : b < c := by omega
            simp [State.goto, prog, this]
          · clear ht hloc h; glob_tac
      · simp only [if_neg hi0]
        refine inv_set h ht rfl ?_ ?_ h.execlt rfl ?_ h.bandlt ?_
        · exact loc_simple _ (by simp) (fun h => absurd h hi0) (by simp)
        · intro j; rfl
        · intro b hb
          have : b < c := by omega
          simp [State.goto, prog, this]
        · clear ht hloc h; glob_tac
  | done =>
    cases htodo (by simp) (by simp)
    have hi0 : i ≠ 0 := fun e => (hloc.user e).1 rfl
    simp only [Worker.stepTh, Option.some.injEq] at hs
    subst hs
    by_cases hj : s.threadsRunning = 1
    · simp only [if_pos hj]
      refine inv_set h ht rfl ?_ ?_ h.execlt rfl ?_ h.bandlt ?_
      · exact loc_simple _ (by simp) (fun h => absurd h hi0) (by simp)
      · intro j; rfl
      · intro b _; simp [State.goto, prog]
      · clear ht hloc h; glob_tac
    · simp only [if_neg hj]
      refine inv_set h ht rfl ?_ ?_ h.execlt rfl ?_ h.bandlt ?_
      · exact loc_simple _ (by simp) (by simp) (by simp)
      · intro j; rfl
      · intro b _; simp [State.goto, prog]
      · clear ht hloc h; glob_tac
  | sigDone =>
    cases htodo (by simp) (by simp)
    have hi0 : i ≠ 0 := fun e => (hloc.user e).2.1 rfl
    simp only [Worker.stepTh, Option.some.injEq] at hs
    subst hs
    refine inv_set h ht rfl ?_ ?_ h.execlt rfl ?_ h.bandlt ?_
    · exact loc_simple _ (by simp) (fun h => absurd h hi0) (by simp)
    · intro j; rfl
    · intro b _; simp [State.goto, prog]
    · clear ht hloc h; glob_tac
  | wakeDone =>
    have hi0 : i ≠ 0 := fun e => (hloc.user e).2.2 rfl
    simp only [Worker.stepTh, Option.some.injEq] at hs
    subst hs
    have hf : ∀ t, wakeD t = t ∨ (t.pc = .sleepJobs ∧ wakeD t = ⟨.checkJobs, t.todo⟩) ∨
        (t.pc = .sleepDone ∧ wakeD t = ⟨.readDone, t.todo⟩) := by
      intro t; simp only [wakeD]; split
      · right; right; exact ⟨‹_›, rfl⟩
      · left; rfl
    have hm := inv_map h hf
    have ht' : (s.ths.map wakeD)[i]? = some ⟨.wakeDone, todo⟩ := by
      rw [List.getElem?_map, ht]; rfl
    have hz : ∀ u : Th, (s.ths.map wakeD)[0]? = some u → (isSleepD u).toNat = 0 := by
      intro u hu
      rw [List.getElem?_map] at hu
      cases hh : s.ths[0]? with
      | none => rw [hh] at hu; cases hu
      | some u0 =>
        rw [hh] at hu; cases hu
        obtain ⟨pc, todo⟩ := u0
        cases pc <;> simp [wakeD, isSleepD]
    obtain ⟨s1, hs1⟩ : ∃ s1 : State, s1 = { s with ths := s.ths.map wakeD } := ⟨_, rfl⟩
    have ht'' : s1.ths[i]? = some ⟨.wakeDone, todo⟩ := by rw [hs1]; exact ht'
    have hz' : ∀ u : Th, s1.ths[0]? = some u → (isSleepD u).toNat = 0 := by rw [hs1]; exact hz
    have hgoal : { s with ths := (s.ths.map wakeD).set i ⟨.idle, todo⟩ } =
        { s1 with ths := s1.ths.set i ⟨.idle, todo⟩ } := by rw [hs1]
    rw [hgoal]
    rw [← hs1] at hm
    refine inv_set hm ht'' rfl ?_ ?_ hm.execlt rfl ?_ hm.bandlt ?_
    · exact ⟨fun e => ⟨hi0, Or.inl rfl⟩, by simp, by simp, by simp⟩
    · intro j; rfl
    · intro b _; cases todo <;> simp [prog]
    · clear hs1 hgoal ht' h ht hloc hm hz hf
      intro u u' C L hu L2 hrel hg
      have hz := hz' u hu
      have c1 := C pend
      have c2 := C passed
      have c3 := C isSig
      have c4 := C isWake
      have c5 := C isSleep
      have c6 := C inJobs
      have c7 := C past
      have c8 := C unfin
      have c9 := C isSigD
      have c11 := C busy
      rcases hrel with ⟨hi, _⟩ | ⟨_, hu'⟩
      · exact absurd hi hi0
      · subst hu'
        clear C L L2 hz' hu ht''
        obtain ⟨g1, g2, g3⟩ := hg
        simp only [pend, passed, isSig, isWake, isSleep, inJobs, past, unfin, isSigD, busy] at c1 c2 c3 c4 c5 c6 c7 c8 c9 c11
        refine ⟨by dsimp only; omega, ?_, ?_⟩
        · intro hid
          have := g2 hid
          dsimp only; omega
        · intro hid
          obtain ⟨J, D⟩ := g3 hid
          obtain ⟨a1, a2, a3, a4⟩ := J
          obtain ⟨a5, a6, a7, a8, a9⟩ := D
          clear g1 g2 g3
          refine ⟨⟨?_, ?_, ?_, ?_⟩, ?_, ?_, ?_, ?_, ?_⟩
          · dsimp only; intro hJ; have := a1 hJ; omega
          · dsimp only; intro hJ; have := a2 hJ; omega
          · dsimp only; intro hJ hF; have := a3 hJ hF; omega
          · dsimp only; intro hJ hF; have := a4 hJ hF; omega
          · dsimp only; omega
          · dsimp only; intro hb; have := a6 hb; omega
          · dsimp only; intro hb; have := a7 hb; omega
          · exact a8
          · exact a9
  | readDone =>
    cases htodo (by simp) (by simp)
    have hi0 : i = 0 := by
      by_cases e : i = 0
      · exact e
      · exact absurd rfl (hloc.worker e).1
    simp only [Worker.stepTh, Option.some.injEq] at hs
    subst hs
    by_cases hj : s.bandsFin = 0
    · simp only [if_pos hj]
      refine inv_set h ht rfl ?_ ?_ h.execlt rfl ?_ h.bandlt ?_
      · exact loc_simple _ (by simp) (by simp) (fun h => absurd hi0 h)
      · intro j; rfl
      · intro b _; simp [State.goto, prog]
      · clear ht hloc h; glob_tac
    · simp only [if_neg hj]
      refine inv_set h ht rfl ?_ ?_ h.execlt rfl ?_ h.bandlt ?_
      · exact loc_simple _ (by simp) (by simp) (fun h => absurd hi0 h)
      · intro j; rfl
      · intro b _; simp [State.goto, prog]
      · clear ht hloc h; glob_tac
  | waitDone =>
    cases htodo (by simp) (by simp)
    have hi0 : i = 0 := by
      by_cases e : i = 0
      · exact e
      · exact absurd rfl (hloc.worker e).2.1
    simp only [Worker.stepTh, Option.some.injEq] at hs
    subst hs
    by_cases hj : s.bandsFin = 0
    · simp only [if_pos hj]
      refine inv_set h ht rfl ?_ ?_ h.execlt rfl ?_ h.bandlt ?_
      · exact loc_simple _ (by simp) (by simp) (fun h => absurd hi0 h)
      · intro j; rfl
      · intro b _; simp [State.goto, prog]
      · clear ht hloc h; glob_tac
    · simp only [if_neg hj]
      refine inv_set h ht rfl ?_ ?_ h.execlt rfl ?_ h.bandlt ?_
      · exact loc_simple _ (by simp) (by simp) (fun h => absurd hi0 h)
      · intro j; rfl
      · intro b _; simp [State.goto, prog]
      · clear ht hloc h; glob_tac
  | sleepDone => simp [Worker.stepTh] at hs
  | resetDone =>
    cases htodo (by simp) (by simp)
    have hi0 : i = 0 := by
      by_cases e : i = 0
      · exact e
      · exact absurd rfl (hloc.worker e).2.2.2
    simp only [Worker.stepTh, Option.some.injEq] at hs
    subst hs
    refine inv_set h ht rfl ?_ ?_ h.execlt rfl ?_ h.bandlt ?_
    · exact loc_simple _ (by simp) (by simp) (by simp)
    · intro j; rfl
    · intro b _; simp [State.goto, prog]
    · have hb : s.cnt busy ≤ 1 := by
        obtain ⟨u, hu, _, ha⟩ := h.glob
        subst hi0
        rw [hu] at ht
        cases ht
        obtain ⟨_, D⟩ := ha rfl
        have d1 := D.running
        have d2 := D.signalled (D.reset rfl)
        have hun : s.cnt unfin = 0 := by simp only [unfin] at d1; simp at d1; omega
        have hsd : s.cnt isSigD = 0 := d2.2.2.1
        have hw : ∀ (k : Nat) t, s.ths[k + 1]? = some t → busy t = false := by
          intro k t hk
          have e1 := countP_zero hk hun
          have e2 := countP_zero hk hsd
          have e3 := (h.loc _ _ hk).worker (by omega)
          obtain ⟨pc, todo⟩ := t
          cases todo <;> cases pc <;> simp_all [unfin, isSigD, busy]
        simp only [State.cnt]
        cases hl : s.ths with
        | nil => simp
        | cons a l =>
          rw [List.countP_cons]
          have : l.countP busy = 0 := by
            rw [List.countP_eq_zero]
            intro t ht
            obtain ⟨k, hk⟩ := List.mem_iff_getElem?.1 ht
            simp [hw k t (by rw [hl]; simpa using hk)]
          rw [this]; split <;> omega
      clear ht hloc h; glob_tac

theorem Inv.spurious {n : Nat} {s s' : State} {i : Nat} {t : Th} (h : Inv n s)
    (ht : s.ths[i]? = some t) (hs : spurious s i t = some s') : Inv n s' := by
  have hloc := h.loc i t ht
  obtain ⟨pc, todo⟩ := t
  cases pc <;> simp only [Worker.spurious, Option.some.injEq, reduceCtorEq] at hs
  · subst hs
    have : todo = false := by
      cases todo with
      | false => rfl
      | true => have := (hloc.todo rfl).2; simp at this
    subst this
    refine inv_set h ht rfl ?_ ?_ h.execlt rfl ?_ h.bandlt ?_
    · exact loc_simple _ (by simp) (by simp) (by simp)
    · intro j; rfl
    · intro b _; simp [State.goto, prog]
    · clear ht hloc h; glob_tac
  · subst hs
    have hi0 : i = 0 := by
      by_cases e : i = 0
      · exact e
      · exact absurd rfl (hloc.worker e).2.2.1
    have : todo = false := by
      cases todo with
      | false => rfl
      | true => have := (hloc.todo rfl).2; simp at this
    subst this
    refine inv_set h ht rfl ?_ ?_ h.execlt rfl ?_ h.bandlt ?_
    · exact loc_simple _ (by simp) (by simp) (fun h => absurd hi0 h)
    · intro j; rfl
    · intro b _; simp [State.goto, prog]
    · clear ht hloc h; glob_tac

theorem Reach.inv {n : Nat} {s : State} (h : Reach n s) : Inv n s := by
  induction h with
  | init => exact Inv.init n
  | step _ hs ih =>
    cases hs with
    | begin jobs bands hu => exact ih.begin jobs bands hu
    | thread i t ht hs => exact ih.stepTh ht hs
    | spurious i t ht hs => exact ih.spurious ht hs

end Blend2D.Worker
