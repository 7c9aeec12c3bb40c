import Verif.Worker.Model

/-! # Multi-threaded rendering: the inductive invariant (futex implementation) -/

namespace Blend2D.Worker

/-! ## Classification of threads -/

/-- Has not arrived at the barrier between jobs and bands yet. -/
def pend (t : Th) : Bool := t.todo || (match t.pc with
  | .take | .exec _ | .arrive => true
  | _ => false)

/-- Past the barrier. -/
def passed (t : Th) : Bool := !t.todo && (match t.pc with
  | .take | .exec _ | .arrive | .sigJobs | .waitJobs | .sleepJobs | .checkJobs => false
  | _ => true)

def isSig (t : Th) : Bool := match t.pc with | .sigJobs => true | _ => false
def isWake (t : Th) : Bool := match t.pc with | .wakeJobs => true | _ => false
def isSleep (t : Th) : Bool := match t.pc with | .sleepJobs => true | _ => false

/-- In a state that only exists if the batch has jobs. -/
def inJobs (t : Th) : Bool := match t.pc with
  | .take | .exec _ | .arrive | .sigJobs | .wakeJobs | .waitJobs | .sleepJobs | .checkJobs => true
  | _ => false

/-- Has seen the end of the job list. -/
def past (t : Th) : Bool := !t.todo && (match t.pc with
  | .take | .exec _ => false
  | _ => true)

/-- Still has to call `thread_done` (or to finish its own work, for the user). -/
def unfin (t : Th) : Bool := t.todo || (match t.pc with
  | .idle | .sigDone | .wakeDone | .readDone | .waitDone | .sleepDone | .resetDone => false
  | _ => true)

def isSigD (t : Th) : Bool := match t.pc with | .sigDone => true | _ => false
def isWakeD (t : Th) : Bool := !t.todo && (match t.pc with | .wakeDone => true | _ => false)

def isIdle (t : Th) : Bool := match t.pc with | .idle => true | _ => false
def isSleepD (t : Th) : Bool := match t.pc with | .sleepDone => true | _ => false
def isReset (t : Th) : Bool := match t.pc with | .resetDone => true | _ => false

/-- Waiting for the workers (user only). -/
def isWaitD (t : Th) : Bool := match t.pc with
  | .readDone | .waitDone | .sleepDone | .resetDone => true
  | _ => false

/-- Doing anything for a batch (apart from a left-over `wake_one`). -/
def busy (t : Th) : Bool := t.todo || (match t.pc with
  | .idle | .wakeDone => false
  | _ => true)

def isExec (j : Nat) (t : Th) : Bool := match t.pc with | .exec k => k == j | _ => false

/-- Whether job `j` has been taken by some thread. -/
def due (idx jobs j : Nat) : Nat := if j < idx ∧ j < jobs then 1 else 0

/-- Band `b`, if it belongs to this thread, has been rendered by it. -/
def prog (b : Nat) (t : Th) : Bool := !t.todo && (match t.pc with
  | .band c => decide (b < c)
  | .done | .sigDone | .wakeDone | .idle | .readDone | .waitDone | .sleepDone | .resetDone => true
  | _ => false)

def State.cnt (s : State) (p : Th → Bool) : Nat := s.ths.countP p

theorem countP_set_add {l : List Th} {i : Nat} {t : Th} (p : Th → Bool) (x : Th)
    (h : l[i]? = some t) :
    (l.set i x).countP p + (p t).toNat = l.countP p + (p x).toNat := by
  induction l generalizing i with
  | nil => simp at h
  | cons a l ih =>
    cases i with
    | zero =>
      simp only [List.getElem?_cons_zero, Option.some.injEq] at h
      subst h
      simp only [List.set_cons_zero, List.countP_cons]
      cases p a <;> cases p x <;> simp <;> omega
    | succ i =>
      simp only [List.getElem?_cons_succ] at h
      have := ih h
      simp only [List.set_cons_succ, List.countP_cons]
      omega

theorem countP_pos {l : List Th} {i : Nat} {t : Th} {p : Th → Bool} (h : l[i]? = some t)
    (hp : p t = true) : 0 < l.countP p := by
  rw [List.countP_pos_iff]
  exact ⟨t, List.mem_of_getElem? h, hp⟩

theorem countP_zero {l : List Th} {i : Nat} {t : Th} {p : Th → Bool} (h : l[i]? = some t)
    (hp : l.countP p = 0) : p t = false := by
  cases hh : p t with
  | false => rfl
  | true => have := countP_pos h hh; omega

/-- Constraints on one thread. -/
structure Loc (n i : Nat) (t : Th) : Prop where
  todo : t.todo = true → i ≠ 0 ∧ (t.pc = .idle ∨ t.pc = .wakeDone)
  band : ∀ b, t.pc = .band b → b % (n + 1) = i
  user : i = 0 → t.pc ≠ .done ∧ t.pc ≠ .sigDone ∧ t.pc ≠ .wakeDone
  worker : i ≠ 0 → t.pc ≠ .readDone ∧ t.pc ≠ .waitDone ∧ t.pc ≠ .sleepDone ∧ t.pc ≠ .resetDone

/-- Constraints on the barrier while a batch is being processed. -/
structure ActJ (s : State) : Prop where
  nojobs : s.jobs = 0 → s.cnt inJobs = 0
  count : s.jobs ≠ 0 → s.jobsRunning = s.cnt pend
  before : s.jobs ≠ 0 → s.jobsFin = 0 → s.cnt passed = 0 ∧
    (s.cnt pend = 0 → s.cnt isSig = 1) ∧ (s.cnt pend ≠ 0 → s.cnt isSig = 0)
  after : s.jobs ≠ 0 → s.jobsFin ≠ 0 → s.jobsFin = 1 ∧ s.cnt pend = 0 ∧ s.cnt isSig = 0 ∧
    (s.cnt isSleep ≠ 0 → s.cnt isWake ≠ 0)

/-- Constraints on the completion signal; `u` is the user's thread. -/
structure ActD (n : Nat) (s : State) (u : Th) : Prop where
  running : s.threadsRunning + (unfin u).toNat = s.cnt unfin
  notYet : s.bandsFin = 0 → (s.threadsRunning ≠ 0 → s.cnt isSigD = 0) ∧
    (s.threadsRunning = 0 → n ≠ 0 → s.cnt isSigD = 1)
  signalled : s.bandsFin ≠ 0 → s.bandsFin = 1 ∧ s.threadsRunning = 0 ∧ s.cnt isSigD = 0 ∧ n ≠ 0 ∧
    ((isSleepD u).toNat = 1 → s.cnt isWakeD ≠ 0)
  waits : (isWaitD u).toNat = 1 → n ≠ 0
  reset : (isReset u).toNat = 1 → s.bandsFin ≠ 0

/-- The inductive invariant. -/
structure Inv (n : Nat) (s : State) : Prop where
  len : s.ths.length = n + 1
  loc : ∀ (i : Nat) t, s.ths[i]? = some t → Loc n i t
  exec : ∀ j, s.jobLog.count j + s.cnt (isExec j) = due s.jobIndex s.jobs j
  execlt : ∀ j ∈ s.jobLog, j < s.jobs
  band : ∀ b, b < s.bands → ∀ t, s.ths[b % (n + 1)]? = some t → s.bandLog.count b = (prog b t).toNat
  bandlt : ∀ b ∈ s.bandLog, b < s.bands
  idx : s.cnt past ≠ 0 → s.jobs ≤ s.jobIndex
  glob : ∃ u, s.ths[0]? = some u ∧ 
    ((isIdle u).toNat = 1 → s.cnt busy = 0 ∧ s.bandsFin = 0) ∧
    ((isIdle u).toNat = 0 → ActJ s ∧ ActD n s u)

theorem Inv.init (n : Nat) : Inv n (init n) := by
  have hget : ∀ (i : Nat) t, (Worker.init n).ths[i]? = some t → t = ⟨.idle, false⟩ := by
    intro i t h
    simp only [Worker.init, List.getElem?_replicate] at h
    split at h
    · cases h; rfl
    · cases h
  refine ⟨by simp [Worker.init], ?_, ?_, by simp [Worker.init], ?_, by simp [Worker.init], by simp [Worker.init], ?_⟩
  · intro i t h
    rw [hget i t h]
    exact ⟨by simp, by simp, by simp, by simp⟩
  · intro j; simp [Worker.init, State.cnt, List.countP_replicate, isExec, due]
  · intro b hb; simp [Worker.init] at hb
  · refine ⟨⟨.idle, false⟩, by simp [Worker.init], ?_, by simp [isIdle]⟩
    intro _; simp [Worker.init, State.cnt, List.countP_replicate, busy]

theorem Inv.begin {n : Nat} {s : State} (h : Inv n s) (jobs bands : Nat) (hu : s.userIdle) :
    Inv n (begin s jobs bands) := by
  obtain ⟨u, hu0, hq, _⟩ := h.glob
  obtain ⟨u', hu', hpc⟩ := hu
  rw [hu0] at hu'; cases hu'
  obtain ⟨hbusy, hbf⟩ := hq (by simp [isIdle, hpc])
  have hth : ∀ (i : Nat) t, s.ths[i]? = some t → t.todo = false ∧ (t.pc = .idle ∨ t.pc = .wakeDone) := by
    intro i t ht
    have := countP_zero ht hbusy
    obtain ⟨pc, todo⟩ := t
    cases todo <;> cases pc <;> simp_all [busy]
  have hget : ∀ (i : Nat) t, (Worker.begin s jobs bands).ths[i]? = some t →
      (i = 0 ∧ t = ⟨startPC jobs 0, false⟩) ∨
      (i ≠ 0 ∧ t.todo = true ∧ (t.pc = .idle ∨ t.pc = .wakeDone)) := by
    intro i t ht
    simp only [Worker.begin, List.getElem?_set, List.length_map, List.getElem?_map] at ht
    by_cases hi : 0 = i
    · rw [if_pos hi, if_pos (by rw [h.len]; omega)] at ht
      left; cases ht; exact ⟨hi.symm, rfl⟩
    · rw [if_neg hi] at ht
      right
      cases hh : s.ths[i]? with
      | none => rw [hh] at ht; cases ht
      | some t0 =>
        rw [hh] at ht; cases ht
        exact ⟨fun h => hi h.symm, rfl, (hth i t0 hh).2⟩
  have hlen : (Worker.begin s jobs bands).ths.length = n + 1 := by simp [Worker.begin, h.len]
  have hall : ∀ (p : Th → Bool), (∀ t, (t = ⟨startPC jobs 0, false⟩ ∨
      (t.todo = true ∧ (t.pc = .idle ∨ t.pc = .wakeDone))) → p t = true) →
      (Worker.begin s jobs bands).cnt p = n + 1 := by
    intro p hp
    rw [State.cnt, ← hlen, List.countP_eq_length]
    intro t ht
    obtain ⟨i, hi⟩ := List.mem_iff_getElem?.1 ht
    rcases hget i t hi with ⟨_, e⟩ | ⟨_, e⟩
    · exact hp t (Or.inl e)
    · exact hp t (Or.inr e)
  have hnone : ∀ (p : Th → Bool), (∀ t, (t = ⟨startPC jobs 0, false⟩ ∨
      (t.todo = true ∧ (t.pc = .idle ∨ t.pc = .wakeDone))) → p t = false) →
      (Worker.begin s jobs bands).cnt p = 0 := by
    intro p hp
    rw [State.cnt, List.countP_eq_zero]
    intro t ht
    obtain ⟨i, hi⟩ := List.mem_iff_getElem?.1 ht
    rcases hget i t hi with ⟨_, e⟩ | ⟨_, e⟩
    · simp [hp t (Or.inl e)]
    · simp [hp t (Or.inr e)]
  have hu0' : (Worker.begin s jobs bands).ths[0]? = some ⟨startPC jobs 0, false⟩ := by
    simp [Worker.begin, h.len]
  refine ⟨hlen, ?_, ?_, by simp [Worker.begin], ?_, by simp [Worker.begin], ?_,
    ⟨startPC jobs 0, false⟩, hu0', ?_, ?_⟩
  · intro i t ht
    rcases hget i t ht with ⟨hi, e⟩ | ⟨hi, e1, e2⟩
    · subst hi e
      refine ⟨by simp, ?_, fun _ => ?_, fun h => absurd rfl h⟩
      · intro b hb; simp only [startPC] at hb
        split at hb
        · cases hb; simp
        · cases hb
      · simp only [startPC]; split <;> simp
    · refine ⟨fun _ => ⟨hi, e2⟩, ?_, fun h => absurd h hi, fun _ => ?_⟩
      · intro b hb; rcases e2 with e | e <;> rw [e] at hb <;> cases hb
      · rcases e2 with e | e <;> rw [e] <;> simp
  · intro j
    rw [hnone]
    · simp [Worker.begin, due]
    · intro t ht
      rcases ht with e | ⟨_, e | e⟩
      · subst e; simp only [isExec, startPC]; split <;> simp_all <;> split at * <;> simp_all
      · simp [isExec, e]
      · simp [isExec, e]
  · intro b hb t ht
    rcases hget _ t ht with ⟨hi, e⟩ | ⟨hi, e1, e2⟩
    · subst e; simp only [Worker.begin, prog, startPC]
      by_cases hj : jobs = 0 <;> simp [hj]
    · simp [Worker.begin, prog, e1]
  · by_cases hj : jobs = 0
    · intro _; simp [Worker.begin, hj]
    · intro hne
      refine absurd ?_ hne
      apply hnone
      intro t ht
      rcases ht with e | ⟨e, _⟩
      · subst e; simp [past, startPC, hj]
      · simp [past, e]
  · intro hpc
    simp only [isIdle, startPC] at hpc
    by_cases hj : jobs = 0 <;> simp [hj] at hpc
  · intro _
    have e1 : (Worker.begin s jobs bands).jobs = jobs := rfl
    have e2 : (Worker.begin s jobs bands).jobsFin = 0 := rfl
    have e3 : (Worker.begin s jobs bands).bandsFin = 0 := hbf
    have e4 : (Worker.begin s jobs bands).threadsRunning = n := by
      show s.ths.length - 1 = n; rw [h.len]; omega
    have hsig : (Worker.begin s jobs bands).cnt isSigD = 0 := by
      apply hnone
      intro t ht
      rcases ht with e | ⟨_, e | e⟩
      · subst e; simp only [isSigD, startPC]; by_cases hj : jobs = 0 <;> simp [hj]
      · simp [isSigD, e]
      · simp [isSigD, e]
    refine ⟨⟨?_, ?_, ?_, ?_⟩, ?_, ?_, ?_, ?_, ?_⟩
    · intro hj
      rw [e1] at hj
      apply hnone
      intro t ht
      rcases ht with e | ⟨_, e | e⟩
      · subst e; simp [inJobs, startPC, hj]
      · simp [inJobs, e]
      · simp [inJobs, e]
    · intro hj
      rw [e1] at hj
      rw [hall]
      · simp [Worker.begin, hj, h.len]
      · intro t ht
        rcases ht with e | ⟨e, _⟩
        · subst e; simp [pend, startPC, hj]
        · simp [pend, e]
    · intro hj _
      rw [e1] at hj
      have ha : (Worker.begin s jobs bands).cnt pend = n + 1 := by
        apply hall
        intro t ht
        rcases ht with e | ⟨e, _⟩
        · subst e; simp [pend, startPC, hj]
        · simp [pend, e]
      refine ⟨?_, by omega, fun _ => ?_⟩
      · apply hnone
        intro t ht
        rcases ht with e | ⟨e, _⟩
        · subst e; simp [passed, startPC, hj]
        · simp [passed, e]
      · apply hnone
        intro t ht
        rcases ht with e | ⟨_, e | e⟩
        · subst e; simp [isSig, startPC, hj]
        · simp [isSig, e]
        · simp [isSig, e]
    · intro _ hne; exact absurd e2 hne
    · rw [e4, hall unfin]
      · simp only [unfin, startPC]; by_cases hj : jobs = 0 <;> simp [hj]
      · intro t ht
        rcases ht with e | ⟨e, _⟩
        · subst e; simp only [unfin, startPC]; by_cases hj : jobs = 0 <;> simp [hj]
        · simp [unfin, e]
    · intro _; rw [e4]; exact ⟨fun _ => hsig, fun h1 h2 => absurd h1 h2⟩
    · intro hne; exact absurd e3 hne
    · simp only [isWaitD, startPC]; by_cases hj : jobs = 0 <;> simp [hj]
    · simp only [isReset, startPC]; by_cases hj : jobs = 0 <;> simp [hj]

/-! ## Replacing one thread -/

/-- The arithmetic part of the invariant. -/
def Globs (n : Nat) (s : State) (u : Th) : Prop :=
  (s.cnt past ≠ 0 → s.jobs ≤ s.jobIndex) ∧
  ((isIdle u).toNat = 1 → s.cnt busy = 0 ∧ s.bandsFin = 0) ∧ ((isIdle u).toNat = 0 → ActJ s ∧ ActD n s u)

theorem inv_set {n : Nat} {s s' : State} {i : Nat} {t x : Th} (h : Inv n s)
    (ht : s.ths[i]? = some t) (hths : s'.ths = s.ths.set i x) (hx : Loc n i x)
    (hE : ∀ j, s'.jobLog.count j + (isExec j x).toNat +
        (due s.jobIndex s.jobs j) =
      s.jobLog.count j + (isExec j t).toNat + (due s'.jobIndex s'.jobs j))
    (hElt : ∀ j ∈ s'.jobLog, j < s'.jobs)
    (hbands : s'.bands = s.bands)
    (hB : ∀ b, b < s.bands → s'.bandLog.count b + (if b % (n + 1) = i then (prog b t).toNat else 0) =
      s.bandLog.count b + (if b % (n + 1) = i then (prog b x).toNat else 0))
    (hBlt : ∀ b ∈ s'.bandLog, b < s'.bands)
    (hG : ∀ u u' : Th, (∀ p : Th → Bool, s'.cnt p + (p t).toNat = s.cnt p + (p x).toNat) →
      (∀ p : Th → Bool, (p t).toNat ≤ s.cnt p) → s.ths[0]? = some u →
      (i ≠ 0 → ∀ p : Th → Bool, (p t).toNat + (p u).toNat ≤ s.cnt p) →
      (i = 0 ∧ u = t ∧ u' = x ∨ i ≠ 0 ∧ u' = u) → Globs n s u → Globs n s' u') :
    Inv n s' := by
  have hC : ∀ p : Th → Bool, s'.cnt p + (p t).toNat = s.cnt p + (p x).toNat := by
    intro p; simp only [State.cnt, hths]; exact countP_set_add p x ht
  have hL : ∀ p : Th → Bool, (p t).toNat ≤ s.cnt p := by
    intro p
    cases hp : p t with
    | false => simp
    | true => have := countP_pos ht hp; simp only [State.cnt, Bool.toNat_true]; omega
  have hi : i < s.ths.length := by
    rcases Nat.lt_or_ge i s.ths.length with h | h
    · exact h
    · rw [List.getElem?_eq_none h] at ht; cases ht
  obtain ⟨u, hu, hq, ha⟩ := h.glob
  have hL2 : i ≠ 0 → ∀ p : Th → Bool, (p t).toNat + (p u).toNat ≤ s.cnt p := by
    intro h0 p
    simp only [State.cnt]
    obtain ⟨k, rfl⟩ : ∃ k, i = k + 1 := ⟨i - 1, by omega⟩
    cases hl : s.ths with
    | nil => rw [hl] at hu; cases hu
    | cons a l =>
      rw [hl] at hu ht
      simp only [List.getElem?_cons_zero, Option.some.injEq, List.getElem?_cons_succ] at hu ht
      subst hu
      rw [List.countP_cons]
      have : (p t).toNat ≤ l.countP p := by
        cases hp : p t with
        | false => simp
        | true => have := countP_pos ht hp; simp only [Bool.toNat_true]; omega
      cases p a <;> simp <;> omega
  have hu' : ∃ u', s'.ths[0]? = some u' ∧ (i = 0 ∧ u = t ∧ u' = x ∨ i ≠ 0 ∧ u' = u) := by
    by_cases h0 : i = 0
    · subst h0
      rw [hu] at ht; cases ht
      exact ⟨x, by rw [hths, List.getElem?_set, if_pos rfl, if_pos hi], Or.inl ⟨rfl, rfl, rfl⟩⟩
    · exact ⟨u, by rw [hths, List.getElem?_set_ne h0, hu], Or.inr ⟨h0, rfl⟩⟩
  obtain ⟨u', hu', hrel⟩ := hu'
  obtain ⟨g1, g2, g3⟩ := hG u u' hC hL hu hL2 hrel ⟨h.idx, hq, ha⟩
  refine ⟨by rw [hths, List.length_set, h.len], ?_, ?_, hElt, ?_, hBlt, g1, u', hu', g2, g3⟩
  · intro k t' hk
    rw [hths, List.getElem?_set] at hk
    by_cases hik : i = k
    · subst hik; rw [if_pos rfl, if_pos hi] at hk; cases hk; exact hx
    · rw [if_neg hik] at hk; exact h.loc k t' hk
  · intro j
    have e1 := hE j
    have e2 := h.exec j
    have e3 := hC (isExec j)
    omega
  · intro b hb t' hk
    rw [hbands] at hb
    have e1 := hB b hb
    rw [hths, List.getElem?_set] at hk
    by_cases hik : i = b % (n + 1)
    · rw [if_pos hik, if_pos hi] at hk; cases hk
      rw [if_pos hik.symm, if_pos hik.symm] at e1
      have e2 := h.band b hb t (by rw [← hik]; exact ht)
      omega
    · rw [if_neg hik] at hk
      rw [if_neg (fun e => hik e.symm), if_neg (fun e => hik e.symm)] at e1
      have e2 := h.band b hb t' hk
      omega

/-- Waking up sleepers preserves the invariant. -/
theorem inv_map {n : Nat} {s : State} {f : Th → Th} (h : Inv n s)
    (hf : ∀ t, f t = t ∨ (t.pc = .sleepJobs ∧ f t = ⟨.checkJobs, t.todo⟩) ∨
      (t.pc = .sleepDone ∧ f t = ⟨.readDone, t.todo⟩)) :
    Inv n { s with ths := s.ths.map f } := by
  have hcnt : ∀ p : Th → Bool, (∀ t, p (f t) = p t) →
      State.cnt { s with ths := s.ths.map f } p = s.cnt p := by
    intro p hp
    simp only [State.cnt, List.countP_map]
    congr 1
    funext t; exact hp t
  have hp : ∀ p : Th → Bool, (∀ b, p ⟨.sleepJobs, b⟩ = p ⟨.checkJobs, b⟩) →
      (∀ b, p ⟨.sleepDone, b⟩ = p ⟨.readDone, b⟩) → ∀ t, p (f t) = p t := by
    intro p h1 h2 t
    rcases hf t with e | ⟨e1, e2⟩ | ⟨e1, e2⟩
    · rw [e]
    · obtain ⟨pc, todo⟩ := t; cases e1; rw [e2]; exact (h1 todo).symm
    · obtain ⟨pc, todo⟩ := t; cases e1; rw [e2]; exact (h2 todo).symm
  have hcs : ∀ p : Th → Bool, (∀ b, p ⟨.sleepJobs, b⟩ = p ⟨.checkJobs, b⟩) →
      (∀ b, p ⟨.sleepDone, b⟩ = p ⟨.readDone, b⟩) →
      State.cnt { s with ths := s.ths.map f } p = s.cnt p := fun p h1 h2 => hcnt p (hp p h1 h2)
  have hsl : State.cnt { s with ths := s.ths.map f } isSleep ≤ s.cnt isSleep := by
    simp only [State.cnt, List.countP_map]
    apply List.countP_mono_left
    intro t _ ht
    rcases hf t with e | ⟨e1, e2⟩ | ⟨e1, e2⟩
    · simpa [e] using ht
    · simp [isSleep, e1]
    · simp [Function.comp, isSleep, e2] at ht
  have hget : ∀ (i : Nat) t, (s.ths.map f)[i]? = some t → ∃ t0, s.ths[i]? = some t0 ∧ t = f t0 := by
    intro i t ht
    rw [List.getElem?_map] at ht
    cases hh : s.ths[i]? with
    | none => rw [hh] at ht; cases ht
    | some t0 => rw [hh] at ht; cases ht; exact ⟨t0, rfl, rfl⟩
  obtain ⟨u, hu, hq, ha⟩ := h.glob
  refine ⟨by simpa using h.len, ?_, ?_, h.execlt, ?_, h.bandlt, ?_, f u, by simp [hu], ?_, ?_⟩
  · intro i t ht
    obtain ⟨t0, h0, e⟩ := hget i t ht
    subst e
    have hl := h.loc i t0 h0
    rcases hf t0 with e | ⟨e1, e2⟩ | ⟨e1, e2⟩
    · rw [e]; exact hl
    · rw [e2]
      refine ⟨?_, by simp, by simp, by simp⟩
      intro ht; have := hl.todo ht; rw [e1] at this; simp at this
    · rw [e2]
      refine ⟨?_, by simp, by simp, ?_⟩
      · intro ht; have := hl.todo ht; rw [e1] at this; simp at this
      · intro hi; exact absurd e1 (hl.worker hi).2.2.1
  · intro j
    rw [hcs (isExec j) (fun _ => rfl) (fun _ => rfl)]
    exact h.exec j
  · intro b hb t ht
    obtain ⟨t0, h0, e⟩ := hget _ t ht
    subst e
    rw [hp (prog b) (fun _ => rfl) (fun _ => rfl) t0]
    exact h.band b hb t0 h0
  · rw [hcs past (fun _ => rfl) (fun _ => rfl)]; exact h.idx
  · rw [hcs busy (fun _ => rfl) (fun _ => rfl), hp isIdle (fun _ => rfl) (fun _ => rfl)]; exact hq
  · rw [hp isIdle (fun _ => rfl) (fun _ => rfl)]
    intro hid
    obtain ⟨A, D⟩ := ha hid
    refine ⟨⟨?_, ?_, ?_, ?_⟩, ?_, ?_, ?_, ?_, ?_⟩
    · rw [hcs inJobs (fun _ => rfl) (fun _ => rfl)]; exact A.nojobs
    · rw [hcs pend (fun _ => rfl) (fun _ => rfl)]; exact A.count
    · rw [hcs passed (fun _ => rfl) (fun _ => rfl), hcs pend (fun _ => rfl) (fun _ => rfl),
        hcs isSig (fun _ => rfl) (fun _ => rfl)]
      exact A.before
    · rw [hcs pend (fun _ => rfl) (fun _ => rfl),
        hcs isSig (fun _ => rfl) (fun _ => rfl), hcs isWake (fun _ => rfl) (fun _ => rfl)]
      intro a b
      have := A.after a b
      refine ⟨this.1, this.2.1, this.2.2.1, fun hne => this.2.2.2 ?_⟩
      omega
    · rw [hcs unfin (fun _ => rfl) (fun _ => rfl), hp unfin (fun _ => rfl) (fun _ => rfl)]
      exact D.running
    · rw [hcs isSigD (fun _ => rfl) (fun _ => rfl)]; exact D.notYet
    · rw [hcs isSigD (fun _ => rfl) (fun _ => rfl), hcs isWakeD (fun _ => rfl) (fun _ => rfl)]
      intro hne
      have := D.signalled hne
      refine ⟨this.1, this.2.1, this.2.2.1, this.2.2.2.1, fun hs => this.2.2.2.2 ?_⟩
      rcases hf u with e | ⟨e1, e2⟩ | ⟨e1, e2⟩
      · rw [e] at hs; exact hs
      · simp [isSleepD, e2] at hs
      · simp [isSleepD, e2] at hs
    · rw [hp isWaitD (fun _ => rfl) (fun _ => rfl)]; exact D.waits
    · rw [hp isReset (fun _ => rfl) (fun _ => rfl)]; exact D.reset

end Blend2D.Worker
