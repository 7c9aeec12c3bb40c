import Verif.Thread.Model
import Mathlib.Tactic.SplitIfs

namespace Blend2D.Thread

/-- The call has claimed the thread and not handed over its item yet. -/
def Claiming (p : RunPc) : Prop := p = .func ∨ p = .data ∨ p = .publish

instance (p : RunPc) : Decidable (Claiming p) := by unfold Claiming; infer_instance

/-- The call has handed over its item: it returned `BL_SUCCESS` or is about to. -/
def Accepted (p : RunPc) : Prop := p = .wake ∨ p = .success

instance (p : RunPc) : Decidable (Accepted p) := by unfold Accepted; infer_instance

theorem set_apply {α : Type} (f : Nat → α) (k : Nat) (x : α) (j : Nat) : set f k x j = if j = k then x else f j := rfl

namespace Futex

structure Inv (s : State) : Prop where
  own : ∀ k, Claiming (s.run k) → s.flags.enqueuing = true ∧ s.flags.enqueued = false
  uniq : ∀ j k, Claiming (s.run j) → Claiming (s.run k) → j = k
  fset : ∀ k, s.run k = .data ∨ s.run k = .publish → s.func = k
  dset : ∀ k, s.run k = .publish → s.data = k
  pend : s.flags.enqueued = true →
    s.flags.enqueuing = true ∧ s.data = s.func ∧ Accepted (s.run s.func) ∧ (s.func, s.func) ∉ s.log
  wfunc : s.worker = .func → s.flags.enqueued = true
  wdata : ∀ f, s.worker = .data f → s.flags.enqueued = true ∧ f = s.func
  wclear : ∀ f d, s.worker = .clear f d → s.flags.enqueued = true ∧ f = s.func ∧ d = s.data
  wcall : ∀ f d l, s.worker = .call f d l → l = false ∧ d = f ∧ Accepted (s.run f) ∧ (f, f) ∉ s.log ∧
    (s.flags.enqueued = true → s.func ≠ f)
  logged : ∀ f d, (f, d) ∈ s.log → d = f ∧ Accepted (s.run f)
  nodup : s.log.Nodup
  claim : s.flags.enqueuing = true → s.flags.quitting = false → s.flags.enqueued = false → ∃ k, Claiming (s.run k)
  acc : ∀ k, Accepted (s.run k) → (k, k) ∈ s.log ∨ (s.flags.enqueued = true ∧ s.func = k) ∨ s.worker = .call k k false
  wait : ∀ e, s.worker = .wait e → e.sleeping = true ∧ e.quitting = false ∧ e.enqueued = false
  slp : s.worker = .blocked → s.flags.sleeping = true
  blk : s.worker = .blocked → s.flags.enqueued = true ∨ s.flags.quitting = true →
    (∃ k, s.run k = .wake) ∨ ∃ k, s.quit k = .wake
  quits : ∀ k, s.quit k ≠ .idle → s.flags.quitting = true
  ext : s.worker = .exited → s.flags.quitting = true

theorem inv_initial : Inv initial := by
  constructor <;> simp [initial, Claiming, Accepted]

set_option maxHeartbeats 1000000 in
theorem inv_run {s t : State} {k : Nat} (h : Inv s) (hs : run s k = some t) : Inv t := by
  obtain ⟨own, uniq, fset, dset, pend, wfunc, wdata, wclear, wcall, logged, nodup, claim, acc, wait, slp, blk, quits, ext⟩ := h
  unfold run at hs
  split at hs
  case h_6 => exact absurd hs (by simp)
  all_goals
    rename_i hk
    injection hs with hs
    subst hs
    constructor <;> simp only [set_apply, Claiming, Accepted, wakeOne] at * <;> grind

set_option maxHeartbeats 1000000 in
theorem inv_quit {s t : State} {k : Nat} (h : Inv s) (hs : quit s k = some t) : Inv t := by
  obtain ⟨own, uniq, fset, dset, pend, wfunc, wdata, wclear, wcall, logged, nodup, claim, acc, wait, slp, blk, quits, ext⟩ := h
  unfold quit at hs
  split at hs
  case h_3 => exact absurd hs (by simp)
  all_goals
    rename_i hk
    injection hs with hs
    subst hs
    constructor <;> simp only [set_apply, Claiming, Accepted, wakeOne] at * <;> grind

set_option maxHeartbeats 1000000 in
theorem inv_worker {s t : State} {spin : Bool} (h : Inv s) (hs : worker s spin = some t) : Inv t := by
  obtain ⟨own, uniq, fset, dset, pend, wfunc, wdata, wclear, wcall, logged, nodup, claim, acc, wait, slp, blk, quits, ext⟩ := h
  unfold worker at hs
  split at hs
  case h_8 => exact absurd hs (by simp)
  case h_9 => exact absurd hs (by simp)
  all_goals
    rename_i hk
    injection hs with hs
    subst hs
    constructor <;> simp only [Claiming, Accepted] at * <;> grind

set_option maxHeartbeats 1000000 in
theorem inv_step {s t : State} {a : Act} (h : Inv s) (hs : step s a = some t) : Inv t := by
  cases a with
  | run k => exact inv_run h hs
  | quit k => exact inv_quit h hs
  | worker spin => exact inv_worker h hs
  | spurious =>
    obtain ⟨own, uniq, fset, dset, pend, wfunc, wdata, wclear, wcall, logged, nodup, claim, acc, wait, slp, blk, quits, ext⟩ := h
    unfold step at hs
    simp only at hs
    split at hs
    · injection hs with hs
      subst hs
      constructor <;> simp only [Claiming, Accepted] at * <;> grind
    · exact absurd hs (by simp)

theorem inv_exec {acts : List Act} {s t : State} (h : Inv s) (hs : exec step s acts = some t) : Inv t := by
  induction acts generalizing s with
  | nil => injection hs with hs; exact hs ▸ h
  | cons a as ih =>
    simp only [exec, Option.bind_eq_some_iff] at hs
    obtain ⟨u, hu, ht⟩ := hs
    exact ih (inv_step h hu) ht

end Futex

namespace Portable

structure Inv (s : State) : Prop where
  pcs : ∀ k, s.run k = .idle ∨ s.run k = .success ∨ s.run k = .busy
  eg : s.flags.enqueuing = false
  pend : s.flags.enqueued = true → s.data = s.func ∧ s.run s.func = .success ∧ (s.func, s.func) ∉ s.log
  wcall : ∀ f d l, s.worker = .call f d l → d = f ∧ s.run f = .success ∧ (f, f) ∉ s.log ∧
    (s.flags.enqueued = true → s.func ≠ f) ∧ (l = true → s.flags.quitting = true ∧ s.flags.enqueued = false)
  logged : ∀ f d, (f, d) ∈ s.log → d = f ∧ s.run f = .success
  nodup : s.log.Nodup
  acc : ∀ k, s.run k = .success →
    (k, k) ∈ s.log ∨ (s.flags.enqueued = true ∧ s.func = k) ∨ s.worker = .call k k true ∨ s.worker = .call k k false
  wpc : s.worker = .top ∨ s.worker = .blocked ∨ s.worker = .exited ∨ ∃ f d l, s.worker = .call f d l
  blk : s.worker = .blocked → s.flags.sleeping = true ∧ s.flags.enqueued = false ∧ s.flags.quitting = false
  ext : s.worker = .exited → s.flags.quitting = true ∧ s.flags.enqueued = false
  quits : ∀ k, s.quit k ≠ .idle → s.flags.quitting = true

theorem inv_initial : Inv initial := by
  constructor <;> simp [initial]

set_option maxHeartbeats 1000000 in
theorem inv_step {s t : State} {a : Act} (h : Inv s) (hs : step s a = some t) : Inv t := by
  obtain ⟨pcs, eg, pend, wcall, logged, nodup, acc, wpc, blk, ext, quits⟩ := h
  cases a with
  | run k =>
    simp only [step, run] at hs
    split at hs
    · rename_i hk
      split at hs
      all_goals
        injection hs with hs
        subst hs
        constructor <;> simp only [set_apply, wakeOne] at * <;> grind
    · exact absurd hs (by simp)
  | quit k =>
    simp only [step, quit] at hs
    split at hs
    · rename_i hk
      injection hs with hs
      subst hs
      constructor <;> simp only [set_apply, wakeOne] at * <;> grind
    · exact absurd hs (by simp)
  | worker spin =>
    simp only [step, worker] at hs
    split at hs
    · rename_i hk
      split at hs
      · injection hs with hs
        subst hs
        constructor <;> simp only at * <;> first | grind | (cases hq : s.flags.quitting <;> grind)
      · split at hs
        all_goals
          injection hs with hs
          subst hs
          constructor <;> simp only at * <;> grind
    · rename_i hk
      injection hs with hs
      subst hs
      constructor <;> simp only at * <;> grind
    · exact absurd hs (by simp)
  | spurious =>
    unfold step at hs
    simp only at hs
    split at hs
    · injection hs with hs
      subst hs
      constructor <;> simp only at * <;> grind
    · exact absurd hs (by simp)

theorem inv_exec {acts : List Act} {s t : State} (h : Inv s) (hs : exec step s acts = some t) : Inv t := by
  induction acts generalizing s with
  | nil => injection hs with hs; exact hs ▸ h
  | cons a as ih =>
    simp only [exec, Option.bind_eq_some_iff] at hs
    obtain ⟨u, hu, ht⟩ := hs
    exact ih (inv_step h hu) ht

end Portable

/-! ## C40 -/

/-- Every function the worker calls was handed over by a call of `run` that returned `BL_SUCCESS` (or is about to), together with the
data of that very call; an item that `run` refused is never executed. -/
theorem C40_futex_items {acts : List Act} {s : State} (h : exec Futex.step initial acts = some s) :
    ∀ f d, (f, d) ∈ s.log → d = f ∧ Accepted (s.run f) := (Futex.inv_exec Futex.inv_initial h).logged

theorem C40_portable_items {acts : List Act} {s : State} (h : exec Portable.step initial acts = some s) :
    ∀ f d, (f, d) ∈ s.log → d = f ∧ s.run f = .success := (Portable.inv_exec Portable.inv_initial h).logged

/-- No item is executed twice. -/
theorem C40_futex_once {acts : List Act} {s : State} (h : exec Futex.step initial acts = some s) : s.log.Nodup :=
  (Futex.inv_exec Futex.inv_initial h).nodup

theorem C40_portable_once {acts : List Act} {s : State} (h : exec Portable.step initial acts = some s) : s.log.Nodup :=
  (Portable.inv_exec Portable.inv_initial h).nodup

/-- `run` is refused only if a thread is told to quit, or another item was handed over (or is being handed over) and its execution has
not ended. -/
theorem C40_futex_busy {acts : List Act} {s t : State} {k : Nat} (h : exec Futex.step initial acts = some s)
    (hk : s.run k = .idle) (hs : Futex.step s (.run k) = some t) (hb : t.run k = .busy) :
    s.flags.quitting = true ∨ ∃ j, Claiming (s.run j) ∨ Accepted (s.run j) ∧ (j, j) ∉ s.log := by
  have hi := Futex.inv_exec Futex.inv_initial h
  simp only [Futex.step, Futex.run, hk, Option.some.injEq] at hs
  subst hs
  simp only [set_apply, if_true] at hb
  cases hq : s.flags.quitting
  · cases he : s.flags.enqueued
    · cases hg : s.flags.enqueuing
      · simp [hq, he, hg] at hb
      · obtain ⟨j, hj⟩ := hi.claim hg hq he
        exact .inr ⟨j, .inl hj⟩
    · obtain ⟨_, _, ha, hl⟩ := hi.pend he
      exact .inr ⟨_, .inr ⟨ha, hl⟩⟩
  · exact .inl rfl

theorem C40_portable_busy {acts : List Act} {s t : State} {k : Nat} (h : exec Portable.step initial acts = some s)
    (hk : s.run k = .idle) (hs : Portable.step s (.run k) = some t) (hb : t.run k = .busy) :
    s.flags.quitting = true ∨ ∃ j, s.run j = .success ∧ (j, j) ∉ s.log := by
  have hi := Portable.inv_exec Portable.inv_initial h
  simp only [Portable.step, Portable.run, hk] at hs
  split at hs
  · rename_i hc
    cases hq : s.flags.quitting
    · cases he : s.flags.enqueued
      · simp [hq, he, hi.eg] at hc
      · obtain ⟨_, ha, hl⟩ := hi.pend he
        exact .inr ⟨_, ha, hl⟩
    · exact .inl rfl
  · injection hs with hs
    subst hs
    simp [set_apply] at hb

/-- A sleeping worker that has something to do is going to be woken up: if it is blocked although an item was handed over or `quit` was
called, then a call is just about to wake it. -/
theorem C40_futex_no_lost_wakeup {acts : List Act} {s : State} (h : exec Futex.step initial acts = some s)
    (hb : s.worker = .blocked)
    (hw : (∃ k, Accepted (s.run k) ∧ (k, k) ∉ s.log) ∨ ∃ k, s.quit k ≠ .idle) :
    (∃ k, s.run k = .wake) ∨ ∃ k, s.quit k = .wake := by
  have hi := Futex.inv_exec Futex.inv_initial h
  refine hi.blk hb ?_
  rcases hw with ⟨k, ha, hl⟩ | ⟨k, hk⟩
  · rcases hi.acc k ha with h1 | ⟨h1, _⟩ | h1
    · exact absurd h1 hl
    · exact .inl h1
    · simp [hb] at h1
  · exact .inr (hi.quits k hk)

/-- With a condition variable the worker never sleeps while there is something to do. -/
theorem C40_portable_no_lost_wakeup {acts : List Act} {s : State} (h : exec Portable.step initial acts = some s)
    (hb : s.worker = .blocked) : (∀ k, s.run k = .success → (k, k) ∈ s.log) ∧ ∀ k, s.quit k = .idle := by
  have hi := Portable.inv_exec Portable.inv_initial h
  obtain ⟨_, h2, h3⟩ := hi.blk hb
  constructor
  · intro k hk
    have := hi.acc k hk
    grind
  · intro k
    have := hi.quits k
    grind

/-- An item that was handed over is executed by the next six steps of the worker, unless the worker sleeps (and is going to be woken
up, `C40_futex_no_lost_wakeup`) or has exited. -/
theorem C40_futex_progress {acts : List Act} {s : State} {k : Nat} (h : exec Futex.step initial acts = some s)
    (ha : Accepted (s.run k)) (hb : s.worker ≠ .blocked) (he : s.worker ≠ .exited) (spins : List Bool) (hl : spins.length = 6) :
    ∃ n t, exec Futex.step s ((spins.take n).map .worker) = some t ∧ (k, k) ∈ t.log := by
  have hi := Futex.inv_exec Futex.inv_initial h
  match spins, hl with
  | [a1, a2, a3, a4, a5, a6], _ =>
  rcases hi.acc k ha with h1 | ⟨h1, h2⟩ | h1
  · exact ⟨0, s, rfl, h1⟩
  · obtain ⟨_, hd, _, _⟩ := hi.pend h1
    cases hw : s.worker with
    | top => exact ⟨5, _, by simp [exec, Futex.step, Futex.worker, hw, h1]; rfl, by simp [h2, hd]⟩
    | func => exact ⟨4, _, by simp [exec, Futex.step, Futex.worker, hw]; rfl, by simp [h2, hd]⟩
    | data f =>
      obtain ⟨_, rfl⟩ := hi.wdata f hw
      exact ⟨3, _, by simp [exec, Futex.step, Futex.worker, hw]; rfl, by simp [h2, hd]⟩
    | clear f d =>
      obtain ⟨_, rfl, rfl⟩ := hi.wclear f d hw
      exact ⟨2, _, by simp [exec, Futex.step, Futex.worker, hw]; rfl, by simp [h2, hd]⟩
    | call f d l =>
      obtain ⟨rfl, _⟩ := hi.wcall f d l hw
      exact ⟨6, _, by simp [exec, Futex.step, Futex.worker, hw, h1]; rfl, by simp [h2, hd]⟩
    | sleep => exact ⟨6, _, by simp [exec, Futex.step, Futex.worker, hw, h1]; rfl, by simp [h2, hd]⟩
    | wait e =>
      have hne : s.flags ≠ e := by
        intro hc
        have := (hi.wait e hw).2.2
        rw [← hc, h1] at this
        cases this
      exact ⟨6, _, by simp [exec, Futex.step, Futex.worker, hw, h1, hne]; rfl, by simp [h2, hd]⟩
    | blocked => exact absurd hw hb
    | exited => exact absurd hw he
  · exact ⟨1, _, by simp [exec, Futex.step, Futex.worker, h1]; rfl, by simp⟩

theorem C40_portable_progress {acts : List Act} {s : State} {k : Nat} (h : exec Portable.step initial acts = some s)
    (ha : s.run k = .success) : ∃ n ≤ 3, ∃ t, exec Portable.step s (List.replicate n (.worker false)) = some t ∧ (k, k) ∈ t.log := by
  have hi := Portable.inv_exec Portable.inv_initial h
  rcases hi.acc k ha with h1 | ⟨h1, h2⟩ | h1 | h1
  · exact ⟨0, by omega, s, rfl, h1⟩
  · obtain ⟨hd, _, _⟩ := hi.pend h1
    rcases hi.wpc with hw | hw | hw | ⟨f, d, l, hw⟩
    · exact ⟨2, by omega, _, by simp [List.replicate, exec, Portable.step, Portable.worker, hw, h1]; rfl, by simp [h2, hd]⟩
    · exact absurd (hi.blk hw).2.1 (by simp [h1])
    · exact absurd (hi.ext hw).2 (by simp [h1])
    · have hl : l = false := by
        have := (hi.wcall f d l hw).2.2.2.2
        grind
      subst hl
      exact ⟨3, by omega, _, by simp [List.replicate, exec, Portable.step, Portable.worker, hw, h1]; rfl, by simp [h2, hd]⟩
  · exact ⟨1, by omega, _, by simp [List.replicate, exec, Portable.step, Portable.worker, h1]; rfl, by simp⟩
  · exact ⟨1, by omega, _, by simp [List.replicate, exec, Portable.step, Portable.worker, h1]; rfl, by simp⟩

/-- Once `quit` was called the worker exits within seven steps of its own, unless it sleeps (and is going to be woken up). -/
theorem C40_futex_quits {acts : List Act} {s : State} {k : Nat} (h : exec Futex.step initial acts = some s)
    (hq : s.quit k ≠ .idle) (hb : s.worker ≠ .blocked) (spins : List Bool) (hl : spins.length = 7) :
    ∃ n t, exec Futex.step s ((spins.take n).map .worker) = some t ∧ t.worker = .exited := by
  have hi := Futex.inv_exec Futex.inv_initial h
  have hf := hi.quits k hq
  match spins, hl with
  | [a1, a2, a3, a4, a5, a6, a7], _ =>
  cases hw : s.worker with
  | top =>
    cases h1 : s.flags.enqueued
    · exact ⟨1, _, by simp [exec, Futex.step, Futex.worker, hw, h1, hf]; rfl, by simp⟩
    · exact ⟨6, _, by simp [exec, Futex.step, Futex.worker, hw, h1, hf]; rfl, by simp⟩
  | func => exact ⟨5, _, by simp [exec, Futex.step, Futex.worker, hw, hf]; rfl, by simp⟩
  | data f => exact ⟨4, _, by simp [exec, Futex.step, Futex.worker, hw, hf]; rfl, by simp⟩
  | clear f d => exact ⟨3, _, by simp [exec, Futex.step, Futex.worker, hw, hf]; rfl, by simp⟩
  | call f d l =>
    obtain ⟨rfl, _⟩ := hi.wcall f d l hw
    cases h1 : s.flags.enqueued
    · exact ⟨2, _, by simp [exec, Futex.step, Futex.worker, hw, h1, hf]; rfl, by simp⟩
    · exact ⟨7, _, by simp [exec, Futex.step, Futex.worker, hw, h1, hf]; rfl, by simp⟩
  | sleep =>
    cases h1 : s.flags.enqueued
    · exact ⟨2, _, by simp [exec, Futex.step, Futex.worker, hw, h1, hf]; rfl, by simp⟩
    · exact ⟨7, _, by simp [exec, Futex.step, Futex.worker, hw, h1, hf]; rfl, by simp⟩
  | wait e =>
    have hne : s.flags ≠ e := by
      intro hc
      have := (hi.wait e hw).2.1
      rw [← hc, hf] at this
      cases this
    cases h1 : s.flags.enqueued
    · exact ⟨2, _, by simp [exec, Futex.step, Futex.worker, hw, h1, hf, hne]; rfl, by simp⟩
    · exact ⟨7, _, by simp [exec, Futex.step, Futex.worker, hw, h1, hf, hne]; rfl, by simp⟩
  | blocked => exact absurd hw hb
  | exited => exact ⟨0, s, rfl, hw⟩

theorem C40_portable_quits {acts : List Act} {s : State} {k : Nat} (h : exec Portable.step initial acts = some s)
    (hq : s.quit k ≠ .idle) :
    ∃ n ≤ 3, ∃ t, exec Portable.step s (List.replicate n (.worker false)) = some t ∧ t.worker = .exited := by
  have hi := Portable.inv_exec Portable.inv_initial h
  have hf := hi.quits k hq
  rcases hi.wpc with hw | hw | hw | ⟨f, d, l, hw⟩
  · cases h1 : s.flags.enqueued
    · exact ⟨1, by omega, _, by simp [List.replicate, exec, Portable.step, Portable.worker, hw, h1, hf]; rfl, by simp⟩
    · exact ⟨2, by omega, _, by simp [List.replicate, exec, Portable.step, Portable.worker, hw, h1, hf]; rfl, by simp⟩
  · exact absurd (hi.blk hw).2.2 (by simp [hf])
  · exact ⟨0, by omega, s, rfl, hw⟩
  · cases l
    · cases h1 : s.flags.enqueued
      · exact ⟨2, by omega, _, by simp [List.replicate, exec, Portable.step, Portable.worker, hw, h1, hf]; rfl, by simp⟩
      · exact ⟨3, by omega, _, by simp [List.replicate, exec, Portable.step, Portable.worker, hw, h1, hf]; rfl, by simp⟩
    · exact ⟨1, by omega, _, by simp [List.replicate, exec, Portable.step, Portable.worker, hw]; rfl, by simp⟩

/-- A worker that has exited has executed every item that was handed over. -/
theorem C40_portable_all_executed {acts : List Act} {s : State} (h : exec Portable.step initial acts = some s)
    (he : s.worker = .exited) {k : Nat} (hk : s.run k = .success) : (k, k) ∈ s.log := by
  have hi := Portable.inv_exec Portable.inv_initial h
  have := hi.acc k hk
  have := hi.ext he
  grind

/-- No call of `quit` takes effect while a call of `run` is between claiming the thread and handing over its item. -/
def Orderly : State → List Act → Prop
  | _, [] => True
  | s, a :: as => (∀ k j, a = .quit k → ¬Claiming (s.run j)) ∧ ∀ t, Futex.step s a = some t → Orderly t as

/-- What holds in addition in orderly executions. -/
structure OInv (s : State) : Prop where
  noclaim : s.flags.quitting = true → ∀ j, ¬Claiming (s.run j)
  done : s.worker = .exited → s.flags.enqueued = false

set_option maxHeartbeats 1000000 in
theorem oinv_step {s t : State} {a : Act} (hi : Futex.Inv s) (ho : OInv s) (hc : ∀ k j, a = .quit k → ¬Claiming (s.run j))
    (h : Futex.step s a = some t) : OInv t := by
  have own := hi.own
  have uniq := hi.uniq
  have ext := hi.ext
  have last : ∀ f d l, s.worker = .call f d l → l = false := fun f d l hw => (hi.wcall f d l hw).1
  clear hi
  obtain ⟨noclaim, done⟩ := ho
  cases a with
  | run k =>
    simp only [Futex.step, Futex.run] at h
    split at h
    case h_6 => exact absurd h (by simp)
    all_goals
      injection h with h
      subst h
      constructor <;> simp only [set_apply, Claiming, wakeOne] at * <;> grind
  | quit k =>
    simp only [Futex.step, Futex.quit] at h
    have hc : ∀ j, ¬Claiming (s.run j) := fun j => hc k j rfl
    split at h
    case h_3 => exact absurd h (by simp)
    all_goals
      injection h with h
      subst h
      constructor <;> simp only [Claiming, wakeOne] at * <;> grind
  | worker spin =>
    clear hc
    simp only [Futex.step, Futex.worker] at h
    split at h
    case h_8 => exact absurd h (by simp)
    case h_9 => exact absurd h (by simp)
    all_goals
      injection h with h
      subst h
      constructor <;> simp only [Claiming] at * <;> grind
  | spurious =>
    clear hc
    simp only [Futex.step] at h
    split at h
    · injection h with h
      subst h
      constructor <;> simp only [Claiming] at * <;> grind
    · exact absurd h (by simp)

theorem oinv_exec {acts : List Act} {s t : State} (hi : Futex.Inv s) (ho : OInv s) (hc : Orderly s acts)
    (h : exec Futex.step s acts = some t) : OInv t := by
  induction acts generalizing s with
  | nil => injection h with h; exact h ▸ ho
  | cons a as ih =>
    simp only [exec, Option.bind_eq_some_iff] at h
    obtain ⟨u, hu, ht⟩ := h
    exact ih (Futex.inv_step hi hu) (oinv_step hi ho hc.1 hu) (hc.2 u hu) ht

/-- **Partial**: with the futex, a worker that has exited has executed every item that was handed over, provided that `quit` does not
overlap with a `run` that is handing over an item.  Without that an item can be lost (`C40_futex_lost_item`). -/
theorem C40_futex_all_executed_partial {acts : List Act} {s : State} (h : exec Futex.step initial acts = some s)
    (ho : Orderly initial acts) (he : s.worker = .exited) {k : Nat} (hk : Accepted (s.run k)) : (k, k) ∈ s.log := by
  have hi := Futex.inv_exec Futex.inv_initial h
  have hx := (oinv_exec Futex.inv_initial ⟨by simp [initial], by simp [initial]⟩ ho h).done he
  have := hi.acc k hk
  grind

/-- `run` claims the thread, `quit` is called, the worker exits, and then `run` returns `BL_SUCCESS`. -/
def lostItem : List Act := [.run 0, .quit 0, .worker false, .run 0, .run 0, .run 0]

/-- With the futex an item can be lost: `run` returns `BL_SUCCESS`, and the item is never executed, whatever happens afterwards. -/
theorem C40_futex_lost_item :
    ∃ s, exec Futex.step initial lostItem = some s ∧ s.run 0 = .success ∧
      ∀ acts t, exec Futex.step s acts = some t → t.log = [] := by
  refine ⟨_, rfl, rfl, ?_⟩
  have key : ∀ acts (s t : State), s.worker = .exited → s.log = [] → exec Futex.step s acts = some t → t.log = [] := by
    intro acts
    induction acts with
    | nil => intro s t _ hl h; injection h with h; exact h ▸ hl
    | cons a as ih =>
      intro s t hw hl h
      simp only [exec, Option.bind_eq_some_iff] at h
      obtain ⟨u, hu, ht⟩ := h
      refine ih u t ?_ ?_ ht
      · cases a with
        | run k => simp only [Futex.step, Futex.run] at hu; grind [wakeOne]
        | quit k => simp only [Futex.step, Futex.quit] at hu; grind [wakeOne]
        | worker sp => simp only [Futex.step, Futex.worker] at hu; grind
        | spurious => simp only [Futex.step] at hu; grind
      · cases a with
        | run k => simp only [Futex.step, Futex.run] at hu; grind
        | quit k => simp only [Futex.step, Futex.quit] at hu; grind
        | worker sp => simp only [Futex.step, Futex.worker] at hu; grind
        | spurious => simp only [Futex.step] at hu; grind
  intro acts t ht
  exact key acts _ t rfl rfl ht

/-! ## Examples -/

/-- The worker goes to sleep, two calls of `run` overlap (the second is refused), the worker is woken up and executes the first, and
then a third item while `quit` is called. -/
def sample : List Act :=
  [.worker false, .worker false, .worker false, .run 0, .run 1, .run 0, .run 0, .run 0, .run 0, .worker false, .worker false,
   .worker false, .worker false, .run 2, .run 2, .run 2, .run 2, .quit 0, .worker false, .worker false, .worker false, .worker false,
   .worker false, .worker false, .worker false]

example : ∃ s, exec Futex.step initial sample = some s ∧ s.log = [(0, 0), (2, 2)] ∧ s.worker = .exited ∧ s.run 1 = .busy :=
  ⟨_, rfl, rfl, rfl, rfl⟩

/-- A sleeping worker with an item handed over, just before it is woken up. -/
example : ∃ s, exec Futex.step initial (sample.take 8) = some s ∧ s.worker = .blocked ∧ Accepted (s.run 0) ∧ (0, 0) ∉ s.log :=
  ⟨_, rfl, rfl, .inl rfl, by decide⟩

/-- An item handed over to a worker that is awake, the hypotheses of `C40_futex_progress`. -/
example : ∃ s, exec Futex.step initial (sample.take 9) = some s ∧ s.worker = .top ∧ Accepted (s.run 0) ∧ s.log = [] :=
  ⟨_, rfl, rfl, .inr rfl, rfl⟩

example : ∃ s, exec Portable.step initial [.worker false, .run 0, .run 1, .worker false, .run 2, .quit 0, .worker false,
      .worker false, .worker false] = some s ∧ s.log = [(0, 0), (2, 2)] ∧ s.worker = .exited ∧ s.run 1 = .busy :=
  ⟨_, rfl, rfl, rfl, rfl⟩

/-- The sample is orderly. -/
example : Orderly initial sample := by
  simp [sample, Orderly, Futex.step, Futex.run, Futex.quit, Futex.worker, initial, set, Claiming, wakeOne]
  grind

end Blend2D.Thread
