/-!
# Job queues of a batch (C24)

Models how jobs are appended to a batch (`raster/renderqueue_p.h:154-200`,
`raster/workermanager_p.h:332-363`, `410-436`, `raster/rastercontext.cpp:1189-1191`)
and how a worker finds a job from its number (`raster/workerproc.cpp:38-60`).

Simplifications: a job is a value of an arbitrary type; allocating a new queue
succeeds; `uint32_t` job counts do not wrap (fewer than 2^32 jobs in a batch).
-/

namespace Blend2D.Worker.Queue

/-- `kRenderQueueCapacity`, `renderqueue_p.h:25`. -/
def capacity : Nat := 256

/-- A batch being filled: the closed queues with their `_size`, the contents of the queue
being appended to (`_ptr - data()` of them), and `_job_count`. -/
structure Batch (α : Type) where
  closed : List (List α)
  cur : List α
  jobCount : Nat

/-- `init_first_batch`, `workermanager_p.h:208-236`. -/
def Batch.empty {α : Type} : Batch α := ⟨[], [], 0⟩

/-- `handle_queues_full_or_pools_exhausted` followed by `add_job`: a full queue is closed
(`_grow_job_queue`) before the next job is appended.  `none` if the job would be
stored past the end of the queue. -/
def Batch.add {α : Type} (b : Batch α) (j : α) : Option (Batch α) :=
  let b := if b.cur.length = capacity then
      { closed := b.closed ++ [b.cur], cur := [], jobCount := b.jobCount + b.cur.length }
    else b
  if b.cur.length < capacity then some { b with cur := b.cur ++ [j] } else none

/-- `finalize_batch`, `workermanager_p.h:410-436`: the list of queues and the job count. -/
def Batch.finalize {α : Type} (b : Batch α) : List (List α) × Nat :=
  (b.closed ++ [b.cur], b.jobCount + b.cur.length)

/-- Appends a list of jobs. -/
def Batch.addAll {α : Type} (b : Batch α) : List α → Option (Batch α)
  | [] => some b
  | j :: js => do
    let b' ← b.add j
    b'.addAll js

/-- A worker's position: the queues from the current one on, `queue_index` and `queue_end`. -/
structure Cursor (α : Type) where
  queues : List (List α)
  queueIndex : Nat
  queueEnd : Nat

/-- `workerproc.cpp:38-42`. -/
def Cursor.start {α : Type} : List (List α) → Option (Cursor α)
  | [] => none
  | q :: qs => some ⟨q :: qs, 0, 0 + q.length⟩

/-- `workerproc.cpp:49-55`: `while (job_index >= queue_end) queue = queue->next()`; `none`
if the list of queues ends (null pointer). -/
def advance {α : Type} (idx : Nat) : List (List α) → Nat → Nat → Option (Cursor α)
  | [], _, _ => none
  | q :: qs, qi, qe =>
    if idx ≥ qe then
      match qs with
      | [] => none
      | q' :: qs' => advance idx (q' :: qs') qe (qe + q'.length)
    else some ⟨q :: qs, qi, qe⟩

/-- `workerproc.cpp:49-57`: the job with the given number; `none` on undefined behaviour. -/
def Cursor.fetch {α : Type} (c : Cursor α) (idx : Nat) : Option (α × Cursor α) := do
  let c' ← advance idx c.queues c.queueIndex c.queueEnd
  let q ← c'.queues.head?
  if idx < c'.queueIndex then none
  else
    let j ← q[idx - c'.queueIndex]?
    some (j, c')

/-- The jobs a worker executes when `next_job_index()` hands it these numbers. -/
def Cursor.fetchAll {α : Type} (c : Cursor α) : List Nat → Option (List α)
  | [] => some []
  | i :: is => do
    let (j, c') ← c.fetch i
    let js ← c'.fetchAll is
    some (j :: js)

/-! ## Proofs -/

theorem addAll_spec {α : Type} : ∀ (js : List α) (b : Batch α), b.cur.length ≤ capacity →
    b.jobCount = b.closed.flatten.length →
    ∃ b', b.addAll js = some b' ∧ b'.closed.flatten ++ b'.cur = b.closed.flatten ++ b.cur ++ js ∧
      b'.jobCount = b'.closed.flatten.length := by
  intro js
  induction js with
  | nil => intro b _ h2; exact ⟨b, rfl, by simp, h2⟩
  | cons j js ih =>
    intro b h1 h2
    by_cases hf : b.cur.length = capacity
    · obtain ⟨b', e1, e2, e3⟩ := ih
        { closed := b.closed ++ [b.cur], cur := [] ++ [j], jobCount := b.jobCount + b.cur.length }
        (by simp [capacity]) (by simp [h2])
      refine ⟨b', ?_, ?_, e3⟩
      · simp only [Batch.addAll, Batch.add, if_pos hf]
        simpa [capacity] using e1
      · rw [e2]; simp
    · obtain ⟨b', e1, e2, e3⟩ := ih { b with cur := b.cur ++ [j] } (by simp; omega) h2
      refine ⟨b', ?_, ?_, e3⟩
      · simp only [Batch.addAll, Batch.add, if_neg hf]
        rw [if_pos (by omega)]
        exact e1
      · rw [e2]; simp

/-- A cursor's position is right: `pre` jobs precede its current queue. -/
def Cursor.Ok {α : Type} (all : List α) (c : Cursor α) : Prop :=
  ∃ (pre : List α) (q : List α) (qs : List (List α)), c.queues = q :: qs ∧
    all = pre ++ (q :: qs).flatten ∧ c.queueIndex = pre.length ∧ c.queueEnd = pre.length + q.length

theorem advance_spec {α : Type} (all : List α) (idx : Nat) (hidx : idx < all.length) :
    ∀ (qs : List (List α)) (pre q : List α), all = pre ++ (q :: qs).flatten → pre.length ≤ idx →
    ∃ c, advance idx (q :: qs) pre.length (pre.length + q.length) = some c ∧ c.Ok all ∧
      c.queueIndex ≤ idx ∧ idx < c.queueEnd := by
  intro qs
  induction qs with
  | nil =>
    intro pre q hall hle
    have hlt : idx < pre.length + q.length := by rw [hall] at hidx; simpa using hidx
    refine ⟨⟨[q], pre.length, pre.length + q.length⟩, ?_, ⟨pre, q, [], rfl, hall, rfl, rfl⟩, hle, hlt⟩
    simp only [advance]; rw [if_neg (by omega)]
  | cons q' qs ih =>
    intro pre q hall hle
    by_cases h : idx ≥ pre.length + q.length
    · obtain ⟨c, e1, e2, e3, e4⟩ := ih (pre ++ q) q' (by rw [hall]; simp) (by simpa using h)
      refine ⟨c, ?_, e2, e3, e4⟩
      rw [advance, if_pos h]
      simpa using e1
    · refine ⟨⟨q :: q' :: qs, pre.length, pre.length + q.length⟩, ?_,
        ⟨pre, q, q' :: qs, rfl, hall, rfl, rfl⟩, hle, by show idx < pre.length + q.length; omega⟩
      rw [advance, if_neg h]

theorem fetch_spec {α : Type} {all : List α} {c : Cursor α} (h : c.Ok all) (idx : Nat)
    (hle : c.queueIndex ≤ idx) (hidx : idx < all.length) :
    ∃ c', c.fetch idx = some (all[idx], c') ∧ c'.Ok all ∧ c'.queueIndex ≤ idx := by
  obtain ⟨pre, q, qs, h1, h2, h3, h4⟩ := h
  obtain ⟨c', e1, e2, e3, e4⟩ := advance_spec all idx hidx qs pre q h2 (by omega)
  obtain ⟨pre', q', qs', g1, g2, g3, g4⟩ := id e2
  refine ⟨c', ?_, e2, e3⟩
  have hq : q'[idx - c'.queueIndex]? = some all[idx] := by
    rw [g3] at e3 ⊢
    rw [← List.getElem?_eq_getElem hidx, g2, List.getElem?_append_right e3, List.flatten_cons,
      List.getElem?_append_left (by omega)]
  simp only [Cursor.fetch, h1, h3, h4, e1]
  simp [g1, hq, Nat.not_lt.2 e3]

theorem fetchAll_spec {α : Type} {all : List α} : ∀ (is : List Nat) (c : Cursor α), c.Ok all →
    (∀ i ∈ is, c.queueIndex ≤ i ∧ i < all.length) → is.Pairwise (· < ·) →
    c.fetchAll is = some (is.filterMap (all[·]?)) := by
  intro is
  induction is with
  | nil => intro c _ _ _; rfl
  | cons i is ih =>
    intro c h hb hp
    obtain ⟨hle, hlt⟩ := hb i (by simp)
    obtain ⟨c', e1, e2, e3⟩ := fetch_spec h i hle hlt
    rw [List.pairwise_cons] at hp
    have := ih c' e2 (fun k hk => ⟨by have := hp.1 k hk; omega, (hb k (by simp [hk])).2⟩) hp.2
    simp [Cursor.fetchAll, e1, this, List.getElem?_eq_getElem hlt]

/-- **C24.** However many jobs are appended to a batch, a worker that receives any
strictly increasing sequence of job numbers (as the shared counter hands out) executes
exactly the jobs with those numbers, and the batch's job count is the number of jobs
appended; no access is out of bounds. -/
theorem C24_worker_finds_its_jobs {α : Type} (js : List α) :
    ∃ b, Batch.empty.addAll js = some b ∧ b.finalize.2 = js.length ∧
      ∃ c, Cursor.start b.finalize.1 = some c ∧
        ∀ is : List Nat, is.Pairwise (· < ·) → (∀ i ∈ is, i < b.finalize.2) →
          c.fetchAll is = some (is.filterMap (js[·]?)) := by
  obtain ⟨b, e1, e2, e3⟩ := addAll_spec js (Batch.empty : Batch α) (by simp [Batch.empty])
    (by simp [Batch.empty])
  have hall : b.closed.flatten ++ b.cur = js := by rw [e2]; simp [Batch.empty]
  have hcount : b.finalize.2 = js.length := by
    simp only [Batch.finalize, e3, ← hall, List.length_append]
  refine ⟨b, e1, hcount, ?_⟩
  have hne : ∃ q qs, b.finalize.1 = q :: qs := by
    simp only [Batch.finalize]
    cases b.closed with
    | nil => exact ⟨_, _, rfl⟩
    | cons q qs => exact ⟨_, _, rfl⟩
  obtain ⟨q, qs, hq⟩ := hne
  have hfl : (q :: qs).flatten = js := by
    rw [← hq, Batch.finalize]; simpa using hall
  refine ⟨⟨q :: qs, 0, 0 + q.length⟩, by rw [hq]; rfl, ?_⟩
  intro is hp hb
  apply fetchAll_spec is _ ⟨[], q, qs, rfl, by simpa using hfl.symm, rfl, rfl⟩
  · intro i hi; exact ⟨Nat.zero_le _, by rw [← hcount]; exact hb i hi⟩
  · exact hp

/-- Non-vacuity: 600 jobs in three queues, a worker that receives numbers 0, 255, 256, 599. -/
example : ((Batch.empty.addAll (List.range 600)).map fun b => (b.closed.length, b.cur.length)) = some (2, 88) := by
  decide +kernel
example : ((Batch.empty.addAll (List.range 600)).bind fun b =>
    (Cursor.start b.finalize.1).bind fun c => c.fetchAll [0, 255, 256, 599]) = some [0, 255, 256, 599] := by
  decide +kernel

end Blend2D.Worker.Queue
