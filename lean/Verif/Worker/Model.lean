/-!
# Multi-threaded rendering of a batch: model of the futex implementation

Models `flush_render_batch` (`blend2d/raster/rastercontext.cpp:1021-1068`) together
with what every worker does for a batch (`raster/workerproc.cpp:30-64, 240-352`,
`raster/renderbatch_p.h:59`) and the futex branches of
`raster/workersynchronization.cpp` and `workersynchronization_p.h:60-76`.

Thread `0` is the user's thread (it works on the batch too, worker id 0), threads
`1 … n` are the worker threads (worker id = index, `workermanager.cpp:108`).
Every atomic operation of the code is one step of the model; a schedule is an
arbitrary interleaving of the threads' steps.  `Futex::wait(addr, 0)` blocks iff the
word still is `0` at that moment and may wake up spuriously at any time.

Simplifications:
* what a job or a band computes is abstracted to an entry in a log;
* the calls of `BLThread::run` in `flush_render_batch` are collapsed into the
  `begin` step: a worker that has not been told to run yet is indistinguishable from
  one that is not scheduled yet;
* the memory model is sequentially consistent (all operations involved are
  acquire/release read-modify-writes or happen-before ordered by them);
* `init_proc_data` succeeds (on failure a worker skips its bands and records an error).
-/

namespace Blend2D.Worker

/-- Program counters. -/
inductive PC
  /-- not working on a batch -/
  | idle
  /-- `process_jobs`: about to execute `batch->next_job_index()` -/
  | take
  /-- `JobProc::process_job` of the given job is running -/
  | exec (j : Nat)
  /-- `wait_for_jobs_to_finish`: about to decrement `jobs_running_count` -/
  | arrive
  /-- it was the last: about to increment `futex_jobs_finished` -/
  | sigJobs
  /-- about to `wake_all` -/
  | wakeJobs
  /-- it was not the last: about to call `Futex::wait` -/
  | waitJobs
  /-- blocked in `Futex::wait` -/
  | sleepJobs
  /-- woken up: about to read `futex_jobs_finished` -/
  | checkJobs
  /-- `process_commands`: the next band to look at -/
  | band (b : Nat)
  /-- `thread_done`: about to decrement `threads_running_count` -/
  | done
  /-- it was the last: about to increment `futex_bands_finished` -/
  | sigDone
  /-- about to `wake_one` -/
  | wakeDone
  /-- user: `wait_for_threads_to_finish`, about to read `futex_bands_finished` -/
  | readDone
  /-- user: about to call `Futex::wait` -/
  | waitDone
  /-- user: blocked in `Futex::wait` -/
  | sleepDone
  /-- user: about to reset `futex_bands_finished` -/
  | resetDone
deriving DecidableEq, Repr

/-- A thread: its program counter and whether it has been told to run
(`BLThread::run`) without having started yet. -/
structure Th where
  pc : PC
  todo : Bool
deriving DecidableEq, Repr

/-- The shared state: `WorkerSynchronization::Status`
(`workersynchronization_p.h:30-42`), the batch (`renderbatch_p.h`) and logs of the work
done for the current batch. -/
structure State where
  ths : List Th
  /-- `jobs_running_count` -/
  jobsRunning : Nat
  /-- `threads_running_count` -/
  threadsRunning : Nat
  /-- `futex_jobs_finished` -/
  jobsFin : Nat
  /-- `futex_bands_finished` -/
  bandsFin : Nat
  /-- `batch->_job_index` -/
  jobIndex : Nat
  /-- `batch->_job_count` -/
  jobs : Nat
  /-- `batch->_band_count` -/
  bands : Nat
  /-- jobs that have been completed, in order of completion -/
  jobLog : List Nat
  /-- bands that have been rendered, in order -/
  bandLog : List Nat
deriving DecidableEq, Repr

/-- Replaces the program counter of thread `i`. -/
def State.goto (s : State) (i : Nat) (pc : PC) : State := { s with ths := s.ths.set i ⟨pc, false⟩ }

/-- Where a thread starts working on a batch: `process_jobs` (`workerproc.cpp:30-36`)
if there are jobs, else directly the bands, beginning with its own worker id
(`workerproc.cpp:265`). -/
def startPC (jobs i : Nat) : PC := if jobs = 0 then .band i else .take

/-- `WorkerSynchronization::before_start` (`workersynchronization_p.h:60-66`) and the
start of all workers, `rastercontext.cpp:1037-1041`.  Only called by the user's thread
while it is not working on a batch. -/
def begin (s : State) (jobs bands : Nat) : State :=
  { ths := (s.ths.map fun t => { t with todo := true }).set 0 ⟨startPC jobs 0, false⟩,
    jobsRunning := if jobs = 0 then 0 else s.ths.length,
    threadsRunning := s.ths.length - 1,
    jobsFin := 0, bandsFin := s.bandsFin, jobIndex := 0, jobs := jobs, bands := bands,
    jobLog := [], bandLog := [] }

/-- Wakes a thread blocked on `futex_jobs_finished`. -/
def wakeJ (t : Th) : Th := if t.pc = .sleepJobs then ⟨.checkJobs, t.todo⟩ else t

/-- Wakes a thread blocked on `futex_bands_finished`. -/
def wakeD (t : Th) : Th := if t.pc = .sleepDone then ⟨.readDone, t.todo⟩ else t

/-- One step of thread `i`; `none` if it cannot make a step. -/
def stepTh (s : State) (i : Nat) (t : Th) : Option State :=
  match t.pc with
  -- `worker_thread_entry`, `workerproc.cpp:354-362`
  | .idle => if t.todo then some (s.goto i (startPC s.jobs i)) else none
  -- `workerproc.cpp:44-47`
  | .take =>
    some (if s.jobIndex ≥ s.jobs then { s.goto i .arrive with jobIndex := s.jobIndex + 1 }
      else { s.goto i (.exec s.jobIndex) with jobIndex := s.jobIndex + 1 })
  -- `workerproc.cpp:57-60`
  | .exec j => some { s.goto i .take with jobLog := s.jobLog ++ [j] }
  -- `workersynchronization.cpp:31`
  | .arrive =>
    some { s.goto i (if s.jobsRunning = 1 then .sigJobs else .waitJobs) with
      jobsRunning := s.jobsRunning - 1 }
  -- `workersynchronization.cpp:32`
  | .sigJobs => some { s.goto i .wakeJobs with jobsFin := s.jobsFin + 1 }
  -- `workersynchronization.cpp:33`
  | .wakeJobs => some ({ s with ths := s.ths.map wakeJ }.goto i (.band i))
  -- `workersynchronization.cpp:36-38`
  | .waitJobs => some (s.goto i (if s.jobsFin = 0 then .sleepJobs else .checkJobs))
  | .sleepJobs => none
  | .checkJobs => some (s.goto i (if s.jobsFin = 1 then .band i else .waitJobs))
  -- `process_commands`, `workerproc.cpp:265-287`; afterwards a worker calls
  -- `thread_done` (`workerproc.cpp:359`) and the user waits if there are workers
  -- (`rastercontext.cpp:1055-1057`)
  | .band b =>
    some (if b < s.bands then { s.goto i (.band (b + s.ths.length)) with bandLog := s.bandLog ++ [b] }
      else s.goto i (if i = 0 then (if s.ths.length = 1 then .idle else .readDone) else .done))
  -- `workersynchronization.cpp:56-59`
  | .done =>
    some { s.goto i (if s.threadsRunning = 1 then .sigDone else .idle) with
      threadsRunning := s.threadsRunning - 1 }
  -- `workersynchronization.cpp:62`
  | .sigDone => some { s.goto i .wakeDone with bandsFin := s.bandsFin + 1 }
  -- `workersynchronization.cpp:63`; the thread may have been told to run again
  | .wakeDone => some { s with ths := (s.ths.map wakeD).set i ⟨.idle, t.todo⟩ }
  -- `workersynchronization.cpp:76-82`
  | .readDone => some (s.goto i (if s.bandsFin = 0 then .waitDone else .resetDone))
  | .waitDone => some (s.goto i (if s.bandsFin = 0 then .sleepDone else .readDone))
  | .sleepDone => none
  -- `workersynchronization.cpp:83`
  | .resetDone => some { s.goto i .idle with bandsFin := 0 }

/-- A thread returning from `Futex::wait` for no reason. -/
def spurious (s : State) (i : Nat) (t : Th) : Option State :=
  match t.pc with
  | .sleepJobs => some (s.goto i .checkJobs)
  | .sleepDone => some (s.goto i .readDone)
  | _ => none

/-- The user's thread is not working on a batch. -/
def State.userIdle (s : State) : Prop := ∃ t, s.ths[0]? = some t ∧ t.pc = .idle

/-- A fresh synchronization object and `n` worker threads. -/
def init (n : Nat) : State :=
  { ths := List.replicate (n + 1) ⟨.idle, false⟩, jobsRunning := 0, threadsRunning := 0,
    jobsFin := 0, bandsFin := 0, jobIndex := 0, jobs := 0, bands := 0, jobLog := [], bandLog := [] }

/-- What may happen next. -/
inductive Step (s : State) : State → Prop
  | begin (jobs bands : Nat) : s.userIdle → Step s (begin s jobs bands)
  | thread {s' : State} (i : Nat) (t : Th) : s.ths[i]? = some t → stepTh s i t = some s' → Step s s'
  | spurious {s' : State} (i : Nat) (t : Th) : s.ths[i]? = some t → spurious s i t = some s' → Step s s'

/-- All states reachable with `n` worker threads. -/
inductive Reach (n : Nat) : State → Prop
  | init : Reach n (init n)
  | step {s s' : State} : Reach n s → Step s s' → Reach n s'

end Blend2D.Worker
