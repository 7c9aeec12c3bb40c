/-!
# Worker threads (`blend2d/threading/thread.cpp`)

A worker thread executes work items that other threads hand to it with `run`, until it is told to `quit`.  There is any number of
calls of `run` and `quit`, and they run concurrently with each other and with the worker; an execution is an interleaving of the
atomic operations.  The call number `k` of `run` hands over the item with the function `k` and the data `k`, so that items are
distinguishable and a mixture of two items can be seen.

Simplifications: memory is sequentially consistent; `++spin_count < kSpinLimit` (`thread.cpp:344-348`) is a free choice; a work
function returns and is one step; `was_thread_terminated` (Windows only) is false; wake-ups without a cause are possible.
-/

namespace Blend2D.Thread

/-- `BLWorkerThreadFlags`, `thread.cpp:37-45`. -/
structure Flags where
  sleeping : Bool
  quitting : Bool
  enqueuing : Bool
  enqueued : Bool
deriving DecidableEq, Repr

/-- Where a call of `run` is. -/
inductive RunPc where
  | idle
  /-- `ENQUEUING_WORK` was set by this call, which is about to store the function. -/
  | func
  /-- About to store the data. -/
  | data
  /-- About to set `ENQUEUED_WORK`. -/
  | publish
  /-- About to wake the thread. -/
  | wake
  /-- Returned `BL_SUCCESS`. -/
  | success
  /-- Returned `BL_ERROR_BUSY`. -/
  | busy
deriving DecidableEq, Repr

/-- Where a call of `quit` is. -/
inductive QuitPc where
  | idle
  | wake
  | done
deriving DecidableEq, Repr

/-- Where the worker is in its entry point. -/
inductive WorkerPc where
  | top
  /-- `ENQUEUED_WORK` was seen; about to read the function. -/
  | func
  /-- About to read the data. -/
  | data (func : Nat)
  /-- About to clear the flags. -/
  | clear (func data : Nat)
  /-- About to call the function, and to exit afterwards if `last`. -/
  | call (func data : Nat) (last : Bool)
  /-- About to set `SLEEPING`. -/
  | sleep
  /-- About to enter `Futex::wait` with the given expected flags. -/
  | wait (expected : Flags)
  | blocked
  | exited
deriving DecidableEq, Repr

/-- `BLInternalWorkerThread`, `thread.cpp:47-86`, all calls, and the calls of work functions so far. -/
structure State where
  flags : Flags
  func : Nat
  data : Nat
  run : Nat → RunPc
  quit : Nat → QuitPc
  worker : WorkerPc
  log : List (Nat × Nat)

/-- The state after `bl_thread_create`, `thread.cpp:398-440`. -/
def initial : State := ⟨⟨false, false, false, false⟩, 0, 0, fun _ => .idle, fun _ => .idle, .top, []⟩

/-- The atomic operations. -/
inductive Act where
  | run (k : Nat)
  | quit (k : Nat)
  /-- A step of the worker; `spin` decides whether it goes on spinning. -/
  | worker (spin : Bool)
  /-- `Futex::wait` returns without a cause. -/
  | spurious
deriving DecidableEq, Repr

def set {α : Type} (f : Nat → α) (k : Nat) (x : α) : Nat → α := fun j => if j = k then x else f j

/-- `Futex::wake_one`, `futex_p.h:51,59`. -/
def wakeOne : WorkerPc → WorkerPc
  | .blocked => .top
  | w => w

namespace Futex

/-- `bl_futex_worker_thread_run`, `thread.cpp:258-289`. -/
def run (s : State) (k : Nat) : Option State :=
  match s.run k with
  | .idle =>
    let busy := s.flags.enqueuing || s.flags.enqueued || s.flags.quitting
    some { s with flags := { s.flags with enqueuing := true }, run := set s.run k (if busy then .busy else .func) }
  | .func => some { s with func := k, run := set s.run k .data }
  | .data => some { s with data := k, run := set s.run k .publish }
  | .publish =>
    some { s with flags := { s.flags with enqueued := true }, run := set s.run k (if s.flags.sleeping then .wake else .success) }
  | .wake => some { s with worker := wakeOne s.worker, run := set s.run k .success }
  | _ => none

/-- `bl_futex_worker_thread_quit`, `thread.cpp:291-314`. -/
def quit (s : State) (k : Nat) : Option State :=
  match s.quit k with
  | .idle =>
    some { s with flags := { s.flags with quitting := true },
                  quit := set s.quit k (if !s.flags.quitting && s.flags.sleeping then .wake else .done) }
  | .wake => some { s with worker := wakeOne s.worker, quit := set s.quit k .done }
  | .done => none

/-- `bl_futex_worker_thread_entry_point`, `thread.cpp:316-366`. -/
def worker (s : State) (spin : Bool) : Option State :=
  match s.worker with
  | .top =>
    let w : WorkerPc :=
      if s.flags.enqueued then .func
      else if s.flags.quitting then .exited
      else if s.flags.enqueuing && spin then .top
      else .sleep
    some { s with flags := { s.flags with sleeping := false }, worker := w }
  | .func => some { s with worker := .data s.func }
  | .data f => some { s with worker := .clear f s.data }
  | .clear f d => some { s with flags := { s.flags with enqueuing := false, enqueued := false }, worker := .call f d false }
  | .call f d last => some { s with worker := if last then .exited else .top, log := s.log ++ [(f, d)] }
  | .sleep =>
    some { s with flags := { s.flags with sleeping := true },
                  worker := if s.flags.enqueued || s.flags.quitting then .top else .wait { s.flags with sleeping := true } }
  | .wait e => some { s with worker := if s.flags = e then .blocked else .top }
  | .blocked => none
  | .exited => none

/-- One atomic operation. -/
def step (s : State) : Act → Option State
  | .run k => run s k
  | .quit k => quit s k
  | .worker spin => worker s spin
  | .spurious => if s.worker = .blocked then some { s with worker := .top } else none

end Futex

namespace Portable

/-- `bl_portable_worker_thread_run`, `thread.cpp:142-161`: all of it with the mutex locked. -/
def run (s : State) (k : Nat) : Option State :=
  match s.run k with
  | .idle =>
    if s.flags.enqueuing || s.flags.enqueued || s.flags.quitting then some { s with run := set s.run k .busy }
    else
      some { s with func := k, data := k, flags := { s.flags with enqueued := true },
                    worker := if s.flags.sleeping then wakeOne s.worker else s.worker, run := set s.run k .success }
  | _ => none

/-- `bl_portable_worker_thread_quit`, `thread.cpp:163-183`. -/
def quit (s : State) (k : Nat) : Option State :=
  match s.quit k with
  | .idle =>
    some { s with flags := { s.flags with quitting := true },
                  worker := if s.flags.sleeping then wakeOne s.worker else s.worker, quit := set s.quit k .done }
  | _ => none

/-- `bl_portable_worker_thread_entry_point`, `thread.cpp:185-230`: from taking the mutex (or being woken up) to releasing it, and the
call of the work function. -/
def worker (s : State) : Option State :=
  match s.worker with
  | .top =>
    if s.flags.enqueued then
      some { s with flags := { s.flags with sleeping := false, enqueued := false }, worker := .call s.func s.data s.flags.quitting }
    else if s.flags.quitting then some { s with flags := { s.flags with sleeping := false }, worker := .exited }
    else some { s with flags := { s.flags with sleeping := true }, worker := .blocked }
  | .call f d last => some { s with worker := if last then .exited else .top, log := s.log ++ [(f, d)] }
  | _ => none

/-- One atomic operation. -/
def step (s : State) : Act → Option State
  | .run k => run s k
  | .quit k => quit s k
  | .worker _ => worker s
  | .spurious => if s.worker = .blocked then some { s with worker := .top } else none

end Portable

/-- An execution. -/
def exec (step : State → Act → Option State) : State → List Act → Option State
  | s, [] => some s
  | s, a :: as => (step s a).bind fun s => exec step s as

end Blend2D.Thread
