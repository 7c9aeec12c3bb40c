/-!
# Thread pool: model

Models `blend2d/threading/threadpool.cpp`.  Every entry point that touches the
pool's slots and counters runs under `self->mutex`, so a history of the pool is
a sequence of calls; the model is a step function over such sequences.

Simplifications:
* threads are numbers (`Nat`); `created` threads receive the numbers `0, 1, 2, …`;
* whether each `bl_thread_create` succeeds is decided by an arbitrary oracle
  (`List Bool`, one entry per attempt, a missing entry meaning failure);
* the bit array is a list of 64 Booleans visited in ascending order: the code
  visits the words in ascending order and the bits of a word from the least
  significant one, for both 32-bit and 64-bit words;
* counters are natural numbers; the invariants proved in `Props.lean` show that
  no subtraction underflows and no counter exceeds 64;
* the decrement of `created_thread_count` performed by an exiting thread is not
  modelled (it never influences acquiring or releasing); neither are reference
  counts of the pool and the waiting in `perform_exit_cleanup`.
-/

namespace Blend2D.ThreadPool

/-- `BLInternalThreadPool::kMaxThreadCount`, `threadpool.cpp:29`. -/
def maxThreads : Nat := 64

/-- `BLInternalThreadPool` (the members used for pooling), `threadpool.cpp:27-54`. -/
structure Pool where
  /-- `pooled_thread_bits` -/
  bits : List Bool
  /-- `threads[]`, `none` is a null pointer -/
  slots : List (Option Nat)
  /-- `pooled_thread_count` -/
  pooled : Nat
  /-- `acquired_thread_count` -/
  acquired : Nat
deriving DecidableEq, Repr

/-- `BLInternalThreadPool()`, `threadpool.cpp:61-68`. -/
def Pool.empty : Pool :=
  { bits := List.replicate maxThreads false, slots := List.replicate maxThreads none,
    pooled := 0, acquired := 0 }

/-- The loops of `bl_thread_pool_release_threads_internal`, `threadpool.cpp:233-255`:
at every clear bit store `threads[i]` into the slot and set the bit, stop as soon
as `++i >= n`.  `buf` is what the caller's array holds from index `i` on; reading
past it is undefined behaviour (`none`).  Note the `do … while` shape: the first
clear bit is filled before `n` is looked at. -/
def relScan (n : Nat) : List Bool → List (Option Nat) → List Nat → Nat →
    Option (List Bool × List (Option Nat) × Nat)
  | [], [], _, i => some ([], [], i)
  | true :: bs, s :: ss, buf, i => do
    let (bs', ss', i') ← relScan n bs ss buf i
    some (true :: bs', s :: ss', i')
  | false :: bs, _ :: ss, t :: buf, i =>
    if i + 1 ≥ n then some (true :: bs, some t :: ss, i + 1)
    else do
      let (bs', ss', i') ← relScan n bs ss buf (i + 1)
      some (true :: bs', some t :: ss', i')
  | _, _, _, _ => none

/-- `bl_thread_pool_release_threads_internal`, `threadpool.cpp:229-263`. -/
def release (p : Pool) (buf : List Nat) (n : Nat) : Option Pool := do
  let (bs, ss, _) ← relScan n p.bits p.slots buf 0
  some { bits := bs, slots := ss, pooled := p.pooled + n, acquired := p.acquired - n }

/-- The loops taking threads out of the pool, `threadpool.cpp:307-328`: at every
set bit take the thread, clear slot and bit, stop when `++n_acquired == n`.
`want` is `n - n_acquired`, positive on entry.  A set bit with a null slot would
hand a null thread to the caller: `none`. -/
def takeScan : List Bool → List (Option Nat) → Nat →
    Option (List Bool × List (Option Nat) × List Nat)
  | [], [], _ => some ([], [], [])
  | false :: bs, s :: ss, want => do
    let (bs', ss', ts) ← takeScan bs ss want
    some (false :: bs', s :: ss', ts)
  | true :: bs, some t :: ss, want =>
    if want = 1 then some (false :: bs, none :: ss, [t])
    else do
      let (bs', ss', ts) ← takeScan bs ss (want - 1)
      some (false :: bs', none :: ss', t :: ts)
  | _, _, _ => none

/-- The creation loop, `threadpool.cpp:286-310`: create until `want` threads exist
or a creation fails.  Returns the created threads and whether a creation failed. -/
def createLoop : (next want : Nat) → List Bool → List Nat × Bool
  | _, 0, _ => ([], false)
  | next, want + 1, true :: oracle =>
    let r := createLoop (next + 1) want oracle
    (next :: r.1, r.2)
  | _, _ + 1, _ => ([], true)

/-- Result codes of acquiring. -/
inductive Reason
  | success | exhausted | createFailed
deriving DecidableEq, Repr

/-- Result of `bl_thread_pool_acquire_threads_internal`: the new pool, the threads
handed to the caller, the number of threads created and the reason. -/
structure AcqResult where
  pool : Pool
  got : List Nat
  made : Nat
  reason : Reason
deriving DecidableEq, Repr

/-- `threadpool.cpp:315-335`: take pooled threads until `n` are held. -/
def acquireTail (p : Pool) (made : List Nat) (n : Nat) (reason : Reason) : Option AcqResult :=
  if made.length < n then do
    let (bs, ss, ts) ← takeScan p.bits p.slots (n - made.length)
    some { pool := { bits := bs, slots := ss, pooled := p.pooled - ts.length,
                     acquired := p.acquired + (made ++ ts).length },
           got := made ++ ts, made := made.length, reason := reason }
  else
    some { pool := { p with acquired := p.acquired + made.length },
           got := made, made := made.length, reason := reason }

/-- `bl_thread_pool_acquire_threads_internal`, `threadpool.cpp:265-335`. `garbage` is
the initial content of the caller's array, which only matters if the code reads an
entry it did not write. -/
def acquire (p : Pool) (next n : Nat) (allOrNothing : Bool) (oracle : List Bool)
    (garbage : List Nat) : Option AcqResult :=
  if n > p.pooled then
    let create := n - p.pooled
    let remaining := maxThreads - (p.acquired + p.pooled)
    if create > remaining ∧ allOrNothing then
      some { pool := p, got := [], made := 0, reason := .exhausted }
    else
      let create := if create > remaining then remaining else create
      let made := createLoop next create oracle
      if made.2 then
        if allOrNothing then do
          let p' ← release { p with acquired := p.acquired + made.1.length }
            (made.1 ++ garbage.drop made.1.length) made.1.length
          some { pool := p', got := [], made := made.1.length, reason := .createFailed }
        else acquireTail p made.1 n .createFailed
      else acquireTail p made.1 n .success
  else acquireTail p [] n .success

/-- `bl_thread_pool_cleanup`, `threadpool.cpp:199-227`: tells every pooled thread to
quit and empties the pool.  Returns the threads told to quit. -/
def cleanupScan : List Bool → List (Option Nat) → Option (List (Option Nat) × List Nat)
  | [], [] => some ([], [])
  | false :: bs, s :: ss => do
    let (ss', ts) ← cleanupScan bs ss
    some (s :: ss', ts)
  | true :: bs, some t :: ss => do
    let (ss', ts) ← cleanupScan bs ss
    some (none :: ss', t :: ts)
  | _, _ => none

/-- `bl_thread_pool_cleanup`, `threadpool.cpp:199-227`. -/
def cleanup (p : Pool) : Option (Pool × List Nat) :=
  if p.pooled = 0 then some (p, [])
  else do
    let (ss, ts) ← cleanupScan p.bits p.slots
    some ({ p with bits := p.bits.map (fun _ => false), slots := ss,
                   pooled := p.pooled - ts.length }, ts)

/-! ## Histories -/

/-- The pool together with what its users know: the threads that were handed out
and not given back, the threads told to quit, and the number created so far. -/
structure World where
  pool : Pool
  held : List Nat
  quit : List Nat
  next : Nat

/-- A call on the pool. -/
inductive Op
  /-- `acquire_threads(buf, n, flags)` with the outcome of each creation. -/
  | acquire (n : Nat) (allOrNothing : Bool) (oracle : List Bool) (garbage : List Nat)
  /-- `release_threads(ts, ts.length)` -/
  | release (ts : List Nat)
  /-- `cleanup()` -/
  | cleanup

/-- One call; `none` is undefined behaviour. -/
def step (w : World) : Op → Option World
  | .acquire n aon oracle garbage => do
    let r ← acquire w.pool w.next n aon oracle garbage
    some { w with pool := r.pool, held := w.held ++ r.got, next := w.next + r.made }
  | .release ts => do
    let p ← release w.pool ts ts.length
    some { w with pool := p, held := w.held.filter (fun t => !ts.contains t) }
  | .cleanup => do
    let (p, ts) ← cleanup w.pool
    some { w with pool := p, quit := w.quit ++ ts }

/-- What a caller must respect: release only threads it holds, each once, and at
least one (`WorkerManager` never releases an empty set). -/
def Op.Legal (w : World) : Op → Prop
  | .acquire _ _ _ _ => True
  | .release ts => ts ≠ [] ∧ ts.Nodup ∧ ∀ t ∈ ts, t ∈ w.held
  | .cleanup => True

end Blend2D.ThreadPool
