/-!
# Reference counting under concurrency

One impl that is shared by any number of threads.  Only the counter is accessed atomically, so the model follows the
C++ memory model for it: read-modify-write operations on one location are totally ordered; `fetch_sub(acq_rel)`
publishes what its thread knows and learns what was published; `fetch_add(relaxed)` does neither, but, being a
read-modify-write operation, it continues the release sequences it is part of.  What a thread knows to have happened
before its next step is a vector clock: `seen t u = n` says that the first `n` accesses of thread `u` happen before
what thread `t` does next.

Undefined behaviour (an access to, or a second `free` of, memory that was freed) is the outcome `none`.
-/
namespace Blend2D.RefCount

/-- Threads are numbered. -/
abbrev Thread := Nat
/-- A vector clock. -/
abbrev Clock := Thread → Nat

def Clock.join (a b : Clock) : Clock := fun u => max (a u) (b u)

/-- The impl's header (`BLObjectImplHeader`, `blend2d/core/object_p.h:34-112`), who owns its handles, and what the
threads know. -/
structure State where
  /-- `flags & kRefCountedAndImmutableFlags` (`base_ref_count_value`, `object_p.h:109`): 0 if the impl is not reference
  counted, 1 if it is, 3 if it is also immutable. -/
  base : Nat
  /-- `ref_count`, a `size_t`. -/
  rc : Nat
  /-- What acquiring the counter teaches. -/
  msg : Clock
  /-- The owner of each handle. -/
  handles : List Thread
  seen : Thread → Clock
  /-- How often each thread accessed the impl's content. -/
  accesses : Thread → Nat
  /-- Threads for which `deref_impl_and_test` returned true and that have not called `free_impl` yet. -/
  pending : List Thread
  /-- Threads that found the impl mutable and have not acted on the impl since. -/
  writers : List Thread
  /-- How often the impl was freed. -/
  frees : Nat

/-- `RCMode` (`blend2d/core/object_p.h:26-32`). -/
inductive Mode where
  | maybe
  | force
  deriving DecidableEq

inductive Act where
  /-- The thread reads the content. -/
  | access (t : Thread)
  /-- It copies one of its handles. -/
  | retain (m : Mode) (t : Thread)
  /-- It destroys one of its handles: the first half of a release. -/
  | release (m : Mode) (t : Thread)
  /-- The second half, if the first returned true. -/
  | free (t : Thread)
  /-- It passes one of its handles to another thread, by means that synchronise (a mutex, creating a thread, ...). -/
  | pass (t u : Thread)
  /-- `is_impl_mutable` -/
  | test (t : Thread)
  /-- It modifies the content after the test returned true. -/
  | write (t : Thread)

/-- An access to the impl's content by a thread. -/
def State.touch (s : State) (t : Thread) : State :=
  let n := s.accesses t + 1
  { s with
    accesses := fun u => if u = t then n else s.accesses u
    seen := fun u => if u = t then (fun v => if v = t then n else s.seen t v) else s.seen u }

/-- `retain_impl` (`object_p.h:341-346`); `fetch_add` is relaxed (`api-impl.h:27-29`).  `is_impl_ref_counted` reads
`ref_count != 0` (`object_p.h:94, 312-315`). -/
def retain (m : Mode) (s : State) (t : Thread) : Option State :=
  if s.frees ≠ 0 then none
  else
    let s := { s with handles := t :: s.handles, writers := s.writers.filter (· ≠ t) }
    if m = .maybe ∧ ¬ s.rc ≠ 0 then some s
    else some { s with rc := (s.rc + 1) % 2 ^ 64 }

/-- `deref_impl_and_test` (`object_p.h:348-357`); `fetch_sub` is `acq_rel` (`api-impl.h:45-47`). -/
def release (m : Mode) (s : State) (t : Thread) : Option State :=
  if s.frees ≠ 0 then none
  else
    let s := { s with handles := s.handles.erase t, writers := s.writers.filter (· ≠ t) }
    if m = .maybe ∧ s.base = 0 then some s
    else
      let old := s.rc
      let know := (s.seen t).join s.msg
      some { s with
        rc := (old + (2 ^ 64 - 1)) % 2 ^ 64
        msg := know
        seen := fun u => if u = t then know else s.seen u
        pending := if old = s.base then t :: s.pending else s.pending }

/-- `free_impl` / `free_virtual_impl` called by `release_virtual_impl` and its likes (`object_p.h:359-362`).  Undefined
if the memory was freed already. -/
def free (s : State) (t : Thread) : Option State :=
  if s.frees ≠ 0 then none
  else some { s with pending := s.pending.erase t, frees := s.frees + 1 }

/-- Does every access happen before what the thread does next? -/
def State.Ordered (s : State) (t : Thread) : Prop := ∀ u, s.accesses u ≤ s.seen t u

def step (s : State) : Act → Option State
  | .access t => if s.frees ≠ 0 then none else some (s.touch t)
  | .retain m t => retain m s t
  | .release m t => release m s t
  | .free t => free s t
  | .pass t u => some { s with
      handles := u :: s.handles.erase t
      writers := s.writers.filter (· ≠ t)
      seen := fun v => if v = u then (s.seen u).join (s.seen t) else s.seen v }
  | .test t =>   -- `is_impl_mutable` (`object_p.h:305-309`): a plain load
    if s.frees ≠ 0 then none
    else some { s with writers := if s.rc = 1 then t :: s.writers else s.writers.filter (· ≠ t) }
  | .write t => if s.frees ≠ 0 then none else some (s.touch t)

/-- The rules a program follows: threads only use handles they own, write only after the test returned true, and free
only what they found unreferenced.  There is no room for 2^64 handles in memory.  `RCMode::kForce` is used only if
the impl is known to be reference counted. -/
def Allowed (s : State) : Act → Prop
  | .access t => t ∈ s.handles
  | .retain m t => t ∈ s.handles ∧ s.handles.length + 4 < 2 ^ 64 ∧ (m = .force → s.base ≠ 0)
  | .release m t => t ∈ s.handles ∧ (m = .force → s.base ≠ 0)
  | .free t => t ∈ s.pending
  | .pass t _ => t ∈ s.handles
  | .test t => t ∈ s.handles
  | .write t => t ∈ s.handles ∧ t ∈ s.writers

/-- A new impl (`bl_object_alloc_impl_internal`, `object.cpp:58`: `ref_count = flags & 3`) with one handle. -/
def initial (base : Nat) (t : Thread) : State :=
  { base := base, rc := base, msg := fun _ => 0, handles := [t], seen := fun _ _ => 0, accesses := fun _ => 0
    pending := [], writers := [], frees := 0 }

/-- Every state some schedule of some threads can reach. -/
inductive Reach : State → Prop where
  | init (base : Nat) (h : base = 0 ∨ base = 1 ∨ base = 3) (t : Thread) : Reach (initial base t)
  | step {s : State} (a : Act) (s' : State) : Reach s → Allowed s a → step s a = some s' → Reach s'

end Blend2D.RefCount
