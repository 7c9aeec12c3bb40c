/-!
# Unique identifiers (`blend2d/threading/uniqueidgenerator.cpp`)

One domain; domains do not interact.  Any number of threads generate identifiers; `issued` records what was returned.
-/
namespace Blend2D.UniqueId

/-! ## 64-bit atomics, thread local cache -/

/-- `kLocalCacheCount` (`uniqueidgenerator.cpp:76`). -/
def kLocalCacheCount : Nat := 256

structure State where
  /-- `GlobalState::index` (`uniqueidgenerator.cpp:18-24`), a `uint64_t`. -/
  index : Nat
  /-- `tls_id_state` of each thread (`uniqueidgenerator.cpp:77`). -/
  tls : Nat → Nat
  /-- Is the thread between the two halves of `generate_id`? -/
  ready : Nat → Bool
  /-- Everything that was returned so far. -/
  issued : List Nat
  /-- How often `fetch_add` was called. -/
  fetches : Nat

/-- One step of thread `t` in `generate_id` (`uniqueidgenerator.cpp:79-85`): fetching a range of identifiers if the
cached one is exhausted, or returning one. -/
def step (s : State) (t : Nat) : State :=
  if s.ready t then
    let id := (s.tls t + 1) % 2 ^ 64
    { s with
      tls := fun u => if u = t then id else s.tls u
      ready := fun u => if u = t then false else s.ready u
      issued := id :: s.issued }
  else if s.tls t &&& (kLocalCacheCount - 1) = 0 then
    { s with
      index := (s.index + kLocalCacheCount) % 2 ^ 64
      tls := fun u => if u = t then s.index else s.tls u
      ready := fun u => if u = t then true else s.ready u
      fetches := s.fetches + 1 }
  else { s with ready := fun u => if u = t then true else s.ready u }

def initial : State := ⟨0, fun _ => 0, fun _ => false, [], 0⟩

/-- The states reached by some schedule. -/
inductive Reach : State → Prop where
  | init : Reach initial
  | step {s : State} (t : Nat) : Reach s → Reach (step s t)

/-! ## 64-bit atomics, no thread local storage -/

/-- The counter and what was returned (`uniqueidgenerator.cpp:92-95`): the whole function is one atomic step. -/
def stepNoTls (s : Nat × List Nat) : Nat × List Nat := ((s.1 + 1) % 2 ^ 64, (s.1 + 1) % 2 ^ 64 :: s.2)

def runNoTls : Nat → Nat × List Nat
  | 0 => (0, [])
  | k + 1 => stepNoTls (runNoTls k)

/-! ## 32-bit atomics -/

/-- Where a thread is in the loop of `GlobalState::fetch_add` (`uniqueidgenerator.cpp:35-60`). -/
inductive PC where
  | load
  | add (hi : Nat)
  | incHi
  | clear
  deriving DecidableEq, Repr

structure State32 where
  hi : Nat
  lo : Nat
  pc : Nat → PC
  /-- The values `fetch_add` returned. -/
  returned : List Nat

/-- One atomic step of thread `t` in `fetch_add(n)` of the 32-bit implementation. -/
def step32 (n : Nat) (s : State32) (t : Nat) : State32 :=
  match s.pc t with
  | .load => { s with pc := fun u => if u = t then .add s.hi else s.pc u }
  | .add hi =>
    let s' := { s with lo := (s.lo + n) % 2 ^ 32 }
    if s.lo &&& 0x80000000 ≠ 0 then { s' with pc := fun u => if u = t then .incHi else s.pc u }
    else { s' with pc := fun u => if u = t then .load else s.pc u, returned := (hi * 2 ^ 32 + s.lo) :: s.returned }
  | .incHi => { s with hi := (s.hi + 1) % 2 ^ 32, pc := fun u => if u = t then .clear else s.pc u }
  | .clear => { s with lo := s.lo &&& 0x7FFFFFFF, pc := fun u => if u = t then .load else s.pc u }

def initial32 : State32 := ⟨0, 0, fun _ => .load, []⟩

inductive Reach32 (n : Nat) : State32 → Prop where
  | init : Reach32 n initial32
  | step {s : State32} (t : Nat) : Reach32 n s → Reach32 n (step32 n s t)

end Blend2D.UniqueId
