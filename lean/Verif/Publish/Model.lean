/-!
# Publishing lazily computed content

`bl_font_face_get_character_coverage` computes a bit set on first use and publishes it with
`bl_object_atomic_content_move`, while other threads may do the same.  The object is two 64-bit words; the second one
holds the 32-bit `info`, on which the protocol works.  Steps interleave sequentially consistently; the copy
`self->_d = other_d` is not atomic: it is two stores, whose order the code does not determine.
-/
namespace Blend2D.Publish

/-- The two words of the shared object; the first is `none` until it is stored. -/
structure Shared where
  impl : Option Nat
  info : Nat
  deriving DecidableEq, Repr

/-- Where a thread that called `bl_font_face_get_character_coverage` is. -/
inductive PC where
  | start
  /-- The content was computed. -/
  | computed
  /-- The exchange succeeded. -/
  | won
  /-- One word was stored. -/
  | half
  /-- Waiting: spins that are left and the value of `info` that was read last. -/
  | spin (n : Nat) (info : Nat)
  /-- About to read the shared object. -/
  | copy
  /-- Returned the content of its own temporary. -/
  | own
  /-- Returned what it read from the shared object. -/
  | done (impl : Option Nat) (info : Nat)
  deriving DecidableEq, Repr

structure State where
  shared : Shared
  /-- Number of times the object was stored to. -/
  wins : Nat
  pc : Nat → PC

/-- What is published: the words of the computed content. -/
structure Content where
  impl : Nat
  info : Nat

def State.at (s : State) (t : Nat) (pc : PC) : State := { s with pc := fun u => if u = t then pc else s.pc u }

/-- One step of thread `t` (`bl_font_face_get_character_coverage`, `blend2d/core/fontface.cpp:292-313`;
`bl_object_atomic_content_test`, `object_p.h:524-526`; `bl_object_atomic_content_move`, `object_p.h:536-571`).
`implFirst` is the order in which the two words are stored. -/
def step (implFirst : Bool) (c : Content) (s : State) (t : Nat) : State :=
  match s.pc t with
  | .start => if s.shared.info > 1 then s.at t .copy else s.at t .computed
  | .computed =>
    if s.shared.info = 0 then { s with shared := { s.shared with info := 1 }, wins := s.wins + 1 }.at t .won
    else s.at t (.spin 100 s.shared.info)
  | .won =>
    if implFirst then { s with shared := { s.shared with impl := some c.impl } }.at t .half
    else { s with shared := { s.shared with info := c.info } }.at t .half
  | .half =>
    if implFirst then { s with shared := { s.shared with info := c.info } }.at t .copy
    else { s with shared := { s.shared with impl := some c.impl } }.at t .copy
  | .spin n info =>
    if info > 1 then s.at t .copy
    else if n - 1 = 0 then s.at t .own
    else s.at t (.spin (n - 1) s.shared.info)
  | .copy => s.at t (.done s.shared.impl s.shared.info)
  | .own => s
  | .done _ _ => s

/-- `bl_object_atomic_content_init` (`object_p.h:514-517`); any number of threads call the function. -/
def initial : State := ⟨⟨none, 0⟩, 0, fun _ => .start⟩

/-- The states that can be reached by any schedule. -/
inductive Reach (implFirst : Bool) (c : Content) : State → Prop where
  | init : Reach implFirst c initial
  | step {s : State} (t : Nat) : Reach implFirst c s → Reach implFirst c (step implFirst c s t)

end Blend2D.Publish
