import Verif.Arena.Examples
/-! C61: pools of objects on an arena (`ArenaPool`, `arenaallocator_p.h:446-506`). -/
namespace Blend2D.Arena

/-- What is allocated becomes the only object of the pool (`arenaallocator_p.h:468-473`). -/
def poolPut : Arena × Option Nat → Arena × List Nat × Bool
  | (t, none) => (t, [], false)
  | (t, some p) => (t, [p], true)

/-- What is allocated is returned, the pool stays empty (`arenaallocator_p.h:481`). -/
def poolGet : Arena × Option Nat → Arena × List Nat × Option Nat
  | (t, r) => (t, [], r)

/-- `ArenaPool::ensure` (`arenaallocator_p.h:464-474`): the arena, the pool as the list of its links, and whether it
succeeded.  `arena.alloc(SizeOfT)` has no alignment. -/
def poolEnsure (size : Nat) (s : Arena) (pool : List Nat) (mem : Option Nat) : Arena × List Nat × Bool :=
  match pool with
  | _ :: _ => (s, pool, true)
  | [] =>
    poolPut (alloc s size 1 mem)

/-- `ArenaPool::alloc` (`arenaallocator_p.h:478-484`). -/
def poolAlloc (size : Nat) (s : Arena) (pool : List Nat) (mem : Option Nat) : Arena × List Nat × Option Nat :=
  match pool with
  | [] => poolGet (alloc s size 1 mem)
  | p :: rest => (s, rest, some p)

/-- `ArenaPool::free` (`arenaallocator_p.h:497-503`). -/
def poolFree (pool : List Nat) (p : Nat) : List Nat := p :: pool

namespace Spec

/-- Histories of a pool whose objects have this size and of its arena: the arena, the pool, the objects in use, and the
other ranges allocated by the arena.  Only objects in use are freed. -/
inductive PoolReach (size : Nat) : Arena → List Nat → List Nat → List (Nat × Nat) → Prop
  | start {s live} : Reach s live → PoolReach size s [] [] live
  | other {s pool used live} (n alignment : Nat) (mem : Option Nat) : PoolReach size s pool used live → Call s n alignment mem →
      PoolReach size (alloc s n alignment mem).1 pool used
        (match (alloc s n alignment mem).2 with | some p => (p, n) :: live | none => live)
  | ensure {s pool used live} (mem : Option Nat) : PoolReach size s pool used live → Call s size 1 mem →
      PoolReach size (poolEnsure size s pool mem).1 (poolEnsure size s pool mem).2.1 used live
  | alloc {s pool used live} (mem : Option Nat) : PoolReach size s pool used live → Call s size 1 mem →
      PoolReach size (poolAlloc size s pool mem).1 (poolAlloc size s pool mem).2.1
        (match (poolAlloc size s pool mem).2.2 with | some p => p :: used | none => used) live
  | free {s pool used live} (p : Nat) : PoolReach size s pool used live → p ∈ used →
      PoolReach size s (poolFree pool p) (used.erase p) live

end Spec
open Spec List

theorem poolEnsure_none {size : Nat} {s t : Arena} {mem : Option Nat} (h : alloc s size 1 mem = (t, none)) :
    poolEnsure size s [] mem = (t, [], false) := by
  rw [poolEnsure, h, poolPut]

theorem poolEnsure_some {size : Nat} {s t : Arena} {mem : Option Nat} {p : Nat} (h : alloc s size 1 mem = (t, some p)) :
    poolEnsure size s [] mem = (t, [p], true) := by
  rw [poolEnsure, h, poolPut]

theorem poolAlloc_nil {size : Nat} {s t : Arena} {mem r : Option Nat} (h : alloc s size 1 mem = (t, r)) :
    poolAlloc size s [] mem = (t, [], r) := by
  rw [poolAlloc, h, poolGet]

/-- Everything the arena has allocated is in use, in the pool, or something else. -/
theorem PoolReach.reach {size : Nat} {s : Arena} {pool used : List Nat} {live : List (Nat × Nat)}
    (h : PoolReach size s pool used live) :
    ∃ all, Reach s all ∧ all ~ used.map (·, size) ++ (pool.map (·, size) ++ live) := by
  induction h with
  | start h => exact ⟨_, h, Perm.refl _⟩
  | @other s pool used live n alignment mem _ hc ih =>
    obtain ⟨all, hr, hp⟩ := ih
    have hr' := Reach.alloc n alignment mem hr hc
    refine ⟨_, hr', ?_⟩
    cases ho : (Arena.alloc s n alignment mem).2 with
    | none => exact hp
    | some p =>
      refine (hp.cons (p, n)).trans ?_
      rw [← List.append_assoc, ← List.append_assoc]
      exact perm_middle.symm
  | @ensure s pool used live mem _ hc ih =>
    obtain ⟨all, hr, hp⟩ := ih
    cases pool with
    | cons x xs => exact ⟨all, hr, hp⟩
    | nil =>
      have hr' := Reach.alloc size 1 mem hr hc
      obtain ⟨⟨t, r⟩, ho⟩ : ∃ q, Arena.alloc s size 1 mem = q := ⟨_, rfl⟩
      rw [ho] at hr'
      cases r with
      | none =>
        rw [poolEnsure_none ho]
        exact ⟨all, hr', hp⟩
      | some p =>
        rw [poolEnsure_some ho]
        refine ⟨_, hr', (hp.cons (p, size)).trans ?_⟩
        exact perm_middle.symm
  | @alloc s pool used live mem _ hc ih =>
    obtain ⟨all, hr, hp⟩ := ih
    cases pool with
    | cons x xs => exact ⟨all, hr, hp.trans perm_middle⟩
    | nil =>
      have hr' := Reach.alloc size 1 mem hr hc
      obtain ⟨⟨t, r⟩, ho⟩ : ∃ q, Arena.alloc s size 1 mem = q := ⟨_, rfl⟩
      rw [ho] at hr'
      rw [poolAlloc_nil ho]
      cases r with
      | none => exact ⟨all, hr', hp⟩
      | some p => exact ⟨_, hr', hp.cons (p, size)⟩
  | @free s pool used live p _ hm ih =>
    obtain ⟨all, hr, hp⟩ := ih
    refine ⟨all, hr, hp.trans ?_⟩
    have := (perm_cons_erase hm).map (·, size)
    refine (this.append_right _).trans ?_
    exact perm_middle.symm

/-- Objects of a pool that are in use are inside of the memory of the arena, apart from each other, from those that were
freed, and from everything else that was allocated. -/
theorem C61_pool_partial {size : Nat} (h0 : 0 < size) {s : Arena} {pool used : List Nat} {live : List (Nat × Nat)}
    (h : PoolReach size s pool used live) :
    (∀ p ∈ used, ∃ b ∈ owned s, b.data ≤ p ∧ p + size ≤ b.stop) ∧
    (used ++ pool).Pairwise (fun p q => Apart p size q size) ∧
    ∀ p ∈ used, ∀ r ∈ live, 0 < r.2 → Apart p size r.1 r.2 := by
  obtain ⟨all, hr, hp⟩ := PoolReach.reach h
  have hl := C61_live_partial hr
  have ha := C61_apart_partial hr
  have hsym : ∀ {x y : Nat × Nat}, (0 < x.2 → 0 < y.2 → Apart x.1 x.2 y.1 y.2) → (0 < y.2 → 0 < x.2 → Apart y.1 y.2 x.1 x.2) := by
    intro x y hxy h1 h2
    have := hxy h2 h1
    unfold Apart at *; omega
  have ha' := hp.pairwise ha hsym
  refine ⟨?_, ?_, ?_⟩
  · intro p hm
    exact hl (p, size) (hp.mem_iff.2 (by simp [hm])) h0
  · rw [← List.append_assoc, ← List.map_append] at ha'
    have := (List.pairwise_append.1 ha').1
    rw [List.pairwise_map] at this
    exact this.imp fun h => h h0 h0
  · intro p hm r hr' h1
    exact (List.pairwise_append.1 ha').2.2 (p, size) (by simp [hm]) r (by simp [hr']) h0 h1

/-- The objects in use are never given out again. -/
theorem C61_pool_new_partial {size : Nat} (h0 : 0 < size) {s : Arena} {pool used : List Nat} {live : List (Nat × Nat)}
    (h : PoolReach size s pool used live) {mem : Option Nat} (hc : Call s size 1 mem) {p : Nat}
    (hp : (poolAlloc size s pool mem).2.2 = some p) : ∀ q ∈ used, Apart p size q size := by
  have := (C61_pool_partial h0 (PoolReach.alloc mem h hc)).2.1
  rw [hp] at this
  simp only [List.cons_append, List.pairwise_cons] at this
  intro q hq
  exact this.1 q (by simp [hq])

theorem call40 : Call a1 40 1 none := ⟨by unfold Alignment; decide, by decide, by decide, by intro a n h; cases h⟩

/-- An object is allocated, freed and allocated again. -/
example : PoolReach 40 (alloc a1 40 1 none).1 [] [4128] [] ∧ PoolReach 40 (alloc a1 40 1 none).1 [4128] [] [] ∧
    (poolAlloc 40 (alloc a1 40 1 none).1 [4128] none).2.2 = some 4128 := by
  have h := PoolReach.alloc none (PoolReach.start (size := 40) reach1) call40
  have hp : (poolAlloc 40 a1 [] none).2.2 = some 4128 := by decide +kernel
  rw [hp] at h
  exact ⟨h, PoolReach.free 4128 h (by simp), by decide +kernel⟩

end Blend2D.Arena
