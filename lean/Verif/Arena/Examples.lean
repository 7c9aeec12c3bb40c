import Verif.Arena.Props
/-! Examples for C61. -/
namespace Blend2D.Arena
open Spec

/-- An arena of the raster engine, and one with static memory. -/
def a0 : Arena := init 64 65536 8 none
def a1 : Arena := init 64 8192 16 (some (4096, 512))

example : a0.align = 16 ∧ a0.minShift = 17 ∧ a1.align = 32 := by decide +kernel

theorem reach0 : Reach a0 [] := Reach.init 64 65536 8 none (by decide) (by decide) (by decide) (by decide) (by simp)
theorem reach1 : Reach a1 [] := Reach.init 64 8192 16 (some (4096, 512)) (by decide) (by decide) (by decide) (by decide)
  (by rintro a n h; simp only [Option.some.injEq, Prod.mk.injEq] at h; obtain ⟨rfl, rfl⟩ := h; decide)

theorem call1 : Call a1 400 8 (some 65536) :=
  ⟨by unfold Alignment; decide, by decide, by decide, by
    intro a n h hr
    have hq : request a1 400 8 = some (2 ^ 15 - 32) := by decide +kernel
    simp only [Option.some.injEq] at h
    subst h
    rw [hq] at hr
    simp only [Option.some.injEq] at hr
    subst hr
    refine ⟨by decide, by decide, ?_⟩
    intro b hb
    have : owned a1 = [⟨4096, 488⟩] := by decide +kernel
    rw [this] at hb
    simp only [List.mem_singleton] at hb
    subst hb
    unfold Apart; decide⟩

/-- The first allocation uses the static memory, the second one needs a block. -/
example : (alloc a1 400 8 (some 65536)).2 = some 4128 ∧
    (alloc (alloc a1 400 8 (some 65536)).1 100 8 (some 65536)).2 = some 65568 := by decide +kernel

example : Reach (alloc a1 400 8 (some 65536)).1 [(4128, 400)] := by
  have := Reach.alloc 400 8 (some 65536) reach1 call1
  have hp : (alloc a1 400 8 (some 65536)).2 = some 4128 := by decide +kernel
  rw [hp] at this
  exact this

example : Since a1 (clear (alloc a1 400 8 (some 65536)).1) [] := (Since.start.alloc 400 8 (some 65536) call1).clear

theorem call0 : Call a1 0 1 (some 65536) :=
  ⟨by unfold Alignment; decide, by decide, by decide, by
    intro a n h hr
    have hq : request a1 0 1 = some (2 ^ 15 - 32) := by decide +kernel
    simp only [Option.some.injEq] at h
    subst h
    rw [hq] at hr
    simp only [Option.some.injEq] at hr
    subst hr
    refine ⟨by decide, by decide, ?_⟩
    intro b hb
    have : owned a1 = [⟨4096, 488⟩] := by decide +kernel
    rw [this] at hb
    simp only [List.mem_singleton] at hb
    subst hb
    unfold Apart; decide⟩

/-- More is asked for than the static memory has. -/
example : remaining a1 < 1000 ∧ (ensure a1 1000 (some 65536)).2 = true ∧ 1000 ≤ remaining (ensure a1 1000 (some 65536)).1 :=
  ⟨by decide +kernel, by decide +kernel, C61_ensure_partial reach1 call0 (by decide) (by decide +kernel)⟩

/-- The static block stays, the other one is freed. -/
example : reset (alloc (alloc a1 400 8 (some 65536)).1 100 8 (some 65536)).1 =
    ({ a1 with count := 0 }, [65536]) := by decide +kernel

/-- After a size that is no multiple of 16 and larger than a block, aligning the pointer passes the end of the block; the
difference wraps around, and memory behind the block is returned. -/
theorem C61_size_counterexample :
    let s := (alloc a0 200001 1 (some 65536)).1
    (alloc a0 200001 1 (some 65536)).2 = some 65568 ∧ owned s = [⟨65536, 200009⟩] ∧
      (alloc s 4096 8 none).2 = some 265576 ∧ (⟨65536, 200009⟩ : Block).stop < 265576 := by decide +kernel

/-- With a block alignment of 64 clearing an empty arena moves the pointer behind the end of the zero block, if that isn't
aligned to 128, and then memory that nobody owns is returned. -/
theorem C61_clear_counterexample :
    let s := clear (init 64 1024 64 none)
    owned s = [] ∧ (alloc s 4096 8 none).2 = some 128 := by decide +kernel

/-- A state that is saved when the block is exactly full isn't found in that block, the first block is used from its begin
again: what is allocated next overlaps what was allocated before the state was saved. -/
theorem C61_restore_counterexample :
    let s := (alloc a1 480 8 none).1
    (alloc a1 480 8 none).2 = some 4128 ∧ s.ptr = s.stop ∧ (alloc (restore s s.ptr) 16 8 none).2 = some 4128 := by
  decide +kernel

/-- A state is saved in the static memory, another block is added, and the state is restored. -/
example : a1.ptr < a1.stop ∧ Grown a1 (alloc a1 400 8 (some 65536)).1 ∧
    (alloc (restore (alloc (alloc a1 400 8 (some 65536)).1 100 8 (some 65536)).1 a1.ptr) 16 8 none).2 = some 4128 :=
  ⟨by decide +kernel, Grown.alloc 400 8 (some 65536) (Grown.start a1) call1, by decide +kernel⟩

/-- `ensure` succeeds although the new block is too small. -/
theorem C61_ensure_counterexample :
    (ensure (init 64 1024 8 none) 1000000 (some 65536)).2 = true ∧
      remaining (ensure (init 64 1024 8 none) 1000000 (some 65536)).1 < 1000000 := by decide +kernel

end Blend2D.Arena
