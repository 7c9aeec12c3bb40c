import Verif.SaveRestore.Shared

/-!
# Concrete runs: the hypotheses of the theorems are met, and calls for which the context does not keep its promise
-/

namespace Blend2D.SaveRestore

open Blend2D.Matrix (Mat Trig Ty Box)

/-- A target of 100 x 80 pixels. -/
def env : Env where
  trig := ⟨fun _ => 0, fun _ => 1, fun _ => 0⟩
  round := fun q => ⌊q + 1 / 2⌋
  integral := fun m => if m.m20 = ⌊m.m20⌋ ∧ m.m21 = ⌊m.m21⌋ then some (⌊m.m20⌋ / 256, ⌊m.m21⌋ / 256) else none
  w := 100
  h := 80
  limit := 4096
  origin := 7

/-- Memory of a new saved state. -/
def mem : Saved where
  stateId := 99
  hints := ⟨9, 9, 9⟩
  compOp := 99
  fillRule := 99
  styleType := ⟨99, 99⟩
  clipMode := 99
  prevFlags := fun _ => true
  types := ⟨.invalid, .invalid, .invalid, .invalid⟩
  globalAlphaI := 99
  styleAlphaI := ⟨99, 99⟩
  globalAlpha := 99
  styleAlpha := ⟨99, 99⟩
  style := ⟨.solid 99, .solid 99⟩
  approx := ⟨9, 9, 9, 9, 9⟩
  stroke := ⟨9, 9, 9, 9, 9, 9, 9, []⟩
  clipD := ⟨9, 9, 9, 9⟩
  translationI := (9, 9)
  altTransform := ⟨9, 9, 9, 9, 9, 9⟩
  userTransform := ⟨9, 9, 9, 9, 9, 9⟩

/-- Executes calls one after another; `none` is undefined behaviour. -/
def exec (c : Ctx) : List Op → Option Ctx
  | [] => some c
  | op :: rest => match step env c op with
    | none => none
    | some (c', _) => exec c' rest

/-- `Legal` is decidable. -/
instance decLegal (ws : Bool) (c : Ctx) (op : Op) : Decidable (Legal ws c op) := by
  cases op with
  | setObject s ty o t m n fd => cases fd <;> (simp only [Legal]; infer_instance)
  | stroke o => cases o <;> (simp only [Legal]; infer_instance)
  | save k m => cases k <;> (simp only [Legal]; infer_instance)
  | _ => simp only [Legal]; infer_instance

/-- All calls are covered and none is undefined behaviour. -/
def allLegal (ws : Bool) (c : Ctx) : List Op → Bool
  | [] => true
  | op :: rest => decide (Legal ws c op) && match step env c op with
    | none => false
    | some (c', _) => allLegal ws c' rest

theorem run_exec {ws : Bool} {c c' : Ctx} (ops : List Op) (hl : allLegal ws c ops = true) (h : exec c ops = some c') :
    Run env ws 0 c c' := by
  have key : ∀ (ops : List Op) (a b : Ctx), Run env ws 0 c a → allLegal ws a ops = true → exec a ops = some b → Run env ws 0 c b := by
    intro ops
    induction ops with
    | nil => intro a b hr _ h; rw [← Option.some.inj h]; exact hr
    | cons op rest ih =>
      intro a b hr hl h
      unfold exec at h
      simp only [allLegal, Bool.and_eq_true, decide_eq_true_eq] at hl
      cases hs : step env a op with
      | none => rw [hs] at h; simp at h
      | some p =>
        obtain ⟨a', r⟩ := p
        rw [hs] at h hl
        exact ih a' b (.step hr hl.1 hs (Nat.zero_le _)) hl.2 h
  exact key ops c c' (.refl (Nat.zero_le _)) hl h

/-- Calls that change most of the state: a gradient as fill style, alpha, clip, transformation, stroke width. -/
def calls : List Op :=
  [.setObject 0 9 77 Matrix.identity 0 false (some 5), .setStyleAlpha 0 (1 / 2), .clipToRectI 10 10 50 40,
   .transform (some (.translate 3 4)), .stroke (.width 3), .setCompOp 5, .setFlattenTolerance (1 / 4)]

/-- Calls between `save` and `restore`. -/
def between : List Op :=
  [.setSolid 0 0 0xFF112233, .setGlobalAlpha (1 / 4), .transform (some (.scale 2 2)), .userToMeta, .clipToRectD 0 0 20 20,
   .stroke (.width 9), .stroke (.join 2), .fillJob, .strokeJob, .setCompOp 1, .setFillRule 1,
   .setApproximationOptions ⟨1, 0, 1 / 3, 1 / 4, 1 / 5⟩, .swapStyles 0]

deriving instance DecidableEq for Matrix.Box

-- The hypotheses of the theorems of C31 are met: covered calls, a state that differs, and a restored one.
example : allLegal true (init env) (calls ++ [.save false (some mem)] ++ between ++ [.restore none]) = true := by
  decide +kernel
example : (exec (init env) (calls ++ [.save false (some mem)] ++ between)).map (fun c =>
    (c.core.styleType, c.core.stroke.width, c.core.clipI, c.core.user, c.core.saved.length)) =
    some (⟨1, 0⟩, 9, ⟨10, 10, 43, 44⟩, Matrix.identity, 1) := by decide +kernel
example : (exec (init env) (calls ++ [.save false (some mem)] ++ between ++ [.restore none])).map (fun c =>
    (c.core.styleType, styleView c false, c.core.stroke, c.core.clipI, c.core.user)) =
    (exec (init env) calls).map (fun c =>
    (c.core.styleType, styleView c false, c.core.stroke, c.core.clipI, c.core.user)) := by decide +kernel
-- A cookie restores through further saved states.
example : (exec (init env) (calls ++ [.save true (some mem)] ++ between ++
      [.save false (some mem), .setCompOp 3, .save true (some mem), .restore (some (7, 1))])).map (fun c =>
    (c.core.compOp, c.core.saved.length)) = some (5, 0) := by decide +kernel
-- Then it is refused, and so is the inner one.
example : (exec (init env) [.save true (some mem), .setCompOp 3, .save true (some mem), .restore (some (7, 1))]).map (fun c =>
    ((restore env c (some (7, 1))).map Prod.snd, (restore env c (some (7, 2))).map Prod.snd)) =
    some (some .noStatesToRestore, some .noStatesToRestore) := by decide +kernel
-- `PixelClip` holds after clipping to a rectangle of whole pixels.
example : (exec (init env) calls).map (fun c => (c.core.clipI == boxToI c.core.clipD,
    decide (c.core.clipFixed = boxFixed c.core.clipD))) = some (true, true) := by decide +kernel

/-! ### Where the code does not keep the promise of `save` and `restore` -/

/-- `set_stroke_join`, `set_stroke_cap` and `set_stroke_caps` do not clear `kWeakStateStrokeOptions`
(`rastercontext.cpp:2082-2121`), so `restore` keeps the new value. -/
theorem C31_stroke_join_leaks_out_of_restore :
    (exec (init env) [.save false (some mem), .stroke (.join 2), .restore none]).map (·.core.stroke.join) = some 2 ∧
    (exec (init env) [.save false (some mem), .stroke (.caps 2), .restore none]).map (·.core.stroke.startCap) = some 2 ∧
    (exec (init env) [.save false (some mem), .stroke (.cap 1 2), .restore none]).map (·.core.stroke.endCap) = some 2 ∧
    (init env).core.stroke.join = 0 ∧ (init env).core.stroke.startCap = 0 ∧ (init env).core.stroke.endCap = 0 := by
  decide +kernel

/-- The clip box of a rectangle ending at 10 + 1/1000 covers 10 pixels, after `save`, any further clipping and
`restore` it covers 11. -/
theorem C31_pixel_clip_changes_after_restore :
    (exec (init env) [.clipToRectD 0 0 (10001 / 1000) 10]).map (·.core.clipI) = some ⟨0, 0, 10, 10⟩ ∧
    (exec (init env) [.clipToRectD 0 0 (10001 / 1000) 10, .save false (some mem), .clipToRectD 0 0 5 5, .restore none]).map
      (·.core.clipI) = some ⟨0, 0, 11, 10⟩ := by decide +kernel

/-- `swap_styles` tests `kFetchDataFill` for both slots (`rastercontext.cpp:1966`): with a gradient as stroke style and
a solid fill style it does not retain the gradient it saves, so the gradient is destroyed by the next call that
replaces it, and `restore` brings back a style that no longer exists. -/
theorem C31_swap_styles_releases_saved_style :
    (exec (init env) [.setObject 1 9 77 Matrix.identity 0 false (some 5), .save false (some mem), .swapStyles 0,
      .setSolid 0 0 1, .restore none]).map (fun c => (c.core.style.stroke, c.core.flags 15, c.rc 5)) =
      some (.object 5 Matrix.identity, true, 0) ∧
    (exec (init env) [.setObject 1 9 77 Matrix.identity 0 false (some 5), .save false (some mem), .swapStyles 0,
      .setSolid 0 0 1, .restore none, .setSolid 1 0 1]).isNone = true := by decide +kernel

/-- `swap_styles` exchanges flags with the shifted neighbours of each bit (`rastercontext.cpp:1981, 1990`): with the clip
empty, `kNoClipRect` (bit 8) becomes `kNoStrokeStyle` (bit 7), so strokes stay disabled after clipping is restored; with
a stroke alpha of zero, `kNoStrokeAlpha` (bit 5) becomes `kNoFillStyle` (bit 6), so fills are disabled. -/
theorem C31_swap_styles_disables_styles :
    (exec (init env) [.clipToRectI 0 0 0 0, .swapStyles 0, .restoreClipping]).map (fun c => (c.core.flags 8, c.core.flags 7)) =
      some (false, true) ∧
    (exec (init env) [.setStyleAlpha 1 0, .swapStyles 0]).map (fun c => (c.core.flags 6, c.core.styleType.fill)) =
      some (true, 1) := by decide +kernel

/-- Style setters accept a slot other than fill and stroke unless a flag happens to be set
(`rastercontext.cpp:548-554`), and write out of bounds. -/
theorem C31_invalid_slot_writes_out_of_bounds :
    (exec (init env) [.setSolid 2 0 1]).isNone = true ∧
    (exec (init env) [.save false (some mem), .setSolid 2 0 1]).isSome = true := by decide +kernel

/-- `restore_clipping` without a saved state does not reset the clip mode (`rastercontext.cpp:2290-2294`). -/
theorem C31_restore_clipping_keeps_clip_mode :
    (exec (init env) [.clipToRectD 0 0 (1 / 2) 1, .restoreClipping]).map (fun c => (c.core.clipMode, c.core.clipI)) =
      some (1, ⟨0, 0, 100, 80⟩) ∧ (init env).core.clipMode = 0 := by decide +kernel

/-- The setters of approximation options do not clear `kSharedStateStrokeBase` (`rastercontext.cpp:1855-1915`), so a
stroke after the call is rendered with the options of the stroke before it. -/
theorem C42_stroke_job_gets_stale_approximation_options :
    (exec (init env) [.strokeJob, .setFlattenTolerance (1 / 2), .strokeJob]).map (fun c =>
      (c.strokeState.map (·.approx.flattenTolerance), c.core.approx.flattenTolerance)) = some (some (1 / 5), 1 / 2) := by
  decide +kernel

-- A fill job after changes gets the new state, one without changes the same.
example : (exec (init env) [.fillJob, .clipToRectI 0 0 10 10, .fillJob]).map (fun c =>
    c.fillState.map (fun s => decide (s.clipFixed = ⟨0, 0, 2560, 2560⟩))) = some (some true) := by decide +kernel
example : (exec (init env) [.stroke (.transformOrder 1), .strokeJob, .transform (some (.scale 2 2)), .strokeJob]).map (fun c =>
    c.strokeState.map (·.ext)) = some (some (some (⟨2, 0, 0, 2⟩, ⟨256, 0, 0, 256⟩))) := by decide +kernel

end Blend2D.SaveRestore
