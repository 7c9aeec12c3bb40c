import Verif.SaveRestore.Run

namespace Blend2D.SaveRestore

open Blend2D.Matrix (Mat Trig Ty Box)

/-! ### What calls do to the shared states and to the clip box in pixels -/

/-- What a fill job needs of the state. -/
def fillNow (k : Core) : SharedFill := ⟨k.clipFixed, lin k.finalFixed, k.tolFixed⟩

/-- A call other than `save`, `restore` and render calls: what it may leave valid. -/
structure Quiet (c c' : Ctx) : Prop where
  fill : c'.fillShared = true → c.fillShared = true ∧ fillNow c'.core = fillNow c.core
  base : c'.strokeBaseShared = true → c.strokeBaseShared = true ∧ c'.core.stroke = c.core.stroke
  ext : c'.strokeExtShared = true → c.strokeExtShared = true ∧ c'.core.metaFixed = c.core.metaFixed ∧
    lin c'.core.finalFixed = lin c.core.finalFixed
  fillState : c'.fillState = c.fillState
  strokeState : c'.strokeState = c.strokeState
  clip : c'.core.flags 21 = true → c.core.flags 21 = true ∧ c'.core.clipI = c.core.clipI ∧
    c'.core.clipFixed = c.core.clipFixed

theorem Quiet.refl (c : Ctx) : Quiet c c :=
  ⟨fun h => ⟨h, rfl⟩, fun h => ⟨h, rfl⟩, fun h => ⟨h, rfl, rfl⟩, rfl, rfl, fun h => ⟨h, rfl, rfl⟩⟩

theorem config_shape {k k1 : Core} (h : onBeforeConfigChange k = some k1) : ∃ l, k1 = { k with saved := l } := by
  unfold onBeforeConfigChange at h
  split_ifs at h
  · exact ⟨_, (Option.some.inj h).symm⟩
  · exact ⟨k.saved, (Option.some.inj h).symm⟩

theorem stroke_shape {k k1 : Core} (h : onBeforeStrokeChange k = some k1) : ∃ l, k1 = { k with saved := l } := by
  unfold onBeforeStrokeChange at h
  split_ifs at h
  · exact ⟨_, (Option.some.inj h).symm⟩
  · exact ⟨k.saved, (Option.some.inj h).symm⟩

theorem user_shape {k k1 : Core} (h : onBeforeUserTransformChange k = some k1) : ∃ l, k1 = { k with saved := l } := by
  unfold onBeforeUserTransformChange at h
  split_ifs at h
  · exact ⟨_, (Option.some.inj h).symm⟩
  · exact ⟨k.saved, (Option.some.inj h).symm⟩

theorem meta_shape {k k1 : Core} (h : onBeforeUserToMeta k = some k1) : ∃ l, k1 = { k with saved := l } := by
  unfold onBeforeUserToMeta at h
  split_ifs at h
  all_goals first
    | exact ⟨k.saved, (Option.some.inj h).symm⟩
    | exact ⟨_, (Option.some.inj h).symm⟩

theorem clip_shape {k k1 : Core} (h : onBeforeClipBoxChange k = some k1) : ∃ l, k1 = { k with saved := l } := by
  unfold onBeforeClipBoxChange at h
  split_ifs at h
  · exact ⟨_, (Option.some.inj h).symm⟩
  · exact ⟨k.saved, (Option.some.inj h).symm⟩

theorem saveStyle_shape {k k1 : Core} {b : Bool} (h : saveStyle k b = some k1) : ∃ l, k1 = { k with saved := l } := by
  unfold saveStyle at h
  split_ifs at h
  · exact ⟨_, (Option.some.inj h).symm⟩

theorem release_shape {c c1 : Ctx} {fd : Nat} (h : release c fd = some c1) : ∃ rc, c1 = { c with rc := rc } := by
  unfold release at h
  split_ifs at h
  · exact ⟨_, (Option.some.inj h).symm⟩

theorem destroy_shape {c c1 : Ctx} {st : Style} (h : destroyStyle c st = some c1) : ∃ rc, c1 = { c with rc := rc } := by
  cases st with
  | solid v => simp [destroyStyle] at h
  | object fd a => exact release_shape h

theorem retain_shape {c c1 : Ctx} {st : Style} (h : retainStyle c st = some c1) : ∃ rc, c1 = { c with rc := rc } := by
  cases st with
  | solid v => exact ⟨c.rc, (Option.some.inj h).symm⟩
  | object fd a =>
    unfold retainStyle at h
    simp only at h
    split_ifs at h
    exact ⟨_, (Option.some.inj h).symm⟩

theorem beforeStyle_shape {c c1 : Ctx} {b : Bool} (h : beforeStyle c b = some c1) :
    ∃ l rc, c1 = { c with core := { c.core with saved := l }, rc := rc } := by
  unfold beforeStyle onBeforeStyleChange at h
  split_ifs at h
  · obtain ⟨rc, rfl⟩ := destroy_shape h
    exact ⟨c.core.saved, rc, rfl⟩
  · cases hs : saveStyle c.core b with
    | none => rw [hs] at h; simp at h
    | some k =>
      rw [hs] at h
      obtain ⟨l, rfl⟩ := saveStyle_shape hs
      exact ⟨l, c.rc, (Option.some.inj h).symm⟩
  · exact ⟨c.core.saved, c.rc, (Option.some.inj h).symm⟩

theorem swapSave_shape {c c1 : Ctx} {b w f : Bool} (h : swapSave c b w f = some c1) :
    ∃ l rc, c1 = { c with core := { c.core with saved := l }, rc := rc } := by
  unfold swapSave at h
  split_ifs at h
  · cases hs : saveStyle c.core b with
    | none => rw [hs] at h; simp at h
    | some k =>
      rw [hs] at h
      obtain ⟨l, rfl⟩ := saveStyle_shape hs
      dsimp only at h
      obtain ⟨rc, rfl⟩ := retain_shape h
      exact ⟨l, rc, rfl⟩
  · cases hs : saveStyle c.core b with
    | none => rw [hs] at h; simp at h
    | some k =>
      rw [hs] at h
      obtain ⟨l, rfl⟩ := saveStyle_shape hs
      exact ⟨l, c.rc, (Option.some.inj h).symm⟩
  · exact ⟨c.core.saved, c.rc, (Option.some.inj h).symm⟩

/-- A call that leaves everything shared alone. -/
theorem quiet_same {c c' : Ctx} (h1 : c'.fillShared = c.fillShared) (h2 : c'.strokeBaseShared = c.strokeBaseShared)
    (h3 : c'.strokeExtShared = c.strokeExtShared) (h4 : c'.fillState = c.fillState) (h5 : c'.strokeState = c.strokeState)
    (h6 : c'.core.clipFixed = c.core.clipFixed) (h7 : c'.core.finalFixed = c.core.finalFixed)
    (h8 : c'.core.tolFixed = c.core.tolFixed) (h9 : c'.core.stroke = c.core.stroke) (h10 : c'.core.metaFixed = c.core.metaFixed)
    (h11 : c'.core.clipI = c.core.clipI) (h12 : c'.core.flags 21 = c.core.flags 21) : Quiet c c' := by
  refine ⟨?_, ?_, ?_, h4, h5, ?_⟩
  · rw [h1]; intro h; exact ⟨h, by simp [fillNow, h6, h7, h8]⟩
  · rw [h2]; intro h; exact ⟨h, h9⟩
  · rw [h3]; intro h; exact ⟨h, h10, by rw [h7]⟩
  · rw [h12]; intro h; exact ⟨h, h11, h6⟩

theorem setter_quiet (e : Env) {c c' : Ctx} {r : Res} (g : Good c.core) (op : Op) (hs : op.isSetter)
    (hj : op ≠ .fillJob ∧ op ≠ .strokeJob ∧ op ≠ .flush) (h : step e c op = some (c', r)) : Quiet c c' := by
  have same : ∀ {r'}, some (c, r') = some (c', r) → Quiet c c' := by
    intro r' h
    rw [← (Prod.mk.inj (Option.some.inj h)).1]; exact Quiet.refl c
  have out : ∀ {x r'}, some (x, r') = some (c', r) → c' = x := fun h => (Prod.mk.inj (Option.some.inj h)).1.symm
  cases op with
  | save _ _ => exact absurd hs (by simp [Op.isSetter])
  | restore _ => exact absurd hs (by simp [Op.isSetter])
  | fillJob => simp at hj
  | strokeJob => simp at hj
  | flush => simp at hj
  | setHint hh v =>
    simp only [step] at h
    unfold setHint at h
    split at h
    all_goals (try split at h)
    all_goals first | exact same h | skip
    all_goals
      rw [out h]
      exact quiet_same rfl rfl rfl rfl rfl rfl rfl rfl rfl rfl rfl rfl
  | setHints hh =>
    simp only [step] at h
    unfold setHints at h
    split at h
    · exact same h
    · rw [out h]; exact quiet_same rfl rfl rfl rfl rfl rfl rfl rfl rfl rfl rfl rfl
  | setCompOp o =>
    simp only [step] at h
    unfold setCompOp at h
    split at h
    · exact same h
    · rw [out h]; exact quiet_same rfl rfl rfl rfl rfl rfl rfl rfl rfl rfl rfl rfl
  | setFillRule o =>
    simp only [step] at h
    unfold setFillRule at h
    split at h
    · exact same h
    · rw [out h]; exact quiet_same rfl rfl rfl rfl rfl rfl rfl rfl rfl rfl rfl rfl
  | setFlattenMode m =>
    simp only [step] at h
    unfold setFlattenMode at h
    split at h
    · exact same h
    · cases hb : onBeforeConfigChange c.core with
      | none => rw [hb] at h; simp at h
      | some k1 =>
        rw [hb] at h
        obtain ⟨l, rfl⟩ := config_shape hb
        rw [out h]
        exact quiet_same rfl rfl rfl rfl rfl rfl rfl rfl rfl rfl rfl (by simp)
  | setFlattenTolerance t =>
    simp only [step] at h
    unfold setFlattenTolerance at h
    cases hb : onBeforeConfigChange c.core with
    | none => rw [hb] at h; simp at h
    | some k1 =>
      rw [hb] at h
      obtain ⟨l, rfl⟩ := config_shape hb
      rw [out h]
      refine ⟨by simp, fun h => ⟨h, rfl⟩, fun h => ⟨h, rfl, rfl⟩, rfl, rfl, fun h => ⟨?_, rfl, rfl⟩⟩
      simpa [onAfterFlattenToleranceChanged] using h
  | setApproximationOptions o =>
    simp only [step] at h
    unfold setApproximationOptions at h
    split at h
    · exact same h
    · cases hb : onBeforeConfigChange c.core with
      | none => rw [hb] at h; simp at h
      | some k1 =>
        rw [hb] at h
        obtain ⟨l, rfl⟩ := config_shape hb
        rw [out h]
        refine ⟨by simp, fun h => ⟨h, rfl⟩, fun h => ⟨h, rfl, rfl⟩, rfl, rfl, fun h => ⟨?_, rfl, rfl⟩⟩
        simpa [onAfterFlattenToleranceChanged] using h
  | setStyleAlpha slot a =>
    simp only [step] at h
    unfold setStyleAlpha at h
    split at h
    · exact same h
    · rename_i b _
      rw [out h]
      exact quiet_same rfl rfl rfl rfl rfl rfl rfl rfl rfl rfl rfl (by cases b <;> simp)
  | setGlobalAlpha a =>
    simp only [step] at h
    unfold setGlobalAlpha at h
    rw [out h]
    exact quiet_same rfl rfl rfl rfl rfl rfl rfl rfl rfl rfl rfl (by simp)
  | disableStyle slot =>
    simp only [step] at h
    unfold disableStyle invalidSlot at h
    split at h
    · split_ifs at h; exact same h
    · rename_i b _
      cases hb : beforeStyle c b with
      | none => rw [hb] at h; simp at h
      | some c1 =>
        rw [hb] at h
        obtain ⟨l, rc, rfl⟩ := beforeStyle_shape hb
        rw [out h]
        exact quiet_same rfl rfl rfl rfl rfl rfl rfl rfl rfl rfl rfl (by cases b <;> simp)
  | setSolid slot ty v =>
    simp only [step] at h
    unfold setSolid invalidSlot at h
    split at h
    · split_ifs at h; exact same h
    · rename_i b _
      cases hb : beforeStyle c b with
      | none => rw [hb] at h; simp at h
      | some c1 =>
        rw [hb] at h
        obtain ⟨l, rc, rfl⟩ := beforeStyle_shape hb
        rw [out h]
        exact quiet_same rfl rfl rfl rfl rfl rfl rfl rfl rfl rfl rfl (by cases b <;> simp)
  | setObject slot ty obj t m n fd =>
    simp only [step] at h
    unfold setObject at h
    split at h
    · exact same h
    · rename_i b _
      split at h
      · exact same h
      · cases hb : beforeStyle c b with
        | none => rw [hb] at h; simp at h
        | some c1 =>
          rw [hb] at h
          obtain ⟨l, rc, rfl⟩ := beforeStyle_shape hb
          rw [out h]
          exact quiet_same rfl rfl rfl rfl rfl rfl rfl rfl rfl rfl rfl (by cases b <;> simp)
  | swapStyles m =>
    simp only [step] at h
    unfold swapStyles at h
    split at h
    · exact same h
    · dsimp only at h
      split at h
      · simp at h
      · rename_i c1 hc1
        split at h
        · simp at h
        · rename_i c2 hc2
          obtain ⟨l1, rc1, rfl⟩ := swapSave_shape hc1
          obtain ⟨l2, rc2, rfl⟩ := swapSave_shape hc2
          rw [out h]
          by_cases hm : m = 1
          · simp only [hm, if_true]
            exact quiet_same rfl rfl rfl rfl rfl rfl rfl rfl rfl rfl rfl (by simp)
          · simp only [hm, if_false]
            exact quiet_same rfl rfl rfl rfl rfl rfl rfl rfl rfl rfl rfl (by simp)
  | stroke o =>
    have key : ∀ clears upd, (∀ i, i ∈ clears → i = 12 ∨ i = 25) → setStroke c clears upd = some (c', r) → Quiet c c' := by
      intro clears upd hc h
      unfold setStroke at h
      cases hb : onBeforeStrokeChange c.core with
      | none => rw [hb] at h; simp at h
      | some k1 =>
        rw [hb] at h
        obtain ⟨l, rfl⟩ := stroke_shape hb
        rw [out h]
        refine ⟨fun h => ⟨h, rfl⟩, by simp, fun h => ⟨h, rfl, rfl⟩, rfl, rfl, fun h => ⟨?_, rfl, rfl⟩⟩
        simp at h
        exact h.1
    simp only [step] at h
    cases o <;> simp only [strokeOp] at h
    all_goals (try (split at h; · exact same h))
    all_goals exact key _ _ (by simp) h
  | transform o =>
    simp only [step] at h
    unfold applyTransformOp at h
    cases hb : onBeforeUserTransformChange c.core with
    | none => rw [hb] at h; simp at h
    | some k1 =>
      rw [hb] at h
      obtain ⟨l, rfl⟩ := user_shape hb
      cases o with
      | none => rw [out h]; exact quiet_same rfl rfl rfl rfl rfl rfl rfl rfl rfl rfl rfl rfl
      | some op =>
        rw [out h]
        have hfx : ∀ m m' : Mat ℚ, lin m = lin m' → lin (toFixed m) = lin (toFixed m') := by
          intro m m' h
          simp only [lin, Mat2.mk.injEq] at h
          obtain ⟨h1, h2, h3, h4⟩ := h
          simp [lin, toFixed, h1, h2, h3, h4]
        have hk : ∀ k' : Core, k' = onAfterUserTransformChanged e { { c.core with saved := l } with user := Matrix.applyOp e.trig c.core.user op } →
            k'.finalFixed = toFixed k'.finalT := by
          rintro k' rfl; rfl
        have hf := hk _ rfl
        refine ⟨?_, fun h => ⟨h, rfl⟩, ?_, rfl, rfl, ?_⟩
        · simp only [Bool.and_eq_true, decide_eq_true_eq]
          rintro ⟨h1, h2⟩
          refine ⟨h1, ?_⟩
          have := hfx _ _ h2
          rw [← g.finalFixed, ← hf] at this
          simp only [fillNow, this]
          rfl
        · simp only [Bool.and_eq_true, decide_eq_true_eq]
          rintro ⟨h1, h2⟩
          refine ⟨h1, rfl, ?_⟩
          have := hfx _ _ h2
          rw [← g.finalFixed, ← hf] at this
          exact this.symm
        · intro h
          refine ⟨?_, rfl, rfl⟩
          simpa [onAfterUserTransformChanged, updateFinalTransform, updateFinalTransformFixed] using h
  | userToMeta =>
    simp only [step] at h
    unfold userToMeta at h
    cases hb : onBeforeUserToMeta c.core with
    | none => rw [hb] at h; simp at h
    | some k1 =>
      rw [hb] at h
      obtain ⟨l, rfl⟩ := meta_shape hb
      rw [out h]
      refine ⟨fun h => ⟨h, rfl⟩, fun h => ⟨h, rfl⟩, by simp, rfl, rfl, ?_⟩
      intro h
      refine ⟨?_, rfl, rfl⟩
      simpa [afterUserToMeta] using h
  | clipToRectD x y w hh =>
    simp only [step] at h
    exact clipD_quiet h
  | clipToRectI x y w hh =>
    simp only [step] at h
    unfold clipToRectI at h
    split at h
    · exact clipD_quiet h
    · cases hb : onBeforeClipBoxChange c.core with
      | none => rw [hb] at h; simp at h
      | some k1 =>
        rw [hb] at h
        obtain ⟨l, rfl⟩ := clip_shape hb
        rw [out h]
        unfold clipToBoxI
        dsimp only
        split_ifs
        all_goals exact ⟨by simp, fun h => ⟨h, rfl⟩, fun h => ⟨h, rfl, rfl⟩, rfl, rfl, by simp⟩
  | restoreClipping =>
    simp only [step] at h
    unfold restoreClipping at h
    split at h
    · rename_i hw
      have hw' : c.core.flags 21 = false := hw
      split at h
      · rw [out h]
        refine ⟨by simp, fun h => ⟨h, rfl⟩, fun h => ⟨h, rfl, rfl⟩, rfl, rfl, ?_⟩
        simp [restoreClippingFromState]
      · rw [out h]
        refine ⟨by simp, fun h => ⟨h, rfl⟩, fun h => ⟨h, rfl, rfl⟩, rfl, rfl, ?_⟩
        simp [resetClippingToMeta, hw']
    · exact same h
where
  clipD_quiet {c c' : Ctx} {r : Res} {x y w hh : ℚ} (h : clipToRectD c x y w hh = some (c', r)) : Quiet c c' := by
    have out : ∀ {x r'}, some (x, r') = some (c', r) → c' = x := fun h => (Prod.mk.inj (Option.some.inj h)).1.symm
    unfold clipToRectD at h
    cases hb : onBeforeClipBoxChange c.core with
    | none => rw [hb] at h; simp at h
    | some k1 =>
      rw [hb] at h
      obtain ⟨l, rfl⟩ := clip_shape hb
      rw [out h]
      unfold clipToFinalBox
      dsimp only
      split_ifs
      all_goals exact ⟨by simp, fun h => ⟨h, rfl⟩, fun h => ⟨h, rfl, rfl⟩, rfl, rfl, by simp⟩

end Blend2D.SaveRestore
