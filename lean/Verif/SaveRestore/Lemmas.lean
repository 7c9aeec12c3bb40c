import Verif.SaveRestore.Model
import Mathlib.Tactic.SplitIfs
import Mathlib.Tactic.FieldSimp

namespace Blend2D.SaveRestore

open Blend2D.Matrix (Mat Trig Ty Box)

/-! ### Flags -/

@[simp] theorem Flags.clear_apply (f : Flags) (l : List Nat) (i : Nat) : f.clear l i = (f i && !l.contains i) := rfl
@[simp] theorem Flags.set_apply (f : Flags) (l : List Nat) (i : Nat) : f.set l i = (f i || l.contains i) := rfl

@[simp] theorem Flags.setIf_apply (f : Flags) (b : Bool) (j i : Nat) : f.setIf b j i = (f i || (b && decide (i = j))) := by
  cases b <;> simp [Flags.setIf, Flags.set]

@[simp] theorem Flags.swapBits_apply (f : Flags) (m : List Nat) (i : Nat) : f.swapBits m i =
    ((f i && !m.contains i) || (f (i + 1) && m.contains i) || (decide (1 ≤ i) && f (i - 1) && m.contains i)) := rfl

/-! ### One restored level -/

/-- `restoreTop` written field by field. -/
def restored (s : Saved) (rest : List Saved) (c : Core) : Core :=
  let cur := c.flags
  { hints := s.hints
    compOp := s.compOp
    fillRule := s.fillRule
    styleType := s.styleType
    style := ⟨if cur 22 then c.style.fill else s.style.fill, if cur 23 then c.style.stroke else s.style.stroke⟩
    clipMode := s.clipMode
    flags := s.prevFlags
    types := s.types
    globalAlphaI := s.globalAlphaI
    styleAlphaI := s.styleAlphaI
    globalAlpha := s.globalAlpha
    styleAlpha := s.styleAlpha
    translationI := s.translationI
    approx := if cur 24 then c.approx else s.approx
    tolFixed := if cur 24 then c.tolFixed else s.approx.flattenTolerance * fpScale
    stroke := if cur 25 then c.stroke else s.stroke
    user := if cur 27 then c.user else s.userTransform
    metaT := if cur 27 then c.metaT else if cur 26 then c.metaT else s.altTransform
    finalT := if cur 27 then c.finalT else if cur 26 then s.altTransform
      else Matrix.multiply s.userTransform s.altTransform
    metaFixed := if cur 27 then c.metaFixed else if cur 26 then c.metaFixed else toFixed s.altTransform
    finalFixed := if cur 27 then c.finalFixed else if cur 26 then toFixed s.altTransform
      else toFixed (Matrix.multiply s.userTransform s.altTransform)
    clipD := if cur 21 then c.clipD else s.clipD
    clipI := if cur 21 then c.clipI else boxToI s.clipD
    clipFixed := if cur 21 then c.clipFixed else boxFixed s.clipD
    saved := rest }

theorem restoreTop_cons (c : Core) (s : Saved) (rest : List Saved) (h : c.saved = s :: rest) :
    restoreTop c = restored s rest c := by
  have e1 : ∀ (b : Bool) (c : Core), (if b = true then c else onAfterFlattenToleranceChanged { c with approx := s.approx }) =
      { c with approx := if b = true then c.approx else s.approx
               tolFixed := if b = true then c.tolFixed else s.approx.flattenTolerance * fpScale } := by
    intro b c; cases b <;> rfl
  have e2 : ∀ (b : Bool) (c : Core), (if b = true then c else restoreClippingFromState c s) =
      { c with clipD := if b = true then c.clipD else s.clipD
               clipI := if b = true then c.clipI else boxToI s.clipD
               clipFixed := if b = true then c.clipFixed else boxFixed s.clipD } := by
    intro b c; cases b <;> rfl
  have e3 : ∀ (b : Bool) (c : Core), (if b = true then c else { c with style := c.style.set false (s.style.get false) }) =
      { c with style := ⟨if b = true then c.style.fill else s.style.fill, c.style.stroke⟩ } := by
    intro b c; cases b <;> rfl
  have e4 : ∀ (b : Bool) (c : Core), (if b = true then c else { c with style := c.style.set true (s.style.get true) }) =
      { c with style := ⟨c.style.fill, if b = true then c.style.stroke else s.style.stroke⟩ } := by
    intro b c; cases b <;> rfl
  have e5 : ∀ (b : Bool) (c : Core), (if b = true then c else { c with stroke := s.stroke }) =
      { c with stroke := if b = true then c.stroke else s.stroke } := by
    intro b c; cases b <;> rfl
  have e6 : ∀ (b m : Bool) (c : Core), (if b = true then c else
      if m = true then updateFinalTransformFixed { c with user := s.userTransform, finalT := s.altTransform }
      else updateFinalTransformFixed (updateMetaTransformFixed (updateFinalTransform
        { c with user := s.userTransform, metaT := s.altTransform }))) =
      { c with
        user := if b = true then c.user else s.userTransform
        metaT := if b = true then c.metaT else if m = true then c.metaT else s.altTransform
        finalT := if b = true then c.finalT else if m = true then s.altTransform
          else Matrix.multiply s.userTransform s.altTransform
        metaFixed := if b = true then c.metaFixed else if m = true then c.metaFixed else toFixed s.altTransform
        finalFixed := if b = true then c.finalFixed else if m = true then toFixed s.altTransform
          else toFixed (Matrix.multiply s.userTransform s.altTransform) } := by
    intro b m c; cases b <;> cases m <;> rfl
  unfold restoreTop
  rw [h]
  simp only [restoreStyle, restoreTransforms, slotBit, Bit.weakBaseStyle, Bit.weakConfig, Bit.weakClip,
    Bit.weakStroke, Bit.weakUser, Bit.weakMeta, if_true, Bool.false_eq_true, if_false, Nat.add_zero,
    e1, e2, e3, e4, e5, e6]
  rfl

/-- A default stroke. -/
def noStroke : Stroke := ⟨0, 0, 0, 0, 0, 0, 0, []⟩

/-- The state without the integer and fixed point clip boxes, and without stroke options unless `ws`. -/
def forget (ws : Bool) (c : Core) : Core :=
  { c with clipI := ⟨0, 0, 0, 0⟩, clipFixed := ⟨0, 0, 0, 0⟩, stroke := if ws then c.stroke else noStroke }

theorem forget_restoreTop (ws : Bool) {c d : Core} (h : forget ws c = forget ws d) :
    forget ws (restoreTop c) = forget ws (restoreTop d) := by
  simp only [forget, Core.mk.injEq] at h
  obtain ⟨h1, h2, h3, h4, h5, h6, h7, h8, h9, h10, h11, h12, h13, h14, h15, h16, h17, h18, h19, h20, h21, h22, -, -, h23⟩ := h
  cases hs : c.saved with
  | nil =>
    have hd : d.saved = [] := by rw [← h23]; exact hs
    unfold restoreTop
    rw [hs, hd]
    simp only [forget, Core.mk.injEq]
    exact ⟨h1, h2, h3, h4, h5, h6, h7, h8, h9, h10, h11, h12, h13, h14, h15, h16, h17, h18, h19, h20, h21, h22, trivial, trivial, h23⟩
  | cons s rest =>
    have hd : d.saved = s :: rest := by rw [← h23]; exact hs
    rw [restoreTop_cons c s rest hs, restoreTop_cons d s rest hd]
    simp only [forget, restored, Core.mk.injEq, h7, h5, h14, h15, h17, h18, h19, h20, h21, h22, true_and, and_true]
    cases ws
    · rfl
    · simp only [if_true] at h16 ⊢
      rw [h16]

theorem restoreTop_saved (c : Core) : (restoreTop c).saved = c.saved.tail := by
  cases hs : c.saved with
  | nil => unfold restoreTop; rw [hs]; exact hs
  | cons s rest => rw [restoreTop_cons c s rest hs]; rfl

/-- The state after restoring `n` saved states. -/
def level : Nat → Core → Core
  | 0, c => c
  | n + 1, c => level n (restoreTop c)

theorem level_saved (n : Nat) (c : Core) : (level n c).saved = c.saved.drop n := by
  induction n generalizing c with
  | zero => rfl
  | succ n ih => rw [level, ih, restoreTop_saved, List.drop_tail]

theorem level_add (m n : Nat) (c : Core) : level (m + n) c = level n (level m c) := by
  induction m generalizing c with
  | zero => rw [Nat.zero_add]; rfl
  | succ m ih => rw [Nat.succ_add, level, ih]; rfl

theorem forget_level (ws : Bool) (n : Nat) {c d : Core} (h : forget ws c = forget ws d) :
    forget ws (level n c) = forget ws (level n d) := by
  induction n generalizing c d with
  | zero => exact h
  | succ n ih => exact ih (forget_restoreTop ws h)

/-! ### Invariant of one level -/

/-- What holds of the current state, and of every state that can be restored. -/
structure Good (c : Core) : Prop where
  tol : c.tolFixed = c.approx.flattenTolerance * fpScale
  finalT : c.finalT = Matrix.multiply c.user c.metaT
  metaFixed : c.metaFixed = toFixed c.metaT
  finalFixed : c.finalFixed = toFixed c.finalT
  weakMeta : c.flags 27 = true → c.flags 26 = true
  bottom : c.saved = [] → ∀ i, 20 ≤ i → i ≤ 27 → c.flags i = false
  fetchF : c.flags 14 = true → ∃ fd a, c.style.fill = .object fd a
  fetchS : c.flags 15 = true → ∃ fd a, c.style.stroke = .object fd a
  typeF : 4 ≤ c.styleType.fill → c.flags 14 = true
  typeS : 4 ≤ c.styleType.stroke → c.flags 15 = true
  prevF : ∀ s rest, c.saved = s :: rest → c.flags 22 = true → c.flags 14 = s.prevFlags 14
  prevS : ∀ s rest, c.saved = s :: rest → c.flags 23 = true → c.flags 15 = s.prevFlags 15
  b13 : c.flags 13 = false
  b16 : c.flags 16 = false

theorem good_forget (ws : Bool) {c d : Core} (h : forget ws c = forget ws d) (g : Good c) : Good d := by
  simp only [forget, Core.mk.injEq] at h
  obtain ⟨h1, h2, h3, h4, h5, h6, h7, h8, h9, h10, h11, h12, h13, h14, h15, h16, h17, h18, h19, h20, h21, h22, -, -, h23⟩ := h
  constructor
  · rw [← h14, ← h15]; exact g.tol
  · rw [← h17, ← h18, ← h19]; exact g.finalT
  · rw [← h18, ← h20]; exact g.metaFixed
  · rw [← h19, ← h21]; exact g.finalFixed
  · rw [← h7]; exact g.weakMeta
  · rw [← h7, ← h23]; exact g.bottom
  · rw [← h7, ← h5]; exact g.fetchF
  · rw [← h7, ← h5]; exact g.fetchS
  · rw [← h7, ← h4]; exact g.typeF
  · rw [← h7, ← h4]; exact g.typeS
  · rw [← h7, ← h23]; exact g.prevF
  · rw [← h7, ← h23]; exact g.prevS
  · rw [← h7]; exact g.b13
  · rw [← h7]; exact g.b16


open Classical in
/-- References of one level. -/
noncomputable def own (c : Core) (fd : Nat) : Nat :=
  (if c.flags 14 = true ∧ c.flags 22 = false ∧ (∃ a, c.style.fill = .object fd a) then 1 else 0) +
  (if c.flags 15 = true ∧ c.flags 23 = false ∧ (∃ a, c.style.stroke = .object fd a) then 1 else 0)

theorem own_forget (ws : Bool) {c d : Core} (h : forget ws c = forget ws d) (fd : Nat) : own c fd = own d fd := by
  simp only [forget, Core.mk.injEq] at h
  obtain ⟨-, -, -, -, h5, -, h7, -⟩ := h
  unfold own
  rw [h5, h7]

/-! ### Setters -/

/-- A setter: what it may do to the state. -/
structure CorePres (ws : Bool) (k k' : Core) : Prop where
  nil : k.saved = [] → k'.saved = []
  cons : ∀ s rest, k.saved = s :: rest → ∃ s', k'.saved = s' :: rest ∧ s'.prevFlags = s.prevFlags ∧
    s'.stateId = s.stateId ∧ forget ws (restored s' rest k') = forget ws (restored s rest k)
  good : Good k'

theorem CorePres.refl (ws : Bool) {k : Core} (g : Good k) : CorePres ws k k :=
  ⟨id, fun s _ h => ⟨s, h, rfl, rfl, rfl⟩, g⟩

/-- Setters of values that are always saved. -/
theorem cp_simple (ws : Bool) {k k' : Core} (g : Good k) (h1 : k'.saved = k.saved) (h2 : k'.style = k.style)
    (h3 : k'.styleType = k.styleType) (h4 : k'.approx = k.approx) (h5 : k'.tolFixed = k.tolFixed)
    (h6 : k'.stroke = k.stroke) (h7 : k'.user = k.user) (h8 : k'.metaT = k.metaT) (h9 : k'.finalT = k.finalT)
    (h10 : k'.metaFixed = k.metaFixed) (h11 : k'.finalFixed = k.finalFixed) (h12 : k'.clipD = k.clipD)
    (hf : ∀ i, (i = 13 ∨ i = 16 ∨ i = 14 ∨ i = 15 ∨ (20 ≤ i ∧ i ≤ 27)) → k'.flags i = k.flags i) : CorePres ws k k' := by
  have f14 := hf 14 (by omega)
  have f15 := hf 15 (by omega)
  have f21 := hf 21 (by omega)
  have f22 := hf 22 (by omega)
  have f23 := hf 23 (by omega)
  have f24 := hf 24 (by omega)
  have f25 := hf 25 (by omega)
  have f26 := hf 26 (by omega)
  have f27 := hf 27 (by omega)
  refine ⟨fun h => by rw [h1]; exact h, fun s rest h => ⟨s, by rw [h1]; exact h, rfl, rfl, ?_⟩, ?_⟩
  · simp only [forget, restored, h2, h4, h5, h6, h7, h8, h9, h10, h11, h12, f21, f22, f23, f24, f25, f26, f27]
  · constructor
    · rw [h4, h5]; exact g.tol
    · rw [h9, h8, h7]; exact g.finalT
    · rw [h10, h8]; exact g.metaFixed
    · rw [h11, h9]; exact g.finalFixed
    · rw [f27, f26]; exact g.weakMeta
    · intro h i hi hj
      rw [hf i (by omega)]
      exact g.bottom (by rw [← h1]; exact h) i hi hj
    · rw [f14, h2]; exact g.fetchF
    · rw [f15, h2]; exact g.fetchS
    · rw [f14, h3]; exact g.typeF
    · rw [f15, h3]; exact g.typeS
    · rw [f14, f22, h1]; exact g.prevF
    · rw [f15, f23, h1]; exact g.prevS
    · rw [hf 13 (by omega)]; exact g.b13
    · rw [hf 16 (by omega)]; exact g.b16

theorem cons_of_weak {k : Core} (g : Good k) (i : Nat) (h1 : 20 ≤ i) (h2 : i ≤ 27) (h : k.flags i = true) :
    ∃ s rest, k.saved = s :: rest := by
  cases hs : k.saved with
  | nil => rw [g.bottom hs i h1 h2] at h; simp at h
  | cons s rest => exact ⟨s, rest, rfl⟩

theorem cp_config (ws : Bool) {k : Core} (g : Good k) (a : Approx) (t : ℚ) (ht : t = a.flattenTolerance * fpScale) :
    ∃ k1, onBeforeConfigChange k = some k1 ∧ k1.approx = k.approx ∧ k1.flags = k.flags ∧ k1.tolFixed = k.tolFixed ∧
    k1.style = k.style ∧
    CorePres ws k { k1 with flags := k1.flags.clear [Bit.weakConfig], approx := a, tolFixed := t } := by
  unfold onBeforeConfigChange
  cases hw : k.flags Bit.weakConfig with
  | false =>
    refine ⟨k, by simp, rfl, rfl, rfl, rfl, fun h => h, fun s rest h => ⟨s, h, rfl, rfl, ?_⟩, ?_⟩
    · simp [forget, restored, hw]
    · refine ⟨ht, g.finalT, g.metaFixed, g.finalFixed, ?_, ?_, ?_, ?_, ?_, ?_, ?_, ?_, by simp [g.b13],
        by simp [g.b16]⟩
      · simpa using g.weakMeta
      · intro h i hi hj; simp [g.bottom h i hi hj]
      · simpa using g.fetchF
      · simpa using g.fetchS
      · simpa using g.typeF
      · simpa using g.typeS
      · simpa using g.prevF
      · simpa using g.prevS
  | true =>
    obtain ⟨s, rest, hs⟩ := cons_of_weak g 24 (by omega) (by omega) hw
    refine ⟨k.modTop fun s => { s with approx := k.approx }, by simp [hs], ?_, rfl, rfl, rfl, ?_⟩
    · simp [Core.modTop]
    · refine ⟨by simp [hs], ?_, ?_⟩
      · intro s' rest' h'
        rw [hs] at h'
        obtain ⟨rfl, rfl⟩ := List.cons.inj h'
        refine ⟨{ s with approx := k.approx }, by simp [Core.modTop, hs], rfl, rfl, ?_⟩
        simp [forget, restored, hw, g.tol, Core.modTop]
      · refine ⟨ht, g.finalT, g.metaFixed, g.finalFixed, ?_, ?_, ?_, ?_, ?_, ?_, ?_, ?_, by simp [Core.modTop, g.b13],
        by simp [Core.modTop, g.b16]⟩
        · simpa [Core.modTop] using g.weakMeta
        · intro h; simp [Core.modTop, hs] at h
        · simpa [Core.modTop] using g.fetchF
        · simpa [Core.modTop] using g.fetchS
        · simpa [Core.modTop] using g.typeF
        · simpa [Core.modTop] using g.typeS
        · have := g.prevF s rest hs
          simp only [Core.modTop, hs, List.cons.injEq]
          rintro s' rest' ⟨rfl, rfl⟩
          simpa using this
        · have := g.prevS s rest hs
          simp only [Core.modTop, hs, List.cons.injEq]
          rintro s' rest' ⟨rfl, rfl⟩
          simpa using this

/-- Flags that a setter of stroke options, clipping or transformations leaves alone keep the style part of `Good`. -/
theorem good_styles {k k' : Core} (g : Good k) (h1 : k'.tolFixed = k'.approx.flattenTolerance * fpScale)
    (h2 : k'.finalT = Matrix.multiply k'.user k'.metaT) (h3 : k'.metaFixed = toFixed k'.metaT)
    (h4 : k'.finalFixed = toFixed k'.finalT) (h5 : k'.flags 27 = true → k'.flags 26 = true)
    (h6 : k'.saved = [] → ∀ i, 20 ≤ i → i ≤ 27 → k'.flags i = false)
    (h7 : k'.style = k.style) (h8 : k'.styleType = k.styleType)
    (f13 : k'.flags 13 = k.flags 13) (f16 : k'.flags 16 = k.flags 16)
    (f14 : k'.flags 14 = k.flags 14) (f15 : k'.flags 15 = k.flags 15)
    (f22 : k'.flags 22 = true → k.flags 22 = true) (f23 : k'.flags 23 = true → k.flags 23 = true)
    (hs : ∀ s' rest, k'.saved = s' :: rest → ∃ s, k.saved = s :: rest ∧ s'.prevFlags = s.prevFlags) : Good k' := by
  refine ⟨h1, h2, h3, h4, h5, h6, ?_, ?_, ?_, ?_, ?_, ?_, f13.trans g.b13, f16.trans g.b16⟩
  · rw [f14, h7]; exact g.fetchF
  · rw [f15, h7]; exact g.fetchS
  · rw [f14, h8]; exact g.typeF
  · rw [f15, h8]; exact g.typeS
  · intro s' rest h hw
    obtain ⟨s, h', hp⟩ := hs s' rest h
    rw [f14, hp]; exact g.prevF s rest h' (f22 hw)
  · intro s' rest h hw
    obtain ⟨s, h', hp⟩ := hs s' rest h
    rw [f15, hp]; exact g.prevS s rest h' (f23 hw)

theorem modTop_saved {k : Core} {s : Saved} {rest : List Saved} (h : k.saved = s :: rest) (f : Saved → Saved) :
    (k.modTop f).saved = f s :: rest := by
  unfold Core.modTop
  simp [h]

/-- The shape of the saved states after a setter. -/
theorem shape_of {k : Core} {s0 : Saved} {rest0 : List Saved} (h : k.saved = s0 :: rest0) (f : Saved → Saved)
    (hf : (f s0).prevFlags = s0.prevFlags) (s' : Saved) (rest : List Saved) (h' : f s0 :: rest0 = s' :: rest) :
    ∃ s, k.saved = s :: rest ∧ s'.prevFlags = s.prevFlags := by
  obtain ⟨rfl, rfl⟩ := List.cons.inj h'
  exact ⟨s0, h, hf⟩

theorem cp_stroke (ws : Bool) {k : Core} (g : Good k) (clears : List Nat) (upd : Stroke → Stroke)
    (hc : ∀ i, i ∈ clears → i = 12 ∨ i = 25) (hok : ws = true → k.flags 25 = true → 25 ∈ clears) :
    ∃ k1, onBeforeStrokeChange k = some k1 ∧ k1.flags = k.flags ∧ k1.style = k.style ∧
    CorePres ws k { k1 with flags := k1.flags.clear clears, stroke := upd k1.stroke } := by
  have hnc : ∀ i, i ≠ 12 → i ≠ 25 → clears.contains i = false := by
    intro i h1 h2
    cases h : clears.contains i with
    | false => rfl
    | true => rcases hc i (by simpa using h) with h | h <;> omega
  unfold onBeforeStrokeChange
  cases hw : k.flags Bit.weakStroke with
  | false =>
    refine ⟨k, by simp, rfl, rfl, fun h => h, fun s rest h => ⟨s, h, rfl, rfl, ?_⟩, ?_⟩
    · simp [forget, restored, hw, hnc, -List.contains_eq_mem]
    · refine good_styles g g.tol g.finalT g.metaFixed g.finalFixed ?_ ?_ rfl rfl (by simp [hnc, Core.modTop, -List.contains_eq_mem]) (by simp [hnc, Core.modTop, -List.contains_eq_mem]) ?_ ?_ ?_ ?_ ?_
      · simpa [hnc, -List.contains_eq_mem] using g.weakMeta
      · intro h i hi hj; simp [g.bottom h _ hi hj]
      · simp [hnc, -List.contains_eq_mem]
      · simp [hnc, -List.contains_eq_mem]
      · simp [hnc, -List.contains_eq_mem]
      · simp [hnc, -List.contains_eq_mem]
      · intro s' rest h; exact ⟨s', h, rfl⟩
  | true =>
    obtain ⟨s, rest, hs⟩ := cons_of_weak g 25 (by omega) (by omega) hw
    have hm := modTop_saved hs fun s => { s with stroke := k.stroke }
    refine ⟨k.modTop fun s => { s with stroke := k.stroke }, by simp [hs], rfl, rfl, by simp [hs], ?_, ?_⟩
    · intro s' rest' h'
      rw [hs] at h'
      obtain ⟨rfl, rfl⟩ := List.cons.inj h'
      refine ⟨_, hm, rfl, rfl, ?_⟩
      cases ws with
      | false => simp [forget, restored, hnc, Core.modTop, -List.contains_eq_mem]
      | true =>
        have h25 : clears.contains 25 = true := by simpa using hok rfl hw
        simp [forget, restored, hnc, Core.modTop, h25, hw, -List.contains_eq_mem]
    · refine good_styles g g.tol g.finalT g.metaFixed g.finalFixed ?_ ?_ rfl rfl (by simp [hnc, Core.modTop, -List.contains_eq_mem]) (by simp [hnc, Core.modTop, -List.contains_eq_mem]) ?_ ?_ ?_ ?_ ?_
      · simpa [hnc, Core.modTop, -List.contains_eq_mem] using g.weakMeta
      · intro h; exact absurd (hm.symm.trans h) (by simp)
      · simp [hnc, Core.modTop, -List.contains_eq_mem]
      · simp [hnc, Core.modTop, -List.contains_eq_mem]
      · simp [hnc, Core.modTop, -List.contains_eq_mem]
      · simp [hnc, Core.modTop, -List.contains_eq_mem]
      · intro s' rest' h'; exact shape_of hs (fun s => { s with stroke := k.stroke }) rfl s' rest' (hm.symm.trans h')

/-- Setters of the clip box: `k'` differs from the state by its clip boxes, mode and flags. -/
theorem cp_clip (ws : Bool) {k : Core} (g : Good k) :
    ∃ k1, onBeforeClipBoxChange k = some k1 ∧ k1.flags = k.flags ∧ k1.style = k.style ∧ ∀ (d : Box ℚ) (i : BoxI)
      (fx : Box ℚ) (m : Nat) (f : Flags), (∀ j, j ≠ 8 → f j = (k.flags j && !(j == 21))) →
      CorePres ws k { k1 with clipD := d, clipI := i, clipFixed := fx, clipMode := m, flags := f } := by
  unfold onBeforeClipBoxChange
  cases hw : k.flags Bit.weakClip with
  | false =>
    refine ⟨k, by simp, rfl, rfl, fun d i fx m f hf => ⟨fun h => h, fun s rest h => ⟨s, h, rfl, rfl, ?_⟩, ?_⟩⟩
    · simp [forget, restored, hw, hf]
    · refine good_styles g g.tol g.finalT g.metaFixed g.finalFixed ?_ ?_ rfl rfl (by simp [hf]) (by simp [hf]) ?_ ?_ ?_ ?_ ?_
      · simpa [hf] using g.weakMeta
      · intro h j hi hj; show f j = false; rw [hf j (by omega)]; simp [g.bottom h _ hi hj]
      · simp [hf]
      · simp [hf]
      · simp [hf]
      · simp [hf]
      · intro s' rest h; exact ⟨s', h, rfl⟩
  | true =>
    obtain ⟨s, rest, hs⟩ := cons_of_weak g 21 (by omega) (by omega) hw
    have hm := modTop_saved hs fun s => { s with clipD := k.clipD }
    refine ⟨k.modTop fun s => { s with clipD := k.clipD }, by simp [hs], rfl, rfl,
      fun d i fx m f hf => ⟨by simp [hs], ?_, ?_⟩⟩
    · intro s' rest' h'
      rw [hs] at h'
      obtain ⟨rfl, rfl⟩ := List.cons.inj h'
      refine ⟨_, hm, rfl, rfl, ?_⟩
      simp [forget, restored, hw, hf, Core.modTop]
    · refine good_styles g g.tol g.finalT g.metaFixed g.finalFixed ?_ ?_ rfl rfl (by simp [hf]) (by simp [hf]) ?_ ?_ ?_ ?_ ?_
      · simpa [hf] using g.weakMeta
      · intro h; exact absurd (hm.symm.trans h) (by simp)
      · simp [hf]
      · simp [hf]
      · simp [hf]
      · simp [hf]
      · intro s' rest' h'; exact shape_of hs (fun s => { s with clipD := k.clipD }) rfl s' rest' (hm.symm.trans h')

theorem multiply_identity (m : Mat ℚ) : Matrix.multiply Matrix.identity m = m := by
  simp [Matrix.multiply, Matrix.identity]

/-- A change of the user transformation. -/
theorem cp_user (ws : Bool) {k : Core} (g : Good k) :
    ∃ k1, onBeforeUserTransformChange k = some k1 ∧ k1.flags = k.flags ∧ k1.style = k.style ∧ k1.user = k.user ∧
      CorePres ws k k1 ∧
      ∀ (u : Mat ℚ) (ty : Types) (tr : Int × Int) (f : Flags),
      (∀ j, j ≠ 11 → j ≠ 28 → f j = (k.flags j && !(j == 27))) →
      CorePres ws k { k1 with
        user := u, finalT := Matrix.multiply u k1.metaT, finalFixed := toFixed (Matrix.multiply u k1.metaT)
        types := ty, translationI := tr, flags := f } := by
  unfold onBeforeUserTransformChange
  cases hw : k.flags Bit.weakUser with
  | false =>
    refine ⟨k, by simp, rfl, rfl, rfl, CorePres.refl ws g,
      fun u ty tr f hf => ⟨fun h => h, fun s rest h => ⟨s, h, rfl, rfl, ?_⟩, ?_⟩⟩
    · simp [forget, restored, hw, hf]
    · refine good_styles g g.tol rfl g.metaFixed rfl ?_ ?_ rfl rfl (by simp [hf]) (by simp [hf]) ?_ ?_ ?_ ?_ ?_
      · simp [hf]
      · intro h j hi hj; show f j = false; rw [hf j (by omega) (by omega)]; simp [g.bottom h _ hi hj]
      · simp [hf]
      · simp [hf]
      · simp [hf]
      · simp [hf]
      · intro s' rest h; exact ⟨s', h, rfl⟩
  | true =>
    obtain ⟨s, rest, hs⟩ := cons_of_weak g 27 (by omega) (by omega) hw
    have hwm := g.weakMeta hw
    have hm := modTop_saved hs fun s => { s with altTransform := k.finalT, userTransform := k.user }
    refine ⟨k.modTop fun s => { s with altTransform := k.finalT, userTransform := k.user }, by simp [hs],
      rfl, rfl, rfl, ⟨by simp [hs], ?_, ?_⟩, fun u ty tr f hf => ⟨by simp [hs], ?_, ?_⟩⟩
    · intro s' rest' h'
      rw [hs] at h'
      obtain ⟨rfl, rfl⟩ := List.cons.inj h'
      refine ⟨_, hm, rfl, rfl, ?_⟩
      have hw' : k.flags 27 = true := hw
      simp only [forget, restored, hw', if_true, Core.modTop]
      rfl
    · refine good_styles g g.tol g.finalT g.metaFixed g.finalFixed g.weakMeta ?_ rfl rfl rfl rfl rfl rfl id id ?_
      · intro h; exact absurd (hm.symm.trans h) (by simp)
      · intro s' rest' h'; exact shape_of hs (fun s => { s with altTransform := k.finalT, userTransform := k.user }) rfl s' rest' (hm.symm.trans h')
    · intro s' rest' h'
      rw [hs] at h'
      obtain ⟨rfl, rfl⟩ := List.cons.inj h'
      refine ⟨_, hm, rfl, rfl, ?_⟩
      have hw' : k.flags 27 = true := hw
      simp [forget, restored, hw', hwm, hf, Core.modTop, g.finalFixed]
    · refine good_styles g g.tol rfl g.metaFixed rfl ?_ ?_ rfl rfl (by simp [hf]) (by simp [hf]) ?_ ?_ ?_ ?_ ?_
      · simp [hf]
      · intro h; exact absurd (hm.symm.trans h) (by simp)
      · simp [hf]
      · simp [hf]
      · simp [hf]
      · simp [hf]
      · intro s' rest' h'; exact shape_of hs (fun s => { s with altTransform := k.finalT, userTransform := k.user }) rfl s' rest' (hm.symm.trans h')

/-- `user_to_meta`. -/
theorem cp_userToMeta (ws : Bool) {k : Core} (g : Good k) (g1 : ∀ s rest, k.saved = s :: rest → Good (restored s rest k)) :
    ∃ k1, onBeforeUserToMeta k = some k1 ∧ CorePres ws k (afterUserToMeta k1) ∧ k1.style = k.style ∧ k1.flags = k.flags := by
  unfold onBeforeUserToMeta
  cases hw : k.flags Bit.weakMeta with
  | false =>
    have hw' : k.flags 26 = false := hw
    have hu : k.flags 27 = false := by
      cases h : k.flags 27 with
      | false => rfl
      | true => rw [g.weakMeta h] at hw'; exact absurd hw' (by simp)
    refine ⟨k, by simp [hu], ⟨fun h => h, fun s rest h => ⟨s, h, rfl, rfl, ?_⟩, ?_⟩, rfl, rfl⟩
    · simp [forget, restored, hw', hu, afterUserToMeta]
    · unfold afterUserToMeta
      refine good_styles g g.tol ?_ ?_ g.finalFixed ?_ ?_ rfl rfl (by simp) (by simp) ?_ ?_ ?_ ?_ ?_
      · simp [multiply_identity]
      · simpa using g.finalFixed
      · simp
      · intro h j hi hj; simp [g.bottom h j hi hj]
      · simp
      · simp
      · simp
      · simp
      · intro s' rest h; exact ⟨s', h, rfl⟩
  | true =>
    obtain ⟨s, rest, hs⟩ := cons_of_weak g 26 (by omega) (by omega) hw
    have hm := modTop_saved hs fun s => { s with
        altTransform := k.metaT
        userTransform := if k.flags Bit.weakUser then k.user else s.userTransform }
    refine ⟨k.modTop fun s => { s with
        altTransform := k.metaT
        userTransform := if k.flags Bit.weakUser then k.user else s.userTransform }, by simp [hs], ⟨by simp [hs], ?_, ?_⟩, rfl, rfl⟩
    · intro s' rest' h'
      rw [hs] at h'
      obtain ⟨rfl, rfl⟩ := List.cons.inj h'
      refine ⟨_, hm, rfl, rfl, ?_⟩
      have hw' : k.flags 26 = true := hw
      cases hu : k.flags Bit.weakUser with
      | true =>
        have hu' : k.flags 27 = true := hu
        simp [forget, restored, hw', hu', Core.modTop, g.finalT, g.metaFixed, g.finalFixed, afterUserToMeta]
      | false =>
        have hu' : k.flags 27 = false := hu
        have g2 := (g1 s rest hs).finalT
        simp [restored, hu', hw'] at g2
        simp [forget, restored, hw', hu', Core.modTop, g2, g.metaFixed, afterUserToMeta]
    · unfold afterUserToMeta
      refine good_styles g g.tol ?_ ?_ g.finalFixed ?_ ?_ rfl rfl (by simp [Core.modTop]) (by simp [Core.modTop]) ?_ ?_ ?_ ?_ ?_
      · simp [multiply_identity]
      · exact g.finalFixed
      · simp
      · intro h; exact absurd (hm.symm.trans h) (by simp)
      · simp [Core.modTop]
      · simp [Core.modTop]
      · simp [Core.modTop]
      · simp [Core.modTop]
      · intro s' rest' h'; exact shape_of hs (fun s => { s with
          altTransform := k.metaT
          userTransform := if k.flags Bit.weakUser then k.user else s.userTransform }) rfl s' rest' (hm.symm.trans h')

/-! ### Styles -/

/-- References of one slot of one level. -/
def Owns (c : Core) (b : Bool) (fd : Nat) : Prop :=
  c.flags (14 + b.toNat) = true ∧ c.flags (22 + b.toNat) = false ∧ ∃ a, c.style.get b = .object fd a

open Classical in
theorem own_eq (c : Core) (fd : Nat) :
    own c fd = (if Owns c false fd then 1 else 0) + (if Owns c true fd then 1 else 0) := by
  unfold own Owns
  simp [Two.get]
  congr

/-- The state after `beforeStyle`. -/
def savedStyle (k : Core) (b : Bool) : Core :=
  if k.flags (22 + b.toNat) then k.modTop fun t => { t with style := t.style.set b (k.style.get b) } else k

open Classical in
theorem beforeStyle_spec {c : Ctx} (g : Good c.core) (b : Bool) (live : ∀ fd, Owns c.core b fd → 0 < c.rc fd) :
    ∃ rc, beforeStyle c b = some { c with core := savedStyle c.core b, rc := rc } ∧
      ∀ fd, rc fd + (if Owns c.core b fd then 1 else 0) = c.rc fd := by
  have hb1 : slotBit Bit.fetchBase b = 14 + b.toNat := by cases b <;> rfl
  have hb2 : slotBit Bit.weakBaseStyle b = 22 + b.toNat := by cases b <;> rfl
  unfold beforeStyle onBeforeStyleChange savedStyle
  rw [hb1, hb2]
  cases hw : c.core.flags (22 + b.toNat) with
  | true =>
    obtain ⟨s, rest, hs⟩ := cons_of_weak g _ (by omega) (by cases b <;> simp) hw
    refine ⟨c.rc, ?_, fun fd => ?_⟩
    · simp [saveStyle, hs]
    · simp [Owns, hw]
  | false =>
    cases hf : c.core.flags (14 + b.toNat) with
    | false => exact ⟨c.rc, by simp, fun fd => by simp [Owns, hf]⟩
    | true =>
      obtain ⟨fd, a, ho⟩ : ∃ fd a, c.core.style.get b = .object fd a := by
        cases b with
        | false => exact g.fetchF hf
        | true => exact g.fetchS hf
      have hl := live fd ⟨hf, hw, a, ho⟩
      refine ⟨fun i => if i = fd then c.rc i - 1 else c.rc i, ?_, fun i => ?_⟩
      · simp [destroyStyle, ho, release]
        omega
      · by_cases hi : i = fd
        · subst hi
          have : Owns c.core b i := ⟨hf, hw, a, ho⟩
          simp [this]
          omega
        · have : ¬ Owns c.core b i := by
            rintro ⟨-, -, a', h'⟩
            rw [ho] at h'
            exact hi (by simpa using (Style.object.inj h').1.symm)
          simp [this, hi]

/-- Setters of a style. -/
theorem cp_style (ws : Bool) {k : Core} (g : Good k) (b : Bool) (ty : Nat) (v : Style) (f : Flags)
    (hf : ∀ j, j ≠ 6 + b.toNat → j ≠ 14 + b.toNat → j ≠ 22 + b.toNat → f j = k.flags j)
    (hw : f (22 + b.toNat) = false) (hv : f (14 + b.toNat) = true → ∃ fd a, v = .object fd a)
    (ht : 4 ≤ ty → f (14 + b.toNat) = true) :
    CorePres ws k { savedStyle k b with flags := f, styleType := (savedStyle k b).styleType.set b ty
                                        style := (savedStyle k b).style.set b v } := by
  have hsv : ∀ s' rest, (savedStyle k b).saved = s' :: rest → ∃ s, k.saved = s :: rest ∧ s'.prevFlags = s.prevFlags := by
    intro s' rest h
    unfold savedStyle at h
    split at h
    · rename_i h22
      obtain ⟨s, rest', hs⟩ := cons_of_weak g _ (by omega) (by cases b <;> simp) h22
      rw [modTop_saved hs] at h
      obtain ⟨rfl, rfl⟩ := List.cons.inj h
      exact ⟨s, hs, rfl⟩
    · exact ⟨s', h, rfl⟩
  have hnil : (savedStyle k b).saved = [] → k.saved = [] := by
    intro h
    unfold savedStyle at h
    split at h
    · rename_i h22
      obtain ⟨s, rest', hs⟩ := cons_of_weak g _ (by omega) (by cases b <;> simp) h22
      rw [modTop_saved hs] at h
      exact absurd h (by simp)
    · exact h
  have e1 : (savedStyle k b).approx = k.approx := by unfold savedStyle; split <;> rfl
  have e2 : (savedStyle k b).tolFixed = k.tolFixed := by unfold savedStyle; split <;> rfl
  have e3 : (savedStyle k b).user = k.user := by unfold savedStyle; split <;> rfl
  have e4 : (savedStyle k b).metaT = k.metaT := by unfold savedStyle; split <;> rfl
  have e5 : (savedStyle k b).finalT = k.finalT := by unfold savedStyle; split <;> rfl
  have e6 : (savedStyle k b).metaFixed = k.metaFixed := by unfold savedStyle; split <;> rfl
  have e7 : (savedStyle k b).finalFixed = k.finalFixed := by unfold savedStyle; split <;> rfl
  have e8 : (savedStyle k b).style = k.style := by unfold savedStyle; split <;> rfl
  have e9 : (savedStyle k b).styleType = k.styleType := by unfold savedStyle; split <;> rfl
  refine ⟨?_, ?_, ?_⟩
  · intro h
    show (savedStyle k b).saved = []
    unfold savedStyle
    split
    · simp [Core.modTop, h]
    · exact h
  · intro s rest h
    unfold savedStyle
    cases b with
    | false =>
      cases h22 : k.flags (22 + false.toNat) with
      | true =>
        have hm := modTop_saved h fun t => { t with style := t.style.set false (k.style.get false) }
        refine ⟨{ s with style := s.style.set false (k.style.get false) }, by simpa using hm, rfl, rfl, ?_⟩
        simp at h22 hw
        simp [hf, hw, h22, forget, restored, Core.modTop, Two.set, Two.get]
      | false =>
        refine ⟨s, h, rfl, rfl, ?_⟩
        simp at h22 hw
        simp [hf, hw, h22, forget, restored, Two.set]
    | true =>
      cases h22 : k.flags (22 + true.toNat) with
      | true =>
        have hm := modTop_saved h fun t => { t with style := t.style.set true (k.style.get true) }
        refine ⟨{ s with style := s.style.set true (k.style.get true) }, by simpa using hm, rfl, rfl, ?_⟩
        simp at h22 hw
        simp [hf, hw, h22, forget, restored, Core.modTop, Two.set, Two.get]
      | false =>
        refine ⟨s, h, rfl, rfl, ?_⟩
        simp at h22 hw
        simp [hf, hw, h22, forget, restored, Two.set]
  · constructor
    · simpa [e1, e2] using g.tol
    · simpa [e3, e4, e5] using g.finalT
    · simpa [e4, e6] using g.metaFixed
    · simpa [e5, e7] using g.finalFixed
    · cases b <;> simpa [hf] using g.weakMeta
    · intro h i hi hj
      show f i = false
      by_cases h22 : i = 22 + b.toNat
      · rw [h22]; exact hw
      · rw [hf i (by cases b <;> simp <;> omega) (by cases b <;> simp <;> omega) h22]
        exact g.bottom (hnil h) i hi hj
    · cases b with
      | false => simpa [e8, Two.set] using hv
      | true => simpa [e8, Two.set, hf] using g.fetchF
    · cases b with
      | true => simpa [e8, Two.set] using hv
      | false => simpa [e8, Two.set, hf] using g.fetchS
    · cases b with
      | false => simpa [e9, Two.set] using ht
      | true => simpa [e9, Two.set, hf] using g.typeF
    · cases b with
      | true => simpa [e9, Two.set] using ht
      | false => simpa [e9, Two.set, hf] using g.typeS
    · intro s' rest h h22
      obtain ⟨s, hs, hp⟩ := hsv s' rest h
      cases b with
      | false => simp at hw h22; rw [hw] at h22; simp at h22
      | true =>
        rw [hp]
        have := g.prevF s rest hs
        simp [hf] at h22 ⊢
        exact this h22
    · intro s' rest h h22
      obtain ⟨s, hs, hp⟩ := hsv s' rest h
      cases b with
      | true => simp at hw h22; rw [hw] at h22; simp at h22
      | false =>
        rw [hp]
        have := g.prevS s rest hs
        simp [hf] at h22 ⊢
        exact this h22
    · show f 13 = false
      rw [hf 13 (by cases b <;> simp) (by cases b <;> simp) (by cases b <;> simp)]; exact g.b13
    · show f 16 = false
      rw [hf 16 (by cases b <;> simp) (by cases b <;> simp) (by cases b <;> simp)]; exact g.b16

end Blend2D.SaveRestore
