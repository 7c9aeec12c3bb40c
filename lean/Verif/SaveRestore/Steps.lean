import Verif.SaveRestore.Inv

namespace Blend2D.SaveRestore

open Blend2D.Matrix (Mat Trig Ty Box)

/-! ### Every call other than `save` and `restore` is a `Setter` -/

/-- A refused call leaves the state alone (it may complete the saved copy of it). -/
def Refused (c c' : Ctx) : Prop := ∃ l, c' = { c with core := { c.core with saved := l } }

theorem Refused.refl (c : Ctx) : Refused c c := ⟨c.core.saved, rfl⟩

@[simp] theorem slotBit_false (n : Nat) : slotBit n false = n := rfl
@[simp] theorem slotBit_true (n : Nat) : slotBit n true = n + 1 := rfl

theorem flags_set_clear (f : Flags) (l m : List Nat) (j : Nat) (h1 : j ∉ l) (h2 : j ∉ m) : (f.clear l).set m j = f j := by
  simp [h1, h2]

theorem step_disable (ws : Bool) {c : Ctx} (i : Inv c) (slot : Nat) (h : slot < 2) :
    ∃ c', disableStyle c slot = some (c', .ok) ∧ Setter ws c c' := by
  obtain ⟨b, hb⟩ : ∃ b, slotOf slot = some b := by
    rcases slot with _ | _ | n
    · exact ⟨false, rfl⟩
    · exact ⟨true, rfl⟩
    · omega
  obtain ⟨rc, h1, h2⟩ := beforeStyle_spec i.good.good b (i.live b)
  refine ⟨{ c with
    core := { savedStyle c.core b with
      flags := (c.core.flags.clear [slotBit Bit.weakBaseStyle b, slotBit Bit.fetchBase b]).set [slotBit Bit.noBaseStyle b]
      styleType := (savedStyle c.core b).styleType.set b 3 }
    rc := rc }, ?_, ?_⟩
  · unfold disableStyle
    rw [hb]
    simp only [h1, Option.map_some]
  · refine setter_style ws i b 3 ((savedStyle c.core b).style.get b) _ rc h2 ?_ ?_ ?_ (fun _ => rfl) (by omega)
      (by simp only [Two.set_get]; rfl) rfl rfl (fun _ _ => rfl)
    · intro j h1 h2 h3
      cases b
      all_goals
        simp at h1 h2 h3
        simp [h1, h2, h3]
    · cases b <;> simp
    · cases b <;> simp

theorem step_solid (ws : Bool) {c : Ctx} (i : Inv c) (slot ty v : Nat) (h : slot < 2) (hty : ty < 3) :
    ∃ c', setSolid c slot ty v = some (c', .ok) ∧ Setter ws c c' := by
  obtain ⟨b, hb⟩ : ∃ b, slotOf slot = some b := by
    rcases slot with _ | _ | n
    · exact ⟨false, rfl⟩
    · exact ⟨true, rfl⟩
    · omega
  obtain ⟨rc, h1, h2⟩ := beforeStyle_spec i.good.good b (i.live b)
  refine ⟨{ c with
    core := { savedStyle c.core b with
      flags := c.core.flags.clear [slotBit Bit.weakBaseStyle b, slotBit Bit.fetchBase b, slotBit Bit.noBaseStyle b]
      styleType := (savedStyle c.core b).styleType.set b ty
      style := (savedStyle c.core b).style.set b (.solid v) }
    rc := rc }, ?_, ?_⟩
  · unfold setSolid
    rw [hb]
    simp only [h1, Option.map_some]
  · refine setter_style ws i b ty (.solid v) _ rc h2 ?_ ?_ ?_ (fun _ => rfl) (by omega) rfl rfl rfl (fun _ _ => rfl)
    · intro j h1 h2 h3
      cases b
      all_goals
        simp at h1 h2 h3
        simp [h1, h2, h3]
    · cases b <;> simp
    · cases b <;> simp

theorem step_object (ws : Bool) {c : Ctx} (i : Inv c) (slot ty obj : Nat) (t : Mat ℚ) (mode : Nat) (nop : Bool)
    (fd : Option Nat) (hfd : ∀ x, fd = some x → c.rc x = 0) :
    ∃ c' r, setObject c slot ty obj t mode nop fd = some (c', r) ∧ Setter ws c c' ∧ (r ≠ .ok → c' = c) := by
  unfold setObject
  cases hb : slotOf slot with
  | none => exact ⟨c, .invalidValue, rfl, Setter.refl ws i, fun _ => rfl⟩
  | some b =>
    cases fd with
    | none => exact ⟨c, .outOfMemory, rfl, Setter.refl ws i, fun _ => rfl⟩
    | some fd =>
      obtain ⟨rc, h1, h2⟩ := beforeStyle_spec i.good.good b (i.live b)
      have h0 := hfd fd rfl
      refine ⟨_, .ok, by simp only [h1, Option.map_some]; rfl, ?_, by simp⟩
      refine setter_style ws i b ty (.object fd (Matrix.multiply t (baseTransform c.core mode).1)) _ rc h2
        ?_ ?_ ?_ ?_ ?_ rfl rfl rfl ?_
      · intro j h1 h2 h3
        cases b
        all_goals
          simp at h1 h2 h3
          simp [h1, h2, h3]
      · cases b <;> simp
      · intro _; exact ⟨fd, _, rfl, h0, rfl⟩
      · cases b <;> simp
      · cases b <;> simp
      · intro x hx
        have : x ≠ fd := by rintro rfl; omega
        simp [this]

open Classical in
theorem retain_spec {c : Ctx} (st : Style) (hl : ∀ fd a, st = .object fd a → 0 < c.rc fd) :
    ∃ rc, retainStyle c st = some { c with rc := rc } ∧
      ∀ fd, rc fd = c.rc fd + if ∃ a, st = .object fd a then 1 else 0 := by
  cases st with
  | solid v => exact ⟨c.rc, rfl, by simp⟩
  | object fd a =>
    have h0 := hl fd a rfl
    refine ⟨fun i => if i = fd then c.rc i + 1 else c.rc i, ?_, ?_⟩
    · unfold retainStyle
      simp [Nat.pos_iff_ne_zero.mp h0]
    · intro x
      by_cases hx : x = fd
      · subst hx; simp
      · simp [hx, Ne.symm hx]

open Classical in
theorem swapSave_spec {c : Ctx} (g : Good c.core) (b : Bool) (hfetch : Bool) (hf : hfetch = c.core.flags (14 + b.toNat) ∨ c.core.flags (22 + b.toNat) = false)
    (hl : ∀ fd a, c.core.flags (14 + b.toNat) = true → c.core.style.get b = .object fd a → 0 < c.rc fd) :
    ∃ rc, swapSave c b (c.core.flags (22 + b.toNat)) hfetch = some { c with core := savedStyle c.core b, rc := rc } ∧
      ∀ fd, rc fd = c.rc fd + if c.core.flags (14 + b.toNat) = true ∧ c.core.flags (22 + b.toNat) = true ∧
        ∃ a, c.core.style.get b = .object fd a then 1 else 0 := by
  unfold swapSave savedStyle saveStyle
  cases hw : c.core.flags (22 + b.toNat) with
  | false => exact ⟨c.rc, by simp, by simp⟩
  | true =>
    obtain ⟨s, rest, hs⟩ := cons_of_weak g _ (by omega) (by cases b <;> simp) hw
    rw [hw] at hf
    simp only [Bool.true_eq_false, or_false] at hf
    rw [hf]
    cases h14 : c.core.flags (14 + b.toNat) with
    | false => exact ⟨c.rc, by simp [hs], by simp⟩
    | true =>
      obtain ⟨rc, h1, h2⟩ := retain_spec (c := { c with core := c.core.modTop fun t => { t with style := t.style.set b (c.core.style.get b) } })
        (c.core.style.get b) (fun fd a h => hl fd a h14 h)
      refine ⟨rc, ?_, ?_⟩
      · simp only [hs, List.isEmpty_cons, Bool.false_eq_true, if_false, if_true]
        rw [h1]
      · intro fd; rw [h2]; simp

theorem step_swap (ws : Bool) {c : Ctx} (i : Inv c) (mode : Nat)
    (hl : c.core.flags 23 = true → c.core.flags 15 = c.core.flags 14) :
    ∃ c' r, swapStyles c mode = some (c', r) ∧ Setter ws c c' ∧ (r ≠ .ok → c' = c) := by
  classical
  unfold swapStyles
  by_cases hm : mode > 1
  · rw [if_pos hm]; exact ⟨c, .invalidValue, rfl, Setter.refl ws i, fun _ => rfl⟩
  rw [if_neg hm]
  have g := i.good.good
  have hlive : ∀ (b : Bool) fd a, c.core.flags (14 + b.toNat) = true → c.core.style.get b = .object fd a → 0 < c.rc fd := by
    intro b fd a h1 h2
    rw [i.rc]
    exact live i.good b fd a h1 h2
  obtain ⟨rc1, h1, h1'⟩ := swapSave_spec g false (c.core.flags Bit.fetchBase) (Or.inl rfl) (hlive false)
  have hg2 : Good (savedStyle c.core false) := by
    have := cp_style ws g false (c.core.styleType.fill) (c.core.style.fill) (fun j => c.core.flags j && !(j == 22))
      (by intro j _ _ h; simp at h; simp [h]) (by simp) (by simpa using g.fetchF) (by simpa using g.typeF)
    unfold savedStyle at this ⊢
    cases hw : c.core.flags (22 + false.toNat) with
    | false => simpa using g
    | true =>
      obtain ⟨s, rest, hs⟩ := cons_of_weak g 22 (by omega) (by omega) hw
      have hm := modTop_saved hs fun t => { t with style := t.style.set false (c.core.style.get false) }
      refine good_styles g g.tol g.finalT g.metaFixed g.finalFixed g.weakMeta ?_ rfl rfl rfl rfl rfl rfl id id ?_
      · intro h; exact absurd (hm.symm.trans h) (by simp)
      · intro s' rest' h'
        exact shape_of hs (fun t => { t with style := t.style.set false (c.core.style.get false) }) rfl s' rest' (hm.symm.trans h')
  have hfl : (savedStyle c.core false).flags = c.core.flags := by unfold savedStyle; split <;> rfl
  obtain ⟨rc2, h2, h2'⟩ := swapSave_spec (c := { c with core := savedStyle c.core false, rc := rc1 }) hg2 true (c.core.flags Bit.fetchBase)
    (by
      show _ = (savedStyle c.core false).flags 15 ∨ (savedStyle c.core false).flags 23 = false
      rw [hfl]
      cases h23 : c.core.flags 23 with
      | false => exact Or.inr rfl
      | true => exact Or.inl (hl h23).symm)
    (by
      show ∀ fd a, (savedStyle c.core false).flags 15 = true → (savedStyle c.core false).style.get true = _ → 0 < rc1 fd
      rw [hfl, savedStyle_style]
      intro fd a hf ho
      have := hlive true fd a hf ho
      rw [h1']
      omega)
  have h1s : swapSave c false (c.core.flags Bit.weakBaseStyle) (c.core.flags Bit.fetchBase) = _ := h1
  have h2s : swapSave { c with core := savedStyle c.core false, rc := rc1 } true (c.core.flags (Bit.weakBaseStyle + 1))
      (c.core.flags Bit.fetchBase) = some { c with core := savedBoth c.core, rc := rc2 } := by
    refine Eq.trans ?_ h2
    show _ = swapSave _ true ((savedStyle c.core false).flags 23) _
    rw [hfl]
  simp only [h1s, h2s]
  have est : (savedBoth c.core).style = c.core.style := by
    unfold savedBoth; rw [savedStyle_style, savedStyle_style]
  have ety : (savedBoth c.core).styleType = c.core.styleType := by
    unfold savedBoth savedStyle; split <;> split <;> rfl
  -- the new flags
  have hset : ∀ (F : Flags) (sa : Two ℚ) (sai : Two Int) (_ : F 22 = false) (_ : F 23 = false)
      (_ : F 14 = c.core.flags 15) (_ : F 15 = c.core.flags 14)
      (_ : ∀ j, j = 13 ∨ j = 16 ∨ j = 20 ∨ j = 21 ∨ (24 ≤ j ∧ j ≤ 27) → F j = c.core.flags j),
      Setter ws c { c with
        core := { savedBoth c.core with
          style := c.core.style.swap, styleType := c.core.styleType.swap, flags := F, styleAlpha := sa, styleAlphaI := sai }
        rc := rc2 } := by
    intro F sa sai f22 f23 f14 f15 fo
    refine ⟨cp_swap ws g F sa sai f22 f23 f14 f15 fo, ?_, rfl, rfl, fun _ _ => rfl⟩
    intro fd
    have e1 := h1' fd
    have e2 := h2' fd
    simp only [hfl, savedStyle_style] at e2
    unfold own
    simp only [f14, f15, f22, f23, Two.swap]
    simp only [Two.get, Bool.toNat_false, Bool.toNat_true, Nat.add_zero, Nat.reduceAdd] at e1 e2
    by_cases p1 : c.core.flags 14 = true ∧ ∃ a, c.core.style.fill = .object fd a
    · obtain ⟨p1a, p1b⟩ := p1
      by_cases p2 : c.core.flags 15 = true ∧ ∃ a, c.core.style.stroke = .object fd a
      · obtain ⟨p2a, p2b⟩ := p2
        simp only [p1a, p1b, p2a, p2b, true_and, and_true] at e1 e2 ⊢
        cases h22 : c.core.flags 22 <;> cases h23 : c.core.flags 23 <;> simp [h22, h23] at e1 e2 ⊢ <;> omega
      · have p2' : ∀ q : Prop, ¬ (c.core.flags 15 = true ∧ q ∧ ∃ a, c.core.style.stroke = .object fd a) :=
          fun q h => p2 ⟨h.1, h.2.2⟩
        simp only [p2', if_false] at e2 ⊢
        simp only [p1a, p1b, true_and, and_true] at e1 ⊢
        cases h22 : c.core.flags 22 <;> simp [h22] at e1 ⊢ <;> omega
    · have p1' : ∀ q : Prop, ¬ (c.core.flags 14 = true ∧ q ∧ ∃ a, c.core.style.fill = .object fd a) :=
        fun q h => p1 ⟨h.1, h.2.2⟩
      simp only [p1', if_false] at e1 ⊢
      by_cases p2 : c.core.flags 15 = true ∧ ∃ a, c.core.style.stroke = .object fd a
      · obtain ⟨p2a, p2b⟩ := p2
        simp only [p2a, p2b, true_and, and_true] at e2 ⊢
        cases h23 : c.core.flags 23 <;> simp [h23] at e2 ⊢ <;> omega
      · have p2' : ∀ q : Prop, ¬ (c.core.flags 15 = true ∧ q ∧ ∃ a, c.core.style.stroke = .object fd a) :=
          fun q h => p2 ⟨h.1, h.2.2⟩
        simp only [p2', if_false] at e2 ⊢
        omega
  have b13 := g.b13
  have b16 := g.b16
  by_cases hmode : mode = 1
  · simp only [hmode, if_true, est, ety]
    refine ⟨_, .ok, rfl, hset _ _ _ ?_ ?_ ?_ ?_ ?_, by simp⟩
    · simp
    · simp
    · simp [b13]
    · simp [b16]
    · rintro j (rfl | rfl | rfl | rfl | ⟨h1, h2⟩)
      · simp
      · simp
      · simp
      · simp
      · have : j = 24 ∨ j = 25 ∨ j = 26 ∨ j = 27 := by omega
        rcases this with rfl | rfl | rfl | rfl <;> simp
  · simp only [hmode, if_false, est, ety]
    refine ⟨_, .ok, rfl, hset _ _ _ ?_ ?_ ?_ ?_ ?_, by simp⟩
    · simp
    · simp
    · simp [b13]
    · simp [b16]
    · rintro j (rfl | rfl | rfl | rfl | ⟨h1, h2⟩)
      · simp
      · simp
      · simp
      · simp
      · have : j = 24 ∨ j = 25 ∨ j = 26 ∨ j = 27 := by omega
        rcases this with rfl | rfl | rfl | rfl <;> simp

theorem step_stroke (ws : Bool) {c : Ctx} (i : Inv c) (clears : List Nat) (upd : Stroke → Stroke)
    (hc : ∀ i, i ∈ clears → i = 12 ∨ i = 25) (hok : ws = true → c.core.flags 25 = true → 25 ∈ clears) :
    ∃ c', setStroke c clears upd = some (c', .ok) ∧ Setter ws c c' := by
  obtain ⟨k1, h1, h2, h3, h4⟩ := cp_stroke ws i.good.good clears upd hc hok
  have hnc : ∀ i, i ≠ 12 → i ≠ 25 → clears.contains i = false := by
    intro i h1 h2
    cases h : clears.contains i with
    | false => rfl
    | true => rcases hc i (by simpa using h) with h | h <;> omega
  refine ⟨{ c with core := { k1 with flags := k1.flags.clear clears, stroke := upd k1.stroke }, strokeBaseShared := false },
    by unfold setStroke; simp only [h1, Option.map_some], ?_⟩
  refine setter_core ws h4 h3 ?_ ?_ ?_ ?_ rfl rfl rfl rfl <;>
  · simp only [Flags.clear_apply, h2]
    rw [hnc _ (by omega) (by omega)]
    simp

theorem step_strokeOp (ws : Bool) {c : Ctx} (i : Inv c) (o : StrokeOp) (h : Legal ws c (.stroke o)) :
    ∃ c' r, strokeOp c o = some (c', r) ∧ Setter ws c c' ∧ (r ≠ .ok → c' = c) := by
  have hbad : ∃ c' r, some (c, Res.invalidValue) = some (c', r) ∧ Setter ws c c' ∧ (r ≠ .ok → c' = c) :=
    ⟨c, .invalidValue, rfl, Setter.refl ws i, fun _ => rfl⟩
  have key : ∀ (clears : List Nat) (upd : Stroke → Stroke) (_ : ∀ i, i ∈ clears → i = 12 ∨ i = 25)
      (_ : ws = true → c.core.flags 25 = true → 25 ∈ clears),
      ∃ c' r, setStroke c clears upd = some (c', r) ∧ Setter ws c c' ∧ (r ≠ .ok → c' = c) := by
    intro clears upd hc hok
    obtain ⟨c', h1, h2⟩ := step_stroke ws i clears upd hc hok
    exact ⟨c', .ok, h1, h2, by simp⟩
  have k2 : ∀ upd, ∃ c' r, setStroke c [Bit.noStrokeOptions, Bit.weakStroke] upd = some (c', r) ∧ Setter ws c c' ∧
      (r ≠ .ok → c' = c) := fun upd => key _ upd (by simp) (by simp)
  cases o with
  | width x => simp only [strokeOp]; exact k2 _
  | miterLimit x => simp only [strokeOp]; exact k2 _
  | dashOffset x => simp only [strokeOp]; exact k2 _
  | dashArray x => simp only [strokeOp]; exact k2 _
  | cap p v =>
    simp only [Legal] at h
    simp only [strokeOp]
    split
    · exact hbad
    · exact key [] _ (by simp) (fun h1 h2 => by rw [h h1] at h2; simp at h2)
  | caps v =>
    simp only [Legal] at h
    simp only [strokeOp]
    split
    · exact hbad
    · exact key [] _ (by simp) (fun h1 h2 => by rw [h h1] at h2; simp at h2)
  | join v =>
    simp only [Legal] at h
    simp only [strokeOp]
    split
    · exact hbad
    · exact key [] _ (by simp) (fun h1 h2 => by rw [h h1] at h2; simp at h2)
  | transformOrder v =>
    simp only [strokeOp]
    split
    · exact hbad
    · exact key _ _ (by simp) (by simp)
  | options o =>
    simp only [strokeOp]
    split_ifs
    · exact hbad
    · exact k2 _

theorem step_config (ws : Bool) {c : Ctx} (i : Inv c) (a : Approx) (t : ℚ) (ht : t = a.flattenTolerance * fpScale)
    (fs : Bool) : ∃ k1, onBeforeConfigChange c.core = some k1 ∧ k1.approx = c.core.approx ∧ k1.tolFixed = c.core.tolFixed ∧
    Setter ws c { c with core := { k1 with flags := k1.flags.clear [Bit.weakConfig], approx := a, tolFixed := t }, fillShared := fs } := by
  obtain ⟨k1, h1, h2, h3, h4, h5, h6⟩ := cp_config ws i.good.good a t ht
  refine ⟨k1, h1, h2, h4, setter_core ws h6 h5 ?_ ?_ ?_ ?_ rfl rfl rfl rfl⟩ <;> simp [h3]

theorem step_flattenMode (ws : Bool) {c : Ctx} (i : Inv c) (m : Nat) :
    ∃ c' r, setFlattenMode c m = some (c', r) ∧ Setter ws c c' ∧ (r ≠ .ok → c' = c) := by
  unfold setFlattenMode
  split_ifs
  · exact ⟨c, .invalidValue, rfl, Setter.refl ws i, fun _ => rfl⟩
  · obtain ⟨k1, h1, h2, h3, h4⟩ := step_config ws i { c.core.approx with flattenMode := m } c.core.tolFixed i.good.good.tol c.fillShared
    refine ⟨{ c with core := { k1 with flags := k1.flags.clear [Bit.weakConfig], approx := { k1.approx with flattenMode := m } } },
      .ok, by rw [h1]; rfl, ?_, by simp⟩
    rw [h2]
    rw [← h3] at h4
    exact h4

theorem step_flattenTolerance (ws : Bool) {c : Ctx} (i : Inv c) (t : ℚ) :
    ∃ c' r, setFlattenTolerance c t = some (c', r) ∧ Setter ws c c' ∧ (r ≠ .ok → c' = c) := by
  unfold setFlattenTolerance
  obtain ⟨k1, h1, h2, h3, h4⟩ := step_config ws i { c.core.approx with flattenTolerance := clamp t (1 / 100) (1 / 2) } _ rfl false
  rw [h1]
  refine ⟨_, .ok, rfl, ?_, by simp⟩
  simp only [onAfterFlattenToleranceChanged]
  rw [h2]
  exact h4

theorem step_approximation (ws : Bool) {c : Ctx} (i : Inv c) (o : Approx) :
    ∃ c' r, setApproximationOptions c o = some (c', r) ∧ Setter ws c c' ∧ (r ≠ .ok → c' = c) := by
  unfold setApproximationOptions
  split_ifs
  · exact ⟨c, .invalidValue, rfl, Setter.refl ws i, fun _ => rfl⟩
  · obtain ⟨k1, h1, h2, h3, h4⟩ := step_config ws i { c.core.approx with
        flattenMode := o.flattenMode, offsetMode := o.offsetMode
        flattenTolerance := clamp o.flattenTolerance (1 / 100) (1 / 2), offsetParameter := o.offsetParameter } _ rfl false
    rw [h1]
    refine ⟨_, .ok, rfl, ?_, by simp⟩
    simp only [onAfterFlattenToleranceChanged]
    rw [h2]
    exact h4

theorem step_transform (ws : Bool) (e : Env) {c : Ctx} (i : Inv c) (o : Option (Matrix.Op ℚ)) :
    ∃ c' r, applyTransformOp e c o = some (c', r) ∧ Setter ws c c' ∧ (r ≠ .ok → Refused c c') := by
  obtain ⟨k1, h1, h2, h3, h4, h5, h6⟩ := cp_user ws i.good.good
  unfold applyTransformOp
  rw [h1]
  cases o with
  | none =>
    refine ⟨{ c with core := k1 }, .invalidValue, rfl, ?_, fun _ => ?_⟩
    · exact setter_core ws h5 h3 (by rw [h2]) (by rw [h2]) (by rw [h2]) (by rw [h2]) rfl rfl rfl rfl
    · unfold onBeforeUserTransformChange at h1
      split_ifs at h1
      · exact ⟨_, by rw [← Option.some.inj h1]; rfl⟩
      · rw [← Option.some.inj h1]; exact ⟨c.core.saved, rfl⟩
  | some op =>
    refine ⟨_, .ok, rfl, ?_, by simp⟩
    have key := h6 (Matrix.applyOp e.trig k1.user op)
    refine setter_core ws (key _ _ _ ?_) h3 ?_ ?_ ?_ ?_ rfl rfl rfl rfl
    · intro j h11 h28
      simp [updateFinalTransformFixed, updateFinalTransform, h2, h11, h28]
      by_cases h27 : j = 27 <;> simp [h27]
    all_goals
      simp [onAfterUserTransformChanged, h2]

theorem step_userToMeta (ws : Bool) {c : Ctx} (i : Inv c) :
    ∃ c', userToMeta c = some (c', .ok) ∧ Setter ws c c' := by
  obtain ⟨k1, h1, h2, h3, h4⟩ := cp_userToMeta ws i.good.good i.good.top
  unfold userToMeta
  rw [h1]
  refine ⟨_, rfl, setter_core ws h2 h3 ?_ ?_ ?_ ?_ rfl rfl rfl rfl⟩ <;> simp [afterUserToMeta, h4]

theorem step_clipD (ws : Bool) {c : Ctx} (i : Inv c) (x y w h : ℚ) :
    ∃ c', clipToRectD c x y w h = some (c', .ok) ∧ Setter ws c c' := by
  obtain ⟨k1, h1, h2, h3, h4⟩ := cp_clip ws i.good.good
  unfold clipToRectD
  rw [h1]
  refine ⟨_, rfl, ?_⟩
  unfold clipToFinalBox
  dsimp only
  split_ifs
  all_goals
    refine setter_core ws (h4 _ _ _ _ _ ?_) h3 ?_ ?_ ?_ ?_ rfl rfl rfl rfl
    · intro j hj
      by_cases h21 : j = 21 <;> simp [h2, hj, h21]
    all_goals simp [h2]

theorem step_clipI (ws : Bool) {c : Ctx} (i : Inv c) (x y w h : Int) :
    ∃ c', clipToRectI c x y w h = some (c', .ok) ∧ Setter ws c c' := by
  unfold clipToRectI
  split
  · exact step_clipD ws i _ _ _ _
  obtain ⟨k1, h1, h2, h3, h4⟩ := cp_clip ws i.good.good
  rw [h1]
  refine ⟨_, rfl, ?_⟩
  unfold clipToBoxI
  dsimp only
  split_ifs
  all_goals
    refine setter_core ws (h4 _ _ _ _ _ ?_) h3 ?_ ?_ ?_ ?_ rfl rfl rfl rfl
    · intro j hj
      by_cases h21 : j = 21 <;> simp [h2, hj, h21]
    all_goals simp [h2]

theorem step_restoreClipping (ws : Bool) (e : Env) {c : Ctx} (i : Inv c) :
    ∃ c', restoreClipping e c = some (c', .ok) ∧ Setter ws c c' := by
  obtain ⟨k1, h1, h2, h3, h4⟩ := cp_clip ws i.good.good
  unfold restoreClipping
  split
  · rename_i hw
    have hw' : c.core.flags 21 = false := hw
    have hk : k1 = c.core := by
      unfold onBeforeClipBoxChange at h1
      rw [hw] at h1
      simpa using h1.symm
    subst hk
    cases hs : c.core.saved with
    | cons s rest =>
      refine ⟨_, rfl, setter_core ws (h4 _ _ _ _ _ ?_) rfl ?_ ?_ ?_ ?_ rfl rfl rfl rfl⟩
      · intro j hj
        by_cases h21 : j = 21 <;> simp [hj, h21, restoreClippingFromState]
      all_goals simp [restoreClippingFromState]
    | nil =>
      refine ⟨_, rfl, setter_core ws (h4 _ _ _ c.core.clipMode _ ?_) rfl ?_ ?_ ?_ ?_ rfl rfl rfl rfl⟩
      · intro j hj
        by_cases h21 : j = 21
        · subst h21; simp [hw']
        · simp [hj, h21]
      all_goals simp [resetClippingToMeta]
  · exact ⟨c, rfl, Setter.refl ws i⟩

theorem step_simple (ws : Bool) {c c' : Ctx} (i : Inv c)
    (h : ∃ (hi : Hints) (co fr : Nat) (f : Flags) (ga : ℚ) (gai : Int) (sa : Two ℚ) (sai : Two Int),
      (∀ j, (j < 3 ∨ 5 < j) → f j = c.core.flags j) ∧ c'.core = { c.core with
        hints := hi, compOp := co, fillRule := fr, flags := f, globalAlpha := ga, globalAlphaI := gai, styleAlpha := sa
        styleAlphaI := sai })
    (h6 : c'.rc = c.rc) (h7 : c'.savedCount = c.savedCount) (h8 : c'.idCounter = c.idCounter) (h9 : c'.obj = c.obj) :
    Setter ws c c' := by
  obtain ⟨hi, co, fr, f, ga, gai, sa, sai, hf, hk⟩ := h
  refine setter_core ws ?_ (by rw [hk]) ?_ ?_ ?_ ?_ h6 h7 h8 h9
  · rw [hk]
    refine cp_simple ws i.good.good rfl rfl rfl rfl rfl rfl rfl rfl rfl rfl rfl rfl ?_
    intro j hj
    exact hf j (by omega)
  all_goals
    rw [hk]
    exact hf _ (by omega)

/-- Calls other than `save` and `restore`. -/
def Op.isSetter : Op → Prop
  | .save _ _ => False
  | .restore _ => False
  | _ => True

theorem step_setter (ws : Bool) (e : Env) {c : Ctx} (i : Inv c) (op : Op) (hs : op.isSetter) (hl : Legal ws c op) :
    ∃ c' r, step e c op = some (c', r) ∧ Setter ws c c' ∧ (r ≠ .ok → Refused c c') := by
  have hbad : ∀ r, ∃ c' r', some (c, r) = some (c', r') ∧ Setter ws c c' ∧ (r' ≠ Res.ok → Refused c c') :=
    fun r => ⟨c, r, rfl, Setter.refl ws i, fun _ => Refused.refl c⟩
  have lift : ∀ {x : Option (Ctx × Res)}, (∃ c' r, x = some (c', r) ∧ Setter ws c c' ∧ (r ≠ .ok → c' = c)) →
      ∃ c' r, x = some (c', r) ∧ Setter ws c c' ∧ (r ≠ .ok → Refused c c') := by
    rintro x ⟨c', r, h1, h2, h3⟩
    exact ⟨c', r, h1, h2, fun h => by rw [h3 h]; exact Refused.refl c⟩
  have lift' : ∀ {x : Option (Ctx × Res)}, (∃ c', x = some (c', .ok) ∧ Setter ws c c') →
      ∃ c' r, x = some (c', r) ∧ Setter ws c c' ∧ (r ≠ .ok → Refused c c') := by
    rintro x ⟨c', h1, h2⟩
    exact ⟨c', .ok, h1, h2, by simp⟩
  cases op with
  | save _ _ => exact absurd hs (by simp [Op.isSetter])
  | restore _ => exact absurd hs (by simp [Op.isSetter])
  | setHint h v =>
    simp only [step]
    unfold setHint
    split
    all_goals first | exact hbad _ | (split <;> first | exact hbad _ | skip)
    all_goals
      refine lift' ⟨_, rfl, step_simple ws i ⟨_, c.core.compOp, c.core.fillRule, c.core.flags, c.core.globalAlpha,
        c.core.globalAlphaI, c.core.styleAlpha, c.core.styleAlphaI, fun _ _ => rfl, rfl⟩ rfl rfl rfl rfl⟩
  | setHints h =>
    simp only [step]
    unfold setHints
    split
    · exact hbad _
    · exact lift' ⟨_, rfl, step_simple ws i ⟨_, c.core.compOp, c.core.fillRule, c.core.flags, c.core.globalAlpha,
        c.core.globalAlphaI, c.core.styleAlpha, c.core.styleAlphaI, fun _ _ => rfl, rfl⟩ rfl rfl rfl rfl⟩
  | setFlattenMode m => exact lift (step_flattenMode ws i m)
  | setFlattenTolerance t => exact lift (step_flattenTolerance ws i t)
  | setApproximationOptions o => exact lift (step_approximation ws i o)
  | setStyleAlpha slot a =>
    simp only [step]
    unfold setStyleAlpha
    split
    · exact hbad _
    · rename_i b _
      refine lift' ⟨_, rfl, step_simple ws i ⟨c.core.hints, c.core.compOp, c.core.fillRule, _, c.core.globalAlpha,
        c.core.globalAlphaI, _, _, ?_, rfl⟩ rfl rfl rfl rfl⟩
      intro j hj
      have h4 : j ≠ 4 := by omega
      have h5 : j ≠ 5 := by omega
      cases b <;> simp [h4, h5]
  | setGlobalAlpha a =>
    simp only [step]
    unfold setGlobalAlpha
    refine lift' ⟨_, rfl, step_simple ws i ⟨c.core.hints, c.core.compOp, c.core.fillRule, _, _, _, c.core.styleAlpha,
      _, ?_, rfl⟩ rfl rfl rfl rfl⟩
    intro j hj
    have h3 : j ≠ 3 := by omega
    have h4 : j ≠ 4 := by omega
    have h5 : j ≠ 5 := by omega
    simp [h3, h4, h5]
  | setCompOp o =>
    simp only [step]
    unfold setCompOp
    split
    · exact hbad _
    · exact lift' ⟨_, rfl, step_simple ws i ⟨c.core.hints, o, c.core.fillRule, c.core.flags, c.core.globalAlpha,
        c.core.globalAlphaI, c.core.styleAlpha, c.core.styleAlphaI, fun _ _ => rfl, rfl⟩ rfl rfl rfl rfl⟩
  | setFillRule o =>
    simp only [step]
    unfold setFillRule
    split
    · exact hbad _
    · exact lift' ⟨_, rfl, step_simple ws i ⟨c.core.hints, c.core.compOp, o, c.core.flags, c.core.globalAlpha,
        c.core.globalAlphaI, c.core.styleAlpha, c.core.styleAlphaI, fun _ _ => rfl, rfl⟩ rfl rfl rfl rfl⟩
  | disableStyle slot => exact lift' (step_disable ws i slot hl)
  | setSolid slot ty v => exact lift' (step_solid ws i slot ty v hl.1 hl.2)
  | setObject slot ty obj t m n fd =>
    refine lift (step_object ws i slot ty obj t m n fd ?_)
    rintro x rfl
    exact hl
  | swapStyles m => exact lift (step_swap ws i m hl)
  | stroke o => exact lift (step_strokeOp ws i o hl)
  | transform o => exact step_transform ws e i o
  | userToMeta => exact lift' (step_userToMeta ws i)
  | clipToRectD x y w h => exact lift' (step_clipD ws i x y w h)
  | clipToRectI x y w h => exact lift' (step_clipI ws i x y w h)
  | restoreClipping => exact lift' (step_restoreClipping ws e i)
  | fillJob =>
    refine lift' ⟨_, rfl, ?_⟩
    unfold getSharedFill
    split
    · exact Setter.refl ws i
    · exact setter_core ws (CorePres.refl ws i.good.good) rfl rfl rfl rfl rfl rfl rfl rfl rfl
  | strokeJob =>
    refine lift' ⟨_, rfl, ?_⟩
    have : ∀ c1 : Ctx, (getSharedStroke c1).core = c1.core ∧ (getSharedStroke c1).rc = c1.rc ∧
        (getSharedStroke c1).obj = c1.obj ∧ (getSharedStroke c1).savedCount = c1.savedCount ∧
        (getSharedStroke c1).idCounter = c1.idCounter := by
      intro c1; unfold getSharedStroke; dsimp only; split <;> exact ⟨rfl, rfl, rfl, rfl, rfl⟩
    have h2 : (getSharedFill c).core = c.core ∧ (getSharedFill c).rc = c.rc ∧
        (getSharedFill c).obj = c.obj ∧ (getSharedFill c).savedCount = c.savedCount ∧
        (getSharedFill c).idCounter = c.idCounter := by
      unfold getSharedFill; split <;> exact ⟨rfl, rfl, rfl, rfl, rfl⟩
    obtain ⟨a1, a2, a3, a4, a5⟩ := this (getSharedFill c)
    obtain ⟨b1, b2, b3, b4, b5⟩ := h2
    have hk := a1.trans b1
    refine setter_core ws ?_ (by rw [hk]) (by rw [hk]) (by rw [hk]) (by rw [hk]) (by rw [hk]) (a2.trans b2)
      (a4.trans b4) (a5.trans b5) (a3.trans b3)
    rw [hk]
    exact CorePres.refl ws i.good.good
  | flush =>
    refine lift' ⟨_, rfl, ?_⟩
    exact setter_core ws (CorePres.refl ws i.good.good) rfl rfl rfl rfl rfl rfl rfl rfl rfl

end Blend2D.SaveRestore
