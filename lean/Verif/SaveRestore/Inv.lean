import Verif.SaveRestore.Lemmas
import Verif.SaveRestore.Spec

namespace Blend2D.SaveRestore

open Blend2D.Matrix (Mat Trig Ty Box)

/-! ### Swapping styles -/

/-- The state `swap_styles` saves. -/
def savedBoth (k : Core) : Core := savedStyle (savedStyle k false) true

theorem savedBoth_eq {k : Core} {s : Saved} {rest : List Saved} (h : k.saved = s :: rest) : savedBoth k =
    { k with saved := { s with style := ⟨if k.flags 22 then k.style.fill else s.style.fill,
                                         if k.flags 23 then k.style.stroke else s.style.stroke⟩ } :: rest } := by
  unfold savedBoth savedStyle
  cases h22 : k.flags 22 <;> cases h23 : k.flags 23 <;> simp [h22, h23, Core.modTop, h, Two.set, Two.get]
  cases k
  simp at h
  simp [h]

theorem savedBoth_nil {k : Core} (h : k.saved = []) : savedBoth k = k := by
  unfold savedBoth savedStyle
  cases h22 : k.flags 22 <;> cases h23 : k.flags 23 <;> simp [h22, h23, Core.modTop, h]
  all_goals
    cases k
    simp at h
    simp [h]

theorem cp_swap (ws : Bool) {k : Core} (g : Good k) (F : Flags) (sa : Two ℚ) (sai : Two Int)
    (h22 : F 22 = false) (h23 : F 23 = false) (h14 : F 14 = k.flags 15) (h15 : F 15 = k.flags 14)
    (hF : ∀ j, j = 13 ∨ j = 16 ∨ j = 20 ∨ j = 21 ∨ (24 ≤ j ∧ j ≤ 27) → F j = k.flags j) :
    CorePres ws k { savedBoth k with
      style := k.style.swap, styleType := k.styleType.swap, flags := F, styleAlpha := sa, styleAlphaI := sai } := by
  cases hs : k.saved with
  | nil =>
    rw [savedBoth_nil hs]
    refine ⟨fun _ => hs, by simp [hs], ?_⟩
    refine ⟨g.tol, g.finalT, g.metaFixed, g.finalFixed, ?_, ?_, ?_, ?_, ?_, ?_, ?_, ?_, ?_, ?_⟩
    · simpa [hF] using g.weakMeta
    · intro _ i hi hj
      have hb := g.bottom hs i hi hj
      show F i = false
      by_cases h1 : i = 22
      · rw [h1]; exact h22
      by_cases h2 : i = 23
      · rw [h2]; exact h23
      rw [hF i (by omega)]; exact hb
    · simpa [h14, Two.swap] using g.fetchS
    · simpa [h15, Two.swap] using g.fetchF
    · simpa [h14, Two.swap] using g.typeS
    · simpa [h15, Two.swap] using g.typeF
    · simp [h22]
    · simp [h23]
    · simpa [hF] using g.b13
    · simpa [hF] using g.b16
  | cons s rest =>
    rw [savedBoth_eq hs]
    refine ⟨by simp [hs], ?_, ?_⟩
    · intro s' rest' h'
      rw [hs] at h'
      obtain ⟨rfl, rfl⟩ := List.cons.inj h'
      refine ⟨_, rfl, rfl, rfl, ?_⟩
      simp [forget, restored, h22, h23, hF]
    · refine ⟨g.tol, g.finalT, g.metaFixed, g.finalFixed, ?_, ?_, ?_, ?_, ?_, ?_, ?_, ?_, ?_, ?_⟩
      · simpa [hF] using g.weakMeta
      · simp
      · simpa [h14, Two.swap] using g.fetchS
      · simpa [h15, Two.swap] using g.fetchF
      · simpa [h14, Two.swap] using g.typeS
      · simpa [h15, Two.swap] using g.typeF
      · simp [h22]
      · simp [h23]
      · simpa [hF] using g.b13
      · simpa [hF] using g.b16

/-! ### All levels -/

/-- The current state and every state that can be restored is `Good`. -/
def AllGood (k : Core) : Prop := ∀ n, n ≤ k.saved.length → Good (level n k)

theorem AllGood.good {k : Core} (h : AllGood k) : Good k := h 0 (Nat.zero_le _)

theorem AllGood.top {k : Core} (h : AllGood k) (s : Saved) (rest : List Saved) (hs : k.saved = s :: rest) :
    Good (restored s rest k) := by
  have := h 1 (by simp [hs])
  rw [level, restoreTop_cons k s rest hs] at this
  exact this

/-- References held by all levels from `n` on downwards. -/
noncomputable def total : List Saved → Core → Nat → Nat
  | [], k, fd => own k fd
  | _ :: rest, k, fd => own k fd + total rest (restoreTop k) fd

theorem total_forget (ws : Bool) (l : List Saved) {c d : Core} (h : forget ws c = forget ws d) (fd : Nat) :
    total l c fd = total l d fd := by
  induction l generalizing c d with
  | nil => exact own_forget ws h fd
  | cons s rest ih => simp only [total, own_forget ws h fd, ih (forget_restoreTop ws h)]

theorem total_length (l l' : List Saved) (h : l.length = l'.length) (k : Core) (fd : Nat) : total l k fd = total l' k fd := by
  induction l generalizing l' k with
  | nil => cases l' with
    | nil => rfl
    | cons _ _ => simp at h
  | cons s rest ih => cases l' with
    | nil => simp at h
    | cons s' rest' => simp only [total, ih rest' (by simpa using h)]

/-- References of the context. -/
noncomputable abbrev refs (k : Core) (fd : Nat) : Nat := total k.saved k fd

theorem CorePres.length {ws : Bool} {k k' : Core} (h : CorePres ws k k') : k'.saved.length = k.saved.length := by
  cases hs : k.saved with
  | nil => rw [h.nil hs]
  | cons s rest => obtain ⟨s', h', -⟩ := h.cons s rest hs; rw [h']; rfl

theorem CorePres.level {ws : Bool} {k k' : Core} (h : CorePres ws k k') (n : Nat) (hn : 0 < n) (hn' : n ≤ k.saved.length) :
    forget ws (level n k') = forget ws (level n k) := by
  cases hs : k.saved with
  | nil => rw [hs] at hn'; simp at hn'; omega
  | cons s rest =>
    obtain ⟨s', h', -, -, hf⟩ := h.cons s rest hs
    obtain ⟨m, rfl⟩ : ∃ m, n = m + 1 := ⟨n - 1, by omega⟩
    rw [SaveRestore.level, SaveRestore.level, restoreTop_cons _ _ _ hs, restoreTop_cons _ _ _ h']
    exact forget_level ws m hf

theorem CorePres.allGood {ws : Bool} {k k' : Core} (h : CorePres ws k k') (g : AllGood k) : AllGood k' := by
  intro n hn
  rw [h.length] at hn
  by_cases h0 : n = 0
  · subst h0; exact h.good
  · exact good_forget ws (h.level n (by omega) hn).symm (g n hn)

theorem CorePres.refs {ws : Bool} {k k' : Core} (h : CorePres ws k k') (fd : Nat) :
    refs k' fd + own k fd = refs k fd + own k' fd := by
  unfold SaveRestore.refs
  cases hs : k.saved with
  | nil => rw [h.nil hs]; simp only [total]; omega
  | cons s rest =>
    obtain ⟨s', h', -, -, hf⟩ := h.cons s rest hs
    rw [h']
    simp only [total]
    rw [restoreTop_cons _ _ _ hs, restoreTop_cons _ _ _ h', total_forget ws rest hf fd]
    omega

/-- The object of a slot is referenced by some level. -/
theorem live_aux (l : List Saved) (k : Core) (hl : k.saved = l) (g : AllGood k) (b : Bool) (fd : Nat) (a : Mat ℚ)
    (hf : k.flags (14 + b.toNat) = true) (ho : k.style.get b = .object fd a) : 0 < total l k fd := by
  induction l generalizing k with
  | nil =>
    have hw := g.good.bottom hl (22 + b.toNat) (by omega) (by cases b <;> simp)
    have : Owns k b fd := ⟨hf, hw, a, ho⟩
    rw [total, own_eq]
    cases b <;> simp [this]
  | cons s rest ih =>
    rw [total]
    cases hw : k.flags (22 + b.toNat) with
    | false =>
      have : Owns k b fd := ⟨hf, hw, a, ho⟩
      rw [own_eq]
      cases b <;> simp [this]
    | true =>
      have := ih (restoreTop k) (by rw [restoreTop_saved, hl]; rfl) (by
          intro n hn
          exact g (n + 1) (by rw [restoreTop_saved, hl] at hn; rw [hl]; simpa using hn))
        (by
          rw [restoreTop_cons k s rest hl]
          cases b with
          | false => exact (g.good.prevF s rest hl hw).symm.trans hf
          | true => exact (g.good.prevS s rest hl hw).symm.trans hf)
        (by
          rw [restoreTop_cons k s rest hl]
          cases b with
          | false => simp at hw; simpa [restored, Two.get, hw] using ho
          | true => simp at hw; simpa [restored, Two.get, hw] using ho)
      omega

theorem live {k : Core} (g : AllGood k) (b : Bool) (fd : Nat) (a : Mat ℚ)
    (hf : k.flags (14 + b.toNat) = true) (ho : k.style.get b = .object fd a) : 0 < refs k fd :=
  live_aux k.saved k rfl g b fd a hf ho

theorem refs_level (n : Nat) (k : Core) (hn : n ≤ k.saved.length) (fd : Nat) : refs (level n k) fd ≤ refs k fd := by
  induction n generalizing k with
  | zero => exact Nat.le_refl _
  | succ n ih =>
    cases hs : k.saved with
    | nil => rw [hs] at hn; simp at hn
    | cons s rest =>
      have h1 : (restoreTop k).saved = rest := by rw [restoreTop_saved, hs]; rfl
      have := ih (restoreTop k) (by rw [h1]; rw [hs] at hn; simpa using hn)
      rw [level]
      refine Nat.le_trans this ?_
      unfold refs
      rw [hs, h1, total]
      omega

/-! ### Invariant of the context -/

/-- `t` was saved before `s`: cookies were given out in increasing order. -/
def Older (s t : Nat) : Prop := s = idMax ∨ t = idMax ∨ t < s

/-- The identifiers of the saved states, newest first. -/
def idsOf (k : Core) : List Nat := k.saved.map Saved.stateId

/-- The invariant of the context. -/
structure Inv (c : Ctx) : Prop where
  good : AllGood c.core
  rc : ∀ fd, c.rc fd = refs c.core fd
  count : c.savedCount = c.core.saved.length
  counter : c.idCounter < idMax
  ids : ∀ x ∈ idsOf c.core, x = idMax ∨ x ≤ c.idCounter
  order : (idsOf c.core).Pairwise Older

/-- What a call other than `save` and `restore` does. -/
structure Setter (ws : Bool) (c c' : Ctx) : Prop where
  pres : CorePres ws c.core c'.core
  rc : ∀ fd, c'.rc fd + own c.core fd = c.rc fd + own c'.core fd
  count : c'.savedCount = c.savedCount
  counter : c'.idCounter = c.idCounter
  obj : ∀ fd, 0 < c.rc fd → c'.obj fd = c.obj fd

theorem own_le_refs (k : Core) (fd : Nat) : own k fd ≤ refs k fd := by
  unfold refs
  cases k.saved <;> simp only [total] <;> omega

theorem own_congr {k k' : Core} (h1 : k'.style = k.style) (h2 : k'.flags 14 = k.flags 14) (h3 : k'.flags 15 = k.flags 15)
    (h4 : k'.flags 22 = k.flags 22) (h5 : k'.flags 23 = k.flags 23) (fd : Nat) : own k' fd = own k fd := by
  unfold own
  rw [h1, h2, h3, h4, h5]

theorem setter_core (ws : Bool) {c c' : Ctx} (h : CorePres ws c.core c'.core) (h1 : c'.core.style = c.core.style)
    (h2 : c'.core.flags 14 = c.core.flags 14) (h3 : c'.core.flags 15 = c.core.flags 15)
    (h4 : c'.core.flags 22 = c.core.flags 22) (h5 : c'.core.flags 23 = c.core.flags 23) (h6 : c'.rc = c.rc)
    (h7 : c'.savedCount = c.savedCount) (h8 : c'.idCounter = c.idCounter) (h9 : c'.obj = c.obj) : Setter ws c c' :=
  ⟨h, fun fd => by rw [h6, own_congr h1 h2 h3 h4 h5 fd], h7, h8, fun fd _ => by rw [h9]⟩

theorem Setter.refl (ws : Bool) {c : Ctx} (i : Inv c) : Setter ws c c :=
  setter_core ws (CorePres.refl ws i.good.good) rfl rfl rfl rfl rfl rfl rfl rfl rfl

theorem Inv.live {c : Ctx} (i : Inv c) (b : Bool) (fd : Nat) (h : Owns c.core b fd) : 0 < c.rc fd := by
  obtain ⟨hf, -, a, ho⟩ := h
  rw [i.rc]
  exact SaveRestore.live i.good b fd a hf ho

theorem Two.set_get {α} (t : Two α) (b : Bool) : t.set b (t.get b) = t := by cases b <;> rfl
theorem Two.get_set {α} (t : Two α) (b : Bool) (v : α) : (t.set b v).get b = v := by cases b <;> rfl
theorem Two.get_set_not {α} (t : Two α) (b : Bool) (v : α) : (t.set b v).get (!b) = t.get (!b) := by cases b <;> rfl

open Classical in
theorem own_eq_slot (c : Core) (b : Bool) (fd : Nat) :
    own c fd = (if Owns c b fd then 1 else 0) + (if Owns c (!b) fd then 1 else 0) := by
  rw [own_eq]
  cases b
  · rfl
  · rw [Nat.add_comm]; rfl

theorem savedStyle_style (k : Core) (b : Bool) : (savedStyle k b).style = k.style := by unfold savedStyle; split <;> rfl

/-- Setters of a style keep the books. -/
theorem setter_style (ws : Bool) {c c' : Ctx} (i : Inv c) (b : Bool) (ty : Nat) (v : Style) (f : Flags) (rc : Nat → Nat)
    (hrc : ∀ fd, rc fd + (open Classical in if Owns c.core b fd then 1 else 0) = c.rc fd)
    (hf : ∀ j, j ≠ 6 + b.toNat → j ≠ 14 + b.toNat → j ≠ 22 + b.toNat → f j = c.core.flags j)
    (hw : f (22 + b.toNat) = false)
    (hv : f (14 + b.toNat) = true → ∃ fd a, v = .object fd a ∧ c.rc fd = 0 ∧ c'.rc = fun i => if i = fd then 1 else rc i)
    (hn : f (14 + b.toNat) = false → c'.rc = rc)
    (ht : 4 ≤ ty → f (14 + b.toNat) = true)
    (hcore : c'.core = { savedStyle c.core b with flags := f, styleType := (savedStyle c.core b).styleType.set b ty
                                                  style := (savedStyle c.core b).style.set b v })
    (h7 : c'.savedCount = c.savedCount) (h8 : c'.idCounter = c.idCounter)
    (h9 : ∀ fd, 0 < c.rc fd → c'.obj fd = c.obj fd) : Setter ws c c' := by
  classical
  refine ⟨?_, ?_, h7, h8, h9⟩
  · rw [hcore]
    exact cp_style ws i.good.good b ty v f hf hw (fun h => by obtain ⟨fd, a, h, -⟩ := hv h; exact ⟨fd, a, h⟩) ht
  · intro fd
    have hother : Owns c'.core (!b) fd ↔ Owns c.core (!b) fd := by
      unfold Owns
      rw [hcore]
      simp only [Two.get_set_not, savedStyle_style]
      rw [hf (14 + (!b).toNat) (by cases b <;> simp) (by cases b <;> simp) (by cases b <;> simp),
        hf (22 + (!b).toNat) (by cases b <;> simp) (by cases b <;> simp) (by cases b <;> simp)]
    rw [own_eq_slot c.core b, own_eq_slot c'.core b]
    have hr := hrc fd
    have hsame : (if Owns c'.core (!b) fd then 1 else 0) = (if Owns c.core (!b) fd then 1 else 0 : Nat) := by
      simp [hother]
    rw [hsame]
    cases h14 : f (14 + b.toNat) with
    | false =>
      have hno : ¬ Owns c'.core b fd := by
        rintro ⟨h, -⟩
        rw [hcore] at h
        simp [h14] at h
      rw [hn h14]
      simp only [hno, if_false]
      omega
    | true =>
      obtain ⟨fd', a, hv', h0, hrc'⟩ := hv h14
      rw [hrc']
      by_cases hi : fd = fd'
      · subst hi
        have hno : Owns c'.core b fd := by
          refine ⟨by rw [hcore]; exact h14, by rw [hcore]; exact hw, a, ?_⟩
          rw [hcore]
          simp [Two.get_set, hv']
        have hle := own_le_refs c.core fd
        rw [← i.rc fd, h0, own_eq_slot c.core b] at hle
        simp only [hno, if_true]
        omega
      · have hno : ¬ Owns c'.core b fd := by
          rintro ⟨-, -, a', h⟩
          rw [hcore] at h
          simp only [Two.get_set, hv', Style.object.injEq] at h
          exact hi h.1.symm
        simp only [hno, hi, if_false]
        omega

end Blend2D.SaveRestore
