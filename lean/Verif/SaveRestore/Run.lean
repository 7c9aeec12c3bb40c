import Verif.SaveRestore.Steps

namespace Blend2D.SaveRestore

open Blend2D.Matrix (Mat Trig Ty Box)

theorem CorePres.idsOf {ws : Bool} {k k' : Core} (h : CorePres ws k k') : idsOf k' = idsOf k := by
  unfold SaveRestore.idsOf
  cases hs : k.saved with
  | nil => rw [h.nil hs]
  | cons s rest => obtain ⟨s', h', -, hi, -⟩ := h.cons s rest hs; rw [h']; simp [hi]

theorem Setter.inv {ws : Bool} {c c' : Ctx} (h : Setter ws c c') (i : Inv c) : Inv c' := by
  refine ⟨h.pres.allGood i.good, fun fd => ?_, ?_, ?_, ?_, ?_⟩
  · have h1 := h.rc fd
    have h2 := h.pres.refs fd
    have h3 := i.rc fd
    omega
  · rw [h.count, i.count, h.pres.length]
  · rw [h.counter]; exact i.counter
  · rw [h.pres.idsOf, h.counter]; exact i.ids
  · rw [h.pres.idsOf]; exact i.order

/-! ### `save` -/

/-- The state after a successful `save`. -/
def saved (c : Ctx) (cookie : Bool) (junk : Saved) : Ctx :=
  { c with
    core := { c.core with
      saved := { saveCoreState c.core junk with stateId := if cookie then c.idCounter + 1 else idMax } :: c.core.saved
      flags := c.core.flags.set weakAll }
    savedCount := c.savedCount + 1
    idCounter := if cookie then c.idCounter + 1 else c.idCounter }

theorem restoreTop_saved_core (c : Ctx) (cookie : Bool) (junk : Saved) : restoreTop (saved c cookie junk).core = c.core := by
  rw [restoreTop_cons _ _ _ rfl]
  simp [restored, saved, weakAll, saveCoreState]

theorem idsOf_saved (c : Ctx) (cookie : Bool) (junk : Saved) :
    idsOf (saved c cookie junk).core = (if cookie then c.idCounter + 1 else idMax) :: idsOf c.core := by
  simp [idsOf, saved]

theorem good_saved {c : Ctx} (g : Good c.core) (cookie : Bool) (junk : Saved) : Good (saved c cookie junk).core := by
  unfold saved
  refine ⟨g.tol, g.finalT, g.metaFixed, g.finalFixed, ?_, ?_, ?_, ?_, ?_, ?_, ?_, ?_, ?_, ?_⟩
  · simp [weakAll]
  · simp
  · simpa [weakAll] using g.fetchF
  · simpa [weakAll] using g.fetchS
  · simpa [weakAll] using g.typeF
  · simpa [weakAll] using g.typeS
  · rintro s rest h _
    obtain ⟨rfl, rfl⟩ := List.cons.inj h
    simp [weakAll, saveCoreState]
  · rintro s rest h _
    obtain ⟨rfl, rfl⟩ := List.cons.inj h
    simp [weakAll, saveCoreState]
  · simpa [weakAll] using g.b13
  · simpa [weakAll] using g.b16

theorem inv_saved {c : Ctx} (i : Inv c) (cookie : Bool) (junk : Saved) (h : cookie = true → c.idCounter + 1 < idMax) :
    Inv (saved c cookie junk) := by
  refine ⟨?_, ?_, ?_, ?_, ?_, ?_⟩
  · intro n hn
    cases n with
    | zero => exact good_saved i.good.good cookie junk
    | succ n =>
      rw [level, restoreTop_saved_core]
      exact i.good n (by simpa [saved] using hn)
  · intro fd
    have h1 : own (saved c cookie junk).core fd = 0 := by simp [own, saved, weakAll]
    show c.rc fd = total (_ :: c.core.saved) (saved c cookie junk).core fd
    rw [total, h1, restoreTop_saved_core, i.rc]
    simp
  · simp [saved, i.count]
  · show (if cookie then _ else _) < _
    have := i.counter
    cases cookie with
    | true => exact h rfl
    | false => exact this
  · rw [idsOf_saved]
    intro x hx
    show x = idMax ∨ x ≤ (if cookie then _ else _)
    rcases List.mem_cons.mp hx with rfl | hx
    · cases cookie <;> simp
    · rcases i.ids x hx with h | h
      · exact Or.inl h
      · right; cases cookie <;> simp <;> omega
  · rw [idsOf_saved]
    refine List.Pairwise.cons ?_ i.order
    intro x hx
    cases cookie with
    | false => exact Or.inl rfl
    | true =>
      rcases i.ids x hx with h | h
      · exact Or.inr (Or.inl h)
      · right; right; simp; omega

theorem save_eq (e : Env) {c : Ctx} (i : Inv c) (cookie : Bool) (mem : Option Saved) (h : cookie = true → c.idCounter + 1 < idMax) :
    save e c cookie mem =
      if c.core.saved.length ≥ e.limit then some (c, .tooManySavedStates)
      else match mem with
        | none => some (c, .outOfMemory)
        | some junk => some (saved c cookie junk, .ok) := by
  unfold save
  rw [i.count]
  split
  · rfl
  · cases mem with
    | none => rfl
    | some junk =>
      cases cookie with
      | false => simp [saved, i.count]
      | true =>
        have h1 := h rfl
        have : (c.idCounter + 1) % 2 ^ 64 = c.idCounter + 1 := Nat.mod_eq_of_lt (by unfold idMax at h1; omega)
        simp only [if_true, this]
        simp [saved, i.count]

/-! ### `restore` -/

open Classical in
theorem restoreRelease_spec {c : Ctx} (g : Good c.core) (b : Bool) (live : ∀ fd, Owns c.core b fd → 0 < c.rc fd) :
    ∃ rc, restoreRelease c b = some { c with rc := rc } ∧ ∀ fd, rc fd + (if Owns c.core b fd then 1 else 0) = c.rc fd := by
  have hb1 : slotBit Bit.fetchBase b = 14 + b.toNat := by cases b <;> rfl
  have hb2 : slotBit Bit.weakBaseStyle b = 22 + b.toNat := by cases b <;> rfl
  unfold restoreRelease
  rw [hb1, hb2]
  cases hw : c.core.flags (22 + b.toNat) with
  | true => exact ⟨c.rc, by simp, fun fd => by simp [Owns, hw]⟩
  | false =>
    cases hf : c.core.flags (14 + b.toNat) with
    | false => exact ⟨c.rc, by simp, fun fd => by simp [Owns, hf]⟩
    | true =>
      obtain ⟨fd, a, ho⟩ : ∃ fd a, c.core.style.get b = .object fd a := by
        cases b with
        | false => exact g.fetchF hf
        | true => exact g.fetchS hf
      have hl := live fd ⟨hf, hw, a, ho⟩
      refine ⟨fun i => if i = fd then c.rc i - 1 else c.rc i, ?_, fun i => ?_⟩
      · simp [destroyStyle, ho, release]
        omega
      · by_cases hi : i = fd
        · subst hi
          have : Owns c.core b i := ⟨hf, hw, a, ho⟩
          simp [this]
          omega
        · have : ¬ Owns c.core b i := by
            rintro ⟨-, -, a', h'⟩
            rw [ho] at h'
            exact hi (by simpa using (Style.object.inj h').1.symm)
          simp [this, hi]

theorem restoreStep_spec {c : Ctx} (g : AllGood c.core) (hrc : ∀ fd, c.rc fd = refs c.core fd) (s : Saved) (rest : List Saved)
    (hs : c.core.saved = s :: rest) :
    ∃ c', restoreStep c = some c' ∧ c'.core = restoreTop c.core ∧ (∀ fd, c'.rc fd = refs (restoreTop c.core) fd) ∧
      c'.obj = c.obj ∧ c'.savedCount = c.savedCount ∧ c'.idCounter = c.idCounter := by
  classical
  have hle : ∀ fd, own c.core fd ≤ c.rc fd := fun fd => by rw [hrc]; exact own_le_refs _ _
  obtain ⟨rc1, h1, h1'⟩ := restoreRelease_spec g.good false (fun fd h => by
    have := hle fd
    rw [own_eq] at this
    simp only [h, if_true] at this
    omega)
  obtain ⟨rc2, h2, h2'⟩ := restoreRelease_spec (c := { c with rc := rc1 }) g.good true (fun fd h => by
    have := hle fd
    have := h1' fd
    rw [own_eq] at *
    have h' : Owns c.core true fd := h
    simp only [h', if_true] at *
    show 0 < rc1 fd
    omega)
  unfold restoreStep
  rw [h1]
  dsimp only
  rw [h2]
  refine ⟨_, rfl, rfl, fun fd => ?_, rfl, rfl, rfl⟩
  show rc2 fd = _
  have e1 := h1' fd
  have e2 := h2' fd
  have e3 := hrc fd
  have e4 := own_eq c.core fd
  unfold refs at e3 ⊢
  have h3 : (restoreTop c.core).saved = rest := by rw [restoreTop_saved, hs]; rfl
  rw [hs, total] at e3
  rw [h3]
  simp only at e2
  omega

theorem restoreLoop_spec (n : Nat) {c : Ctx} (g : AllGood c.core) (hrc : ∀ fd, c.rc fd = refs c.core fd)
    (hn : n ≤ c.core.saved.length) :
    ∃ c', restoreLoop n c = some c' ∧ c'.core = level n c.core ∧ (∀ fd, c'.rc fd = refs c'.core fd) ∧
      c'.obj = c.obj ∧ c'.savedCount = c.savedCount ∧ c'.idCounter = c.idCounter := by
  induction n generalizing c with
  | zero => exact ⟨c, rfl, rfl, hrc, rfl, rfl, rfl⟩
  | succ n ih =>
    cases hs : c.core.saved with
    | nil => rw [hs] at hn; simp at hn
    | cons s rest =>
      obtain ⟨c1, h1, h2, h3, h4, h5, h6⟩ := restoreStep_spec g hrc s rest hs
      have hl : (restoreTop c.core).saved.length = rest.length := by rw [restoreTop_saved, hs]; rfl
      have g1 : AllGood c1.core := by
        intro m hm
        rw [h2] at hm ⊢
        exact g (m + 1) (by rw [hs]; simp; omega)
      obtain ⟨c2, k1, k2, k3, k4, k5, k6⟩ := ih g1 (by rw [h2]; exact h3) (by rw [h2, hl]; rw [hs] at hn; simpa using hn)
      refine ⟨c2, ?_, ?_, k3, k4.trans h4, k5.trans h5, k6.trans h6⟩
      · rw [restoreLoop, h1]; exact k1
      · rw [k2, h2]; rfl

theorem idsOf_level (n : Nat) (k : Core) : idsOf (level n k) = (idsOf k).drop n := by
  unfold idsOf
  rw [level_saved, List.map_drop]

/-- The state after restoring `n` levels. -/
theorem restored_inv {c c' : Ctx} (i : Inv c) (n : Nat) (hn : n ≤ c.core.saved.length)
    (h1 : c'.core = level n c.core) (h2 : ∀ fd, c'.rc fd = refs c'.core fd) (h3 : c'.savedCount = c.savedCount - n)
    (h4 : c'.idCounter = c.idCounter) : Inv c' := by
  refine ⟨?_, h2, ?_, ?_, ?_, ?_⟩
  · intro m hm
    rw [h1, level_saved] at hm
    rw [h1, ← level_add]
    exact i.good (n + m) (by simp at hm; omega)
  · rw [h3, h1, level_saved, i.count]; simp
  · rw [h4]; exact i.counter
  · rw [h1, idsOf_level, h4]
    intro x hx
    exact i.ids x (List.mem_of_mem_drop hx)
  · rw [h1, idsOf_level]
    exact i.order.sublist (List.drop_sublist _ _)

/-- Number of levels a cookie restores, by the identifiers. -/
def findId (id : Nat) : Nat → List Nat → Nat
  | _, [] => 0
  | n, x :: rest => if x ≤ id then (if x = id then n else 0) else findId id (n + 1) rest

theorem numStates_eq (id n : Nat) (l : List Saved) : numStatesToRestore id n l = findId id n (l.map Saved.stateId) := by
  induction l generalizing n with
  | nil => rfl
  | cons s rest ih => simp only [numStatesToRestore, List.map, findId, ih]

theorem findId_le (id n : Nat) (l : List Nat) : findId id n l ≤ n + l.length - 1 := by
  induction l generalizing n with
  | nil => simp [findId]
  | cons x rest ih =>
    simp only [findId, List.length_cons]
    have := ih (n + 1)
    split_ifs <;> omega

theorem findId_append (id n : Nat) (top rest : List Nat) (h : ∀ x ∈ top, id < x) :
    findId id n (top ++ id :: rest) = n + top.length := by
  induction top generalizing n with
  | nil => simp [findId]
  | cons x t ih =>
    have hx := h x (by simp)
    simp only [List.cons_append, findId]
    rw [if_neg (by omega), ih (n + 1) (fun y hy => h y (by simp [hy]))]
    simp; omega

theorem findId_not_mem (id n : Nat) (l : List Nat) (h : id ∉ l) : findId id n l = 0 := by
  induction l generalizing n with
  | nil => rfl
  | cons x t ih =>
    simp only [List.mem_cons, not_or] at h
    simp only [findId]
    rw [ih (n + 1) h.2, if_neg (Ne.symm h.1)]
    simp

/-- How many states a call of `restore` pops; 0 when it is refused. -/
def popCount (e : Env) (k : Core) : Option (Nat × Nat) → Nat
  | some (origin, id) => if origin = e.origin then findId id 1 (idsOf k) else 0
  | none => match idsOf k with
    | [] => 0
    | x :: _ => if x = idMax then 1 else 0

theorem popCount_le (e : Env) (k : Core) (cookie : Option (Nat × Nat)) : popCount e k cookie ≤ k.saved.length := by
  cases cookie with
  | none =>
    unfold popCount idsOf
    cases k.saved with
    | nil => simp
    | cons s rest => simp; split <;> omega
  | some ck =>
    obtain ⟨o, id⟩ := ck
    simp only [popCount]
    split
    · have := findId_le id 1 (idsOf k)
      unfold idsOf at *
      simp at this
      exact this
    · exact Nat.zero_le _

theorem restore_spec (e : Env) {c : Ctx} (i : Inv c) (cookie : Option (Nat × Nat)) :
    (popCount e c.core cookie = 0 ∧ ∃ r, r ≠ .ok ∧ restore e c cookie = some (c, r)) ∨
    (0 < popCount e c.core cookie ∧ ∃ c', restore e c cookie = some (c', .ok) ∧
      c'.core = level (popCount e c.core cookie) c.core ∧ Inv c' ∧ c'.obj = c.obj ∧ c'.idCounter = c.idCounter) := by
  have key : ∀ n, n ≤ c.core.saved.length → ∃ c', restoreLoop n { c with savedCount := c.savedCount - n } = some c' ∧
      c'.core = level n c.core ∧ Inv c' ∧ c'.obj = c.obj ∧ c'.idCounter = c.idCounter := by
    intro n hn
    obtain ⟨c', h1, h2, h3, h4, h5, h6⟩ := restoreLoop_spec n (c := { c with savedCount := c.savedCount - n }) i.good i.rc hn
    exact ⟨c', h1, h2, restored_inv i n hn h2 h3 h5 h6, h4, h6⟩
  cases hs : c.core.saved with
  | nil =>
    left
    constructor
    · have := popCount_le e c.core cookie
      rw [hs] at this
      simpa using this
    · exact ⟨.noStatesToRestore, by simp, by unfold restore; rw [hs]⟩
  | cons s rest =>
    cases cookie with
    | none =>
      have hp : popCount e c.core none = if s.stateId = idMax then 1 else 0 := by simp [popCount, idsOf, hs]
      by_cases hid : s.stateId = idMax
      · right
        rw [hp, if_pos hid]
        obtain ⟨c', h1, h2⟩ := key 1 (by simp [hs])
        refine ⟨by omega, c', ?_, h2⟩
        unfold restore
        simp [hs, hid, h1]
      · left
        rw [hp, if_neg hid]
        exact ⟨rfl, .noMatchingCookie, by simp, by unfold restore; simp [hs, hid]⟩
    | some ck =>
      obtain ⟨o, id⟩ := ck
      by_cases ho : o = e.origin
      · have hp : popCount e c.core (some (o, id)) = numStatesToRestore id 1 c.core.saved := by
          simp [popCount, ho, numStates_eq, idsOf]
        by_cases h0 : numStatesToRestore id 1 c.core.saved = 0
        · left
          refine ⟨hp.trans h0, .noMatchingCookie, by simp, ?_⟩
          unfold restore
          rw [hs] at h0
          simp [hs, ho, h0]
        · right
          rw [hp]
          obtain ⟨c', h1, h2⟩ := key (numStatesToRestore id 1 c.core.saved) (by rw [← hp]; exact popCount_le e c.core _)
          refine ⟨by omega, c', ?_, h2⟩
          unfold restore
          rw [hs] at h0 h1
          simp [hs, ho, h0, h1]
      · left
        exact ⟨by simp [popCount, ho], .noMatchingCookie, by simp, by unfold restore; simp [hs, ho]⟩

end Blend2D.SaveRestore
