import Verif.SaveRestore.Run

namespace Blend2D.SaveRestore

open Blend2D.Matrix (Mat Trig Ty Box)

/-! ### Invariant of all reachable states -/

theorem inv_init (e : Env) : Inv (init e) := by
  have g : Good (init e).core := by
    constructor <;> simp [init, multiply_identity, toFixed]
    intro j _ _
    show ¬ j = 28
    omega
  refine ⟨?_, ?_, rfl, ?_, by simp [idsOf, init], by simp [idsOf, init]⟩
  · intro n hn
    have : n = 0 := by simpa [init] using hn
    subst this
    exact g
  · intro fd
    simp [refs, init, total, own]
  · show 0 < idMax
    unfold idMax; omega

theorem step_inv (ws : Bool) (e : Env) {c : Ctx} (i : Inv c) (op : Op) (hl : Legal ws c op) :
    ∃ c' r, step e c op = some (c', r) ∧ Inv c' := by
  cases op with
  | save cookie mem =>
    have hc : cookie = true → c.idCounter + 1 < idMax := by rintro rfl; exact hl
    simp only [step]
    rw [save_eq e i cookie mem hc]
    split
    · exact ⟨c, _, rfl, i⟩
    · cases mem with
      | none => exact ⟨c, _, rfl, i⟩
      | some junk => exact ⟨_, _, rfl, inv_saved i cookie junk hc⟩
  | restore cookie =>
    rcases restore_spec e i cookie with ⟨-, r, -, h⟩ | ⟨-, c', h, -, h', -⟩
    · exact ⟨c, r, h, i⟩
    · exact ⟨c', .ok, h, h'⟩
  | _ =>
    obtain ⟨c', r, h1, h2, -⟩ := step_setter ws e i _ (by exact trivial) hl
    exact ⟨c', r, h1, h2.inv i⟩

theorem run_inv {ws : Bool} {e : Env} {d : Nat} {c c' : Ctx} (h : Run e ws d c c') (i : Inv c) : Inv c' := by
  induction h with
  | refl => exact i
  | step _ hl hs _ ih =>
    obtain ⟨c2, r, h1, h2⟩ := step_inv ws e ih _ hl
    rw [h1] at hs
    obtain ⟨rfl, rfl⟩ := Prod.mk.inj (Option.some.inj hs)
    exact h2

theorem reach_inv {ws : Bool} {e : Env} {c : Ctx} (h : Reach e ws c) : Inv c := run_inv h (inv_init e)

/-! ### A level is kept while only states above it change -/

/-- The state `b` of the context before `save` is still below `c`. -/
structure Above (ws : Bool) (b : Ctx) (id : Nat) (c : Ctx) : Prop where
  inv : Inv c
  len : b.core.saved.length < c.core.saved.length
  lvl : forget ws (level (c.core.saved.length - b.core.saved.length) c.core) = forget ws b.core
  obj : ∀ s fd a, b.core.flags (14 + s.toNat) = true → b.core.style.get s = .object fd a → c.obj fd = b.obj fd
  ids : (idsOf c.core).drop (c.core.saved.length - b.core.saved.length - 1) = id :: idsOf b.core

theorem Above.live {ws : Bool} {b c : Ctx} {id : Nat} (h : Above ws b id c) (s : Bool) (fd : Nat) (a : Mat ℚ)
    (hf : b.core.flags (14 + s.toNat) = true) (ho : b.core.style.get s = .object fd a) : 0 < c.rc fd := by
  have hlen : c.core.saved.length - b.core.saved.length ≤ c.core.saved.length := Nat.sub_le _ _
  have hl := h.lvl
  have e1 : (level (c.core.saved.length - b.core.saved.length) c.core).style = b.core.style := by
    have := congrArg Core.style hl
    exact this
  have e2 : (level (c.core.saved.length - b.core.saved.length) c.core).flags = b.core.flags := by
    have := congrArg Core.flags hl
    exact this
  rw [h.inv.rc]
  refine Nat.lt_of_lt_of_le ?_ (refs_level _ c.core hlen fd)
  refine SaveRestore.live ?_ s fd a (by rw [e2]; exact hf) (by rw [e1]; exact ho)
  intro m hm
  rw [level_saved, List.length_drop] at hm
  rw [← level_add]
  exact h.inv.good _ (by omega)

theorem Above.setter {ws : Bool} {b c c' : Ctx} {id : Nat} (h : Above ws b id c) (hs : Setter ws c c') : Above ws b id c' := by
  have hl := h.len
  refine ⟨hs.inv h.inv, ?_, ?_, ?_, ?_⟩
  · rw [hs.pres.length]; exact hl
  · rw [hs.pres.length, hs.pres.level _ (by omega) (by omega)]; exact h.lvl
  · intro s fd a hf ho
    rw [hs.obj fd (h.live s fd a hf ho)]
    exact h.obj s fd a hf ho
  · rw [hs.pres.length, hs.pres.idsOf]; exact h.ids

theorem Above.saved {ws : Bool} {b c : Ctx} {id : Nat} (h : Above ws b id c) (cookie : Bool) (junk : Saved)
    (hc : cookie = true → c.idCounter + 1 < idMax) : Above ws b id (saved c cookie junk) := by
  have hl := h.len
  have hlen : (SaveRestore.saved c cookie junk).core.saved.length = c.core.saved.length + 1 := by simp [SaveRestore.saved]
  refine ⟨inv_saved h.inv cookie junk hc, by rw [hlen]; omega, ?_, h.obj, ?_⟩
  · rw [hlen, show c.core.saved.length + 1 - b.core.saved.length = (c.core.saved.length - b.core.saved.length) + 1 by omega,
      level, restoreTop_saved_core]
    exact h.lvl
  · rw [hlen, idsOf_saved, show c.core.saved.length + 1 - b.core.saved.length - 1 =
      (c.core.saved.length - b.core.saved.length - 1) + 1 by omega, List.drop_succ_cons]
    exact h.ids

theorem Above.restored {ws : Bool} {b c c' : Ctx} {id : Nat} (h : Above ws b id c) (n : Nat) (hn : n ≤ c.core.saved.length)
    (hk : c'.core = level n c.core) (i : Inv c') (ho : c'.obj = c.obj) (hl : b.core.saved.length < c'.core.saved.length) :
    Above ws b id c' := by
  have hlen : c'.core.saved.length = c.core.saved.length - n := by rw [hk, level_saved, List.length_drop]
  have h0 := h.len
  refine ⟨i, hl, ?_, ?_, ?_⟩
  · rw [hlen, hk, ← level_add, show n + (c.core.saved.length - n - b.core.saved.length) =
      c.core.saved.length - b.core.saved.length by omega]
    exact h.lvl
  · rw [ho]; exact h.obj
  · rw [hlen, hk, idsOf_level, List.drop_drop, show n + (c.core.saved.length - n - b.core.saved.length - 1) =
      c.core.saved.length - b.core.saved.length - 1 by omega]
    exact h.ids

theorem above_run {ws : Bool} {e : Env} {b c c' : Ctx} {id : Nat} (h : Above ws b id c)
    (hr : Run e ws (b.core.saved.length + 1) c c') : Above ws b id c' := by
  induction hr with
  | refl => exact h
  | @step c1 c2 op r _ hl hs hd ih =>
    cases op with
    | save cookie mem =>
      have hc : cookie = true → c1.idCounter + 1 < idMax := by rintro rfl; exact hl
      simp only [SaveRestore.step] at hs
      rw [save_eq e ih.inv cookie mem hc] at hs
      split at hs
      · obtain ⟨rfl, rfl⟩ := Prod.mk.inj (Option.some.inj hs); exact ih
      · cases mem with
        | none => obtain ⟨rfl, rfl⟩ := Prod.mk.inj (Option.some.inj hs); exact ih
        | some junk =>
          obtain ⟨rfl, rfl⟩ := Prod.mk.inj (Option.some.inj hs)
          exact ih.saved cookie junk hc
    | restore cookie =>
      simp only [SaveRestore.step] at hs
      rcases restore_spec e ih.inv cookie with ⟨-, r', -, h'⟩ | ⟨-, c', h1, h2, h3, h4, -⟩
      · rw [h'] at hs
        obtain ⟨rfl, rfl⟩ := Prod.mk.inj (Option.some.inj hs); exact ih
      · rw [h1] at hs
        obtain ⟨rfl, rfl⟩ := Prod.mk.inj (Option.some.inj hs)
        exact ih.restored _ (popCount_le e c1.core cookie) h2 h3 h4 (by omega)
    | _ =>
      obtain ⟨c', r', h1, h2, -⟩ := step_setter ws e ih.inv _ (by exact trivial) hl
      rw [h1] at hs
      obtain ⟨rfl, rfl⟩ := Prod.mk.inj (Option.some.inj hs)
      exact ih.setter h2

/-- The state right after `save`. -/
theorem above_saved {ws : Bool} {c : Ctx} (i : Inv c) (cookie : Bool) (junk : Saved)
    (hc : cookie = true → c.idCounter + 1 < idMax) :
    Above ws c (if cookie then c.idCounter + 1 else idMax) (saved c cookie junk) := by
  have hlen : (saved c cookie junk).core.saved.length = c.core.saved.length + 1 := by simp [saved]
  refine ⟨inv_saved i cookie junk hc, by rw [hlen]; omega, ?_, fun _ _ _ _ _ => rfl, ?_⟩
  · rw [hlen, show c.core.saved.length + 1 - c.core.saved.length = 1 by omega, level, restoreTop_saved_core]; rfl
  · rw [hlen, show c.core.saved.length + 1 - c.core.saved.length - 1 = 0 by omega, idsOf_saved]; rfl

theorem save_ok {e : Env} {c c1 : Ctx} (i : Inv c) {cookie : Bool} {mem : Option Saved}
    (hc : cookie = true → c.idCounter + 1 < idMax) (h : save e c cookie mem = some (c1, .ok)) :
    ∃ junk, c1 = saved c cookie junk := by
  rw [save_eq e i cookie mem hc] at h
  split at h
  · simp at h
  · cases mem with
    | none => simp at h
    | some junk => exact ⟨junk, (Prod.mk.inj (Option.some.inj h)).1.symm⟩

theorem visible_eq {ws : Bool} {b c : Ctx} (h : forget ws c.core = forget ws b.core)
    (ho : ∀ s fd a, b.core.flags (14 + s.toNat) = true → b.core.style.get s = .object fd a → c.obj fd = b.obj fd) :
    visible c = visible b ∧ c.core.saved = b.core.saved ∧ (ws = true → c.core.stroke = b.core.stroke) := by
  simp only [forget, Core.mk.injEq] at h
  obtain ⟨h1, h2, h3, h4, h5, h6, h7, h8, h9, h10, h11, h12, h13, h14, h15, h16, h17, h18, h19, h20, h21, h22, -, -, h23⟩ := h
  have hv : ∀ s, styleView c s = styleView b s := by
    intro s
    unfold styleView
    rw [h5, h7]
    have := ho s
    cases hst : b.core.style.get s with
    | solid v => rfl
    | object fd a =>
      cases hf : b.core.flags (14 + s.toNat) with
      | false => rfl
      | true => simp only [if_true, ho s fd a hf hst]
  refine ⟨?_, h23, ?_⟩
  · unfold visible
    rw [hv false, hv true, h1, h2, h3, h4, h6, h7, h8, h9, h10, h11, h12, h13, h14, h15, h17, h18, h19, h20, h21, h22]
  · rintro rfl
    simpa using h16

/-! ### C31 -/

/-- After `save()` without a cookie, any calls that leave the saved state in place, and as many `restore()` as there
were further `save()`, one more `restore()` succeeds and returns everything the user sees to what it was at `save()`.
`ws` tells whether stroke options are covered; see `Legal` for the excluded calls. -/
theorem C31_restore_returns_saved_state_partial (e : Env) (ws : Bool) {c c1 c2 : Ctx} (hr : Reach e ws c)
    {mem : Option Saved} (hs : save e c false mem = some (c1, .ok))
    (hrun : Run e ws (c.core.saved.length + 1) c1 c2) (hd : c2.core.saved.length = c.core.saved.length + 1) :
    ∃ c3, restore e c2 none = some (c3, .ok) ∧ visible c3 = visible c ∧ c3.savedCount = c.savedCount ∧
      (ws = true → c3.core.stroke = c.core.stroke) := by
  have i := reach_inv hr
  obtain ⟨junk, rfl⟩ := save_ok i (by simp) hs
  have ha := above_run (above_saved i false junk (by simp)) hrun
  have hids := ha.ids
  rw [hd, show c.core.saved.length + 1 - c.core.saved.length - 1 = 0 by omega, List.drop_zero] at hids
  have hp : popCount e c2.core none = 1 := by
    simp [popCount, hids]
  rcases restore_spec e ha.inv none with ⟨h0, -⟩ | ⟨-, c3, h1, h2, h3, h4, h5⟩
  · omega
  · rw [hp] at h2
    have hl := ha.lvl
    rw [hd, show c.core.saved.length + 1 - c.core.saved.length = 1 by omega, ← h2] at hl
    obtain ⟨v1, v2, v3⟩ := visible_eq hl (by rw [h4]; exact ha.obj)
    exact ⟨c3, h1, v1, by rw [h3.count, i.count, v2], v3⟩

/-- After `save(cookie)` and any calls that leave the saved state in place, `restore(cookie)` succeeds however many
states were saved in between, and returns everything the user sees to what it was at `save(cookie)`. -/
theorem C31_restore_cookie_returns_saved_state_partial (e : Env) (ws : Bool) {c c1 c2 : Ctx} (hr : Reach e ws c)
    {mem : Option Saved} (hc : c.idCounter + 1 < idMax) (hs : save e c true mem = some (c1, .ok))
    (hrun : Run e ws (c.core.saved.length + 1) c1 c2) :
    ∃ c3, restore e c2 (some (cookieOf e c1)) = some (c3, .ok) ∧ visible c3 = visible c ∧
      c3.savedCount = c.savedCount ∧ (ws = true → c3.core.stroke = c.core.stroke) := by
  have i := reach_inv hr
  obtain ⟨junk, rfl⟩ := save_ok i (fun _ => hc) hs
  have ha := above_run (above_saved i true junk (fun _ => hc)) hrun
  have hids := ha.ids
  have hlen := ha.len
  simp only [if_true] at hids
  have hsplit := List.take_append_drop (c2.core.saved.length - c.core.saved.length - 1) (idsOf c2.core)
  rw [hids] at hsplit
  have hgt : ∀ x ∈ (idsOf c2.core).take (c2.core.saved.length - c.core.saved.length - 1), c.idCounter + 1 < x := by
    intro x hx
    have ho := ha.inv.order
    rw [← hsplit] at ho
    have := (List.pairwise_append.mp ho).2.2 x hx (c.idCounter + 1) (by simp)
    rcases this with h | h | h <;> omega
  have hlt : ((idsOf c2.core).take (c2.core.saved.length - c.core.saved.length - 1)).length =
      c2.core.saved.length - c.core.saved.length - 1 := by
    rw [List.length_take]; simp [idsOf]; omega
  have hp : popCount e c2.core (some (cookieOf e (saved c true junk))) = c2.core.saved.length - c.core.saved.length := by
    simp only [popCount, cookieOf, saved, if_true]
    rw [← hsplit, findId_append _ _ _ _ hgt, hlt]
    omega
  rcases restore_spec e ha.inv (some (cookieOf e (saved c true junk))) with ⟨h0, -⟩ | ⟨-, c3, h1, h2, h3, h4, h5⟩
  · omega
  · rw [hp] at h2
    have hl := ha.lvl
    rw [← h2] at hl
    obtain ⟨v1, v2, v3⟩ := visible_eq hl (by rw [h4]; exact ha.obj)
    exact ⟨c3, h1, v1, by rw [h3.count, i.count, v2], v3⟩

/-- No covered call is undefined behaviour: no state is written into a missing saved state, and no gradient or pattern
is used or released after it was destroyed. -/
theorem C31_no_undefined_behaviour_partial (e : Env) (ws : Bool) {c : Ctx} (hr : Reach e ws c) (op : Op)
    (hl : Legal ws c op) : (step e c op).isSome = true ∧
      ∀ (b : Bool) fd a, 4 ≤ c.core.styleType.get b → c.core.style.get b = .object fd a → 0 < c.rc fd := by
  have i := reach_inv hr
  obtain ⟨c', r, h, -⟩ := step_inv ws e i op hl
  refine ⟨by rw [h]; rfl, ?_⟩
  intro b fd a ht ho
  rw [i.rc]
  refine live i.good b fd a ?_ ho
  cases b with
  | false => exact i.good.good.typeF ht
  | true => exact i.good.good.typeS ht

/-- A call that reports an error changes nothing the user sees. -/
theorem C31_refused_call_changes_nothing_partial (e : Env) (ws : Bool) {c c' : Ctx} (hr : Reach e ws c) {op : Op} {r : Res}
    (hl : Legal ws c op) (hs : step e c op = some (c', r)) (h : r ≠ .ok) :
    visible c' = visible c ∧ c'.core.stroke = c.core.stroke ∧ c'.savedCount = c.savedCount ∧
      c'.core.clipI = c.core.clipI ∧ c'.core.clipFixed = c.core.clipFixed := by
  have i := reach_inv hr
  have key : Refused c c' := by
    cases op with
    | save cookie mem =>
      have hc : cookie = true → c.idCounter + 1 < idMax := by rintro rfl; exact hl
      simp only [SaveRestore.step] at hs
      rw [save_eq e i cookie mem hc] at hs
      split at hs
      · obtain ⟨rfl, rfl⟩ := Prod.mk.inj (Option.some.inj hs); exact Refused.refl _
      · cases mem with
        | none => obtain ⟨rfl, rfl⟩ := Prod.mk.inj (Option.some.inj hs); exact Refused.refl _
        | some junk =>
          obtain ⟨rfl, rfl⟩ := Prod.mk.inj (Option.some.inj hs)
          exact absurd rfl h
    | restore cookie =>
      simp only [SaveRestore.step] at hs
      rcases restore_spec e i cookie with ⟨-, r', -, h'⟩ | ⟨-, c', h1, -⟩
      · rw [h'] at hs
        obtain ⟨rfl, rfl⟩ := Prod.mk.inj (Option.some.inj hs); exact Refused.refl _
      · rw [h1] at hs
        obtain ⟨rfl, rfl⟩ := Prod.mk.inj (Option.some.inj hs)
        exact absurd rfl h
    | _ =>
      obtain ⟨c'', r', h1, -, h2⟩ := step_setter ws e i _ (by exact trivial) hl
      rw [h1] at hs
      obtain ⟨rfl, rfl⟩ := Prod.mk.inj (Option.some.inj hs)
      exact h2 h
  obtain ⟨l, rfl⟩ := key
  exact ⟨rfl, rfl, rfl, rfl, rfl⟩

end Blend2D.SaveRestore
