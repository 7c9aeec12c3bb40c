import Verif.SaveRestore.Quiet
import Verif.SaveRestore.Props

namespace Blend2D.SaveRestore

open Blend2D.Matrix (Mat Trig Ty Box)

/-! ### One step of a run -/

theorem run_dec {e : Env} {ws : Bool} {d d' : Nat} {c c' : Ctx} (h : Run e ws d c c') (hd : d' ≤ d) : Run e ws d' c c' := by
  induction h with
  | refl h => exact .refl (by omega)
  | step _ hl hs h ih => exact .step ih hl hs (by omega)

theorem run_trans {e : Env} {ws : Bool} {d : Nat} {c c1 c2 : Ctx} (h : Run e ws d c c1) (h' : Run e ws d c1 c2) :
    Run e ws d c c2 := by
  induction h' with
  | refl => exact h
  | step _ hl hs hd ih => exact .step ih hl hs hd

/-- What a covered call does. -/
theorem step_cases {ws : Bool} {e : Env} {c c' : Ctx} {op : Op} {r : Res} (i : Inv c) (hl : Legal ws c op)
    (hs : step e c op = some (c', r)) :
    c' = c ∨ (op.isSetter ∧ Setter ws c c') ∨
    (∃ cookie junk, (cookie = true → c.idCounter + 1 < idMax) ∧ c' = saved c cookie junk) ∨
    (∃ n, n ≤ c.core.saved.length ∧ c'.core = level n c.core ∧ Inv c' ∧ c'.idCounter = c.idCounter) := by
  cases op with
  | save cookie mem =>
    have hc : cookie = true → c.idCounter + 1 < idMax := by rintro rfl; exact hl
    simp only [SaveRestore.step] at hs
    rw [save_eq e i cookie mem hc] at hs
    split at hs
    · exact Or.inl (Prod.mk.inj (Option.some.inj hs)).1.symm
    · cases mem with
      | none => exact Or.inl (Prod.mk.inj (Option.some.inj hs)).1.symm
      | some junk => exact Or.inr (Or.inr (Or.inl ⟨cookie, junk, hc, (Prod.mk.inj (Option.some.inj hs)).1.symm⟩))
  | restore cookie =>
    simp only [SaveRestore.step] at hs
    rcases restore_spec e i cookie with ⟨-, r', -, h'⟩ | ⟨-, c'', h1, h2, h3, h4, h5⟩
    · rw [h'] at hs
      exact Or.inl (Prod.mk.inj (Option.some.inj hs)).1.symm
    · rw [h1] at hs
      obtain ⟨rfl, rfl⟩ := Prod.mk.inj (Option.some.inj hs)
      exact Or.inr (Or.inr (Or.inr ⟨_, popCount_le e c.core cookie, h2, h3, h5⟩))
  | _ =>
    obtain ⟨c'', r', h1, h2, -⟩ := step_setter ws e i _ (by exact trivial) hl
    rw [h1] at hs
    obtain ⟨rfl, rfl⟩ := Prod.mk.inj (Option.some.inj hs)
    exact Or.inr (Or.inl ⟨trivial, h2⟩)

/-! ### Cookies -/

/-- The identifiers of the saved states while `id`, on top of `ids0`, may or may not have been restored. -/
def Held (ids0 : List Nat) (id : Nat) (ids : List Nat) : Prop :=
  (∃ top, ids = top ++ id :: ids0) ∨ id ∉ ids

theorem Held.drop {ids0 : List Nat} {id : Nat} {ids : List Nat} (h : Held ids0 id ids) (h0 : id ∉ ids0) (n : Nat) :
    Held ids0 id (ids.drop n) := by
  rcases h with ⟨top, rfl⟩ | h
  · by_cases hn : n ≤ top.length
    · exact Or.inl ⟨top.drop n, List.drop_append_of_le_length hn⟩
    · right
      obtain ⟨k, rfl⟩ : ∃ k, n = top.length + (k + 1) := ⟨n - top.length - 1, by omega⟩
      rw [List.drop_append, List.drop_eq_nil_of_le (by omega), List.nil_append,
        show top.length + (k + 1) - top.length = k + 1 by omega, List.drop_succ_cons]
      exact fun h => h0 (List.mem_of_mem_drop h)
  · exact Or.inr fun h' => h (List.mem_of_mem_drop h')

theorem held_run {ws : Bool} {e : Env} {d : Nat} {c c' : Ctx} {ids0 : List Nat} {id : Nat} (hr : Run e ws d c c')
    (i : Inv c) (h0 : id ∉ ids0) (hid : id ≠ idMax) (hle : id ≤ c.idCounter) (h : Held ids0 id (idsOf c.core)) :
    Held ids0 id (idsOf c'.core) ∧ id ≤ c'.idCounter := by
  induction hr with
  | refl => exact ⟨h, hle⟩
  | @step c1 c2 op r hr1 hl hs _ ih =>
    have i1 := run_inv hr1 i
    obtain ⟨ih, ihle⟩ := ih
    rcases step_cases i1 hl hs with rfl | ⟨-, hset⟩ | ⟨cookie, junk, -, rfl⟩ | ⟨n, -, hk, -, hcn⟩
    · exact ⟨ih, ihle⟩
    · rw [hset.pres.idsOf, hset.counter]; exact ⟨ih, ihle⟩
    · refine ⟨?_, ?_⟩
      · rw [idsOf_saved]
        rcases ih with ⟨top, ht⟩ | ih
        · exact Or.inl ⟨_ :: top, by rw [ht]; rfl⟩
        · right
          rw [List.mem_cons, not_or]
          refine ⟨?_, ih⟩
          cases cookie with
          | true => simp; omega
          | false => simpa using hid
      · show id ≤ if cookie then _ else _
        cases cookie <;> simp <;> omega
    · rw [hk, idsOf_level, hcn]; exact ⟨ih.drop h0 n, ihle⟩

/-- A cookie is refused, and nothing changes, as soon as the state it was saved with has been restored, by whatever
call, and for ever after. -/
theorem C31_cookie_refused_once_restored (e : Env) (ws : Bool) {c c1 c2 c3 : Ctx} (hr : Reach e ws c)
    {mem : Option Saved} (hc : c.idCounter + 1 < idMax) (hs : save e c true mem = some (c1, .ok))
    (h12 : Run e ws 0 c1 c2) (hd : c2.core.saved.length ≤ c.core.saved.length) (h23 : Run e ws 0 c2 c3) :
    ∃ r, r ≠ .ok ∧ restore e c3 (some (cookieOf e c1)) = some (c3, r) := by
  have i := reach_inv hr
  obtain ⟨junk, rfl⟩ := save_ok i (fun _ => hc) hs
  have i1 := inv_saved i true junk (fun _ => hc)
  have hid : c.idCounter + 1 ≠ idMax := by omega
  have h0 : c.idCounter + 1 ∉ idsOf c.core := by
    intro h
    rcases i.ids _ h with h | h <;> omega
  obtain ⟨hheld, hle⟩ := held_run h12 i1 (ids0 := idsOf c.core) (id := c.idCounter + 1) h0 hid (by simp [saved])
    (Or.inl ⟨[], by rw [idsOf_saved]; rfl⟩)
  have hn : c.idCounter + 1 ∉ idsOf c2.core := by
    rcases hheld with ⟨top, ht⟩ | h
    · have := congrArg List.length ht
      simp [idsOf] at this
      omega
    · exact h
  have i2 := run_inv h12 i1
  obtain ⟨hheld, -⟩ := held_run h23 i2 (ids0 := []) (id := c.idCounter + 1) (by simp) hid hle (Or.inr hn)
  have hn3 : c.idCounter + 1 ∉ idsOf c3.core := by
    have key : ∀ {d c c'}, Run e ws d c c' → Inv c → c2.idCounter ≤ c.idCounter → (∀ id, id ≤ c2.idCounter → id ≠ idMax →
        id ∉ idsOf c.core → id ∉ idsOf c'.core) := by
      intro d c c' hr i hcm id hid' hmax hnot
      have hgo : id ∉ idsOf c'.core ∧ id ≤ c'.idCounter := by
        induction hr with
        | refl => exact ⟨hnot, by omega⟩
        | @step a b op r hr1 hl hs _ ih =>
          obtain ⟨ih, ihle⟩ := ih
          rcases step_cases (run_inv hr1 i) hl hs with rfl | ⟨-, hset⟩ | ⟨cookie, junk, -, rfl⟩ | ⟨n, -, hk, -, hcn⟩
          · exact ⟨ih, ihle⟩
          · rw [hset.pres.idsOf, hset.counter]; exact ⟨ih, ihle⟩
          · refine ⟨?_, ?_⟩
            · rw [idsOf_saved, List.mem_cons, not_or]
              refine ⟨?_, ih⟩
              cases cookie with
              | true => simp; omega
              | false => simpa using hmax
            · show id ≤ if cookie then _ else _
              cases cookie <;> simp <;> omega
          · rw [hk, idsOf_level, hcn]
            exact ⟨fun h => ih (List.mem_of_mem_drop h), ihle⟩
      exact hgo.1
    exact key h23 i2 le_rfl _ hle hid hn
  have i3 := run_inv h23 i2
  rcases restore_spec e i3 (some (cookieOf e (saved c true junk))) with ⟨-, h⟩ | ⟨h, -⟩
  · exact h
  · exfalso
    have : popCount e c3.core (some (cookieOf e (saved c true junk))) = 0 := by
      simp only [popCount, cookieOf, saved, if_true]
      exact findId_not_mem _ _ _ hn3
    omega

/-- A cookie of another context is refused and nothing changes. -/
theorem C31_foreign_cookie_refused (e : Env) (ws : Bool) {c : Ctx} (hr : Reach e ws c) (origin id : Nat)
    (h : origin ≠ e.origin) : ∃ r, r ≠ .ok ∧ restore e c (some (origin, id)) = some (c, r) := by
  rcases restore_spec e (reach_inv hr) (some (origin, id)) with ⟨-, h'⟩ | ⟨h', -⟩
  · exact h'
  · simp [popCount, h] at h'

/-- Cookies of one context differ. -/
theorem C31_cookies_differ (e : Env) (ws : Bool) {c c1 c2 c3 : Ctx} (hr : Reach e ws c) {mem mem' : Option Saved}
    (hc : c.idCounter + 1 < idMax) (hs : save e c true mem = some (c1, .ok)) (hrun : Run e ws 0 c1 c2)
    (hc' : c2.idCounter + 1 < idMax) (hs' : save e c2 true mem' = some (c3, .ok)) : cookieOf e c3 ≠ cookieOf e c1 := by
  have i := reach_inv hr
  obtain ⟨junk, rfl⟩ := save_ok i (fun _ => hc) hs
  have i1 := inv_saved i true junk (fun _ => hc)
  have i2 := run_inv hrun i1
  obtain ⟨junk', rfl⟩ := save_ok i2 (fun _ => hc') hs'
  have h0 : c.idCounter + 1 ∉ idsOf c.core := by
    intro h
    rcases i.ids _ h with h | h <;> omega
  have hle := (held_run hrun i1 (ids0 := idsOf c.core) (id := c.idCounter + 1) h0 (by omega) (by simp [saved])
    (Or.inl ⟨[], by rw [idsOf_saved]; rfl⟩)).2
  simp only [cookieOf, saved, if_true, ne_eq, Prod.mk.injEq, not_and]
  omega

/-- A state saved with a cookie is not restored by `restore()` without one. -/
theorem C31_plain_restore_needs_plain_save (e : Env) (ws : Bool) {c c1 c2 : Ctx} (hr : Reach e ws c)
    {mem : Option Saved} (hc : c.idCounter + 1 < idMax) (hs : save e c true mem = some (c1, .ok))
    (hrun : Run e ws (c.core.saved.length + 1) c1 c2) (hd : c2.core.saved.length = c.core.saved.length + 1) :
    ∃ r, r ≠ .ok ∧ restore e c2 none = some (c2, r) := by
  have i := reach_inv hr
  obtain ⟨junk, rfl⟩ := save_ok i (fun _ => hc) hs
  have ha := above_run (above_saved i true junk (fun _ => hc)) hrun
  have hids := ha.ids
  rw [hd, show c.core.saved.length + 1 - c.core.saved.length - 1 = 0 by omega, List.drop_zero] at hids
  rcases restore_spec e ha.inv none with ⟨-, h⟩ | ⟨h, -⟩
  · exact h
  · exfalso
    simp only [popCount, hids, if_true] at h
    rw [if_neg (by omega)] at h
    omega

/-- The context counts its saved states and never holds more than its limit. -/
theorem C31_saved_state_count (e : Env) (ws : Bool) {c : Ctx} (hr : Reach e ws c) :
    c.savedCount = c.core.saved.length ∧ c.savedCount ≤ e.limit := by
  have i := reach_inv hr
  refine ⟨i.count, ?_⟩
  have : ∀ {c c'}, Run e ws 0 c c' → Inv c → c.core.saved.length ≤ e.limit → c'.core.saved.length ≤ e.limit := by
    intro c c' hr i h
    induction hr with
    | refl => exact h
    | @step c1 c2 op r hr1 hl hs _ ih =>
      have i1 := run_inv hr1 i
      have hsave : ∀ cookie mem, op = .save cookie mem → c2.core.saved.length ≤ e.limit := by
        rintro cookie mem rfl
        have hc : cookie = true → c1.idCounter + 1 < idMax := by rintro rfl; exact hl
        simp only [SaveRestore.step] at hs
        rw [save_eq e i1 cookie mem hc] at hs
        split at hs
        · obtain ⟨rfl, rfl⟩ := Prod.mk.inj (Option.some.inj hs); exact ih
        · cases mem with
          | none => obtain ⟨rfl, rfl⟩ := Prod.mk.inj (Option.some.inj hs); exact ih
          | some junk =>
            obtain ⟨rfl, rfl⟩ := Prod.mk.inj (Option.some.inj hs)
            simp only [saved, List.length_cons]
            omega
      cases hop : op with
      | save cookie mem => exact hsave cookie mem hop
      | restore ck =>
        subst hop
        simp only [SaveRestore.step] at hs
        rcases restore_spec e i1 ck with ⟨-, r', -, h'⟩ | ⟨-, c', h1, h2, -⟩
        · rw [h'] at hs
          obtain ⟨rfl, rfl⟩ := Prod.mk.inj (Option.some.inj hs); exact ih
        · rw [h1] at hs
          obtain ⟨rfl, rfl⟩ := Prod.mk.inj (Option.some.inj hs)
          rw [h2, level_saved, List.length_drop]
          omega
      | _ =>
        subst hop
        obtain ⟨c', r', h1, h2, -⟩ := step_setter ws e i1 _ (by exact trivial) hl
        rw [h1] at hs
        obtain ⟨rfl, rfl⟩ := Prod.mk.inj (Option.some.inj hs)
        rw [h2.pres.length]; exact ih
  rw [i.count]
  exact this hr (inv_init e) (Nat.zero_le _)

/-! ### The clip box in pixels -/

/-- Two states whose clip boxes in pixels agree unless those of the first come from its clip box. -/
def Clips (ws : Bool) (x y : Core) : Prop :=
  forget ws x = forget ws y ∧ ((x.clipI = y.clipI ∧ x.clipFixed = y.clipFixed) ∨ PixelClip x)

theorem Clips.top {ws : Bool} {x y : Core} (h : Clips ws x y) : Clips ws (restoreTop x) (restoreTop y) := by
  refine ⟨forget_level ws 1 h.1, ?_⟩
  have hsv : x.saved = y.saved := by have := congrArg Core.saved h.1; exact this
  have hfl : x.flags = y.flags := by have := congrArg Core.flags h.1; exact this
  cases hs : y.saved with
  | nil => simp only [restoreTop, hsv, hs]; exact h.2
  | cons s rest =>
    rw [restoreTop_cons x s rest (hsv.trans hs), restoreTop_cons y s rest hs]
    cases hw : y.flags 21 with
    | true =>
      rcases h.2 with ⟨h1, h2⟩ | ⟨h1, h2⟩
      · left; simp [restored, hfl, hw, h1, h2]
      · right; unfold PixelClip; simp [restored, hfl, hw, h1, h2]
    | false => right; unfold PixelClip; simp [restored, hfl, hw]

theorem Clips.level {ws : Bool} {x y : Core} (h : Clips ws x y) (n : Nat) : Clips ws (level n x) (level n y) := by
  induction n generalizing x y with
  | zero => exact h
  | succ n ih => exact ih h.top

theorem Clips.pixel {ws : Bool} {x y : Core} (h : Clips ws x y) (hp : PixelClip y) : PixelClip x := by
  rcases h.2 with ⟨h1, h2⟩ | h2
  · have hd : x.clipD = y.clipD := by have := congrArg Core.clipD h.1; exact this
    unfold PixelClip
    rw [h1, h2, hd]
    exact hp
  · exact h2

/-- A call does not spoil the clip boxes in pixels of the saved states. -/
theorem clips_setter {ws : Bool} {c c' : Ctx} (hs : Setter ws c c')
    (hq : c'.core.flags 21 = true → c.core.flags 21 = true ∧ c'.core.clipI = c.core.clipI ∧
      c'.core.clipFixed = c.core.clipFixed) (n : Nat) (h1 : 1 ≤ n) (hn : n ≤ c.core.saved.length) :
    Clips ws (level n c'.core) (level n c.core) := by
  obtain ⟨m, rfl⟩ : ∃ m, n = m + 1 := ⟨n - 1, by omega⟩
  refine Clips.level ?_ m
  refine ⟨hs.pres.level 1 Nat.one_pos (by omega), ?_⟩
  cases hsv : c.core.saved with
  | nil => rw [hsv] at hn; simp at hn
  | cons s rest =>
    obtain ⟨s', h', -⟩ := hs.pres.cons s rest hsv
    rw [restoreTop_cons _ s' rest h', restoreTop_cons _ s rest hsv]
    cases hw : c'.core.flags 21 with
    | true =>
      obtain ⟨q1, q2, q3⟩ := hq hw
      left
      simp [restored, hw, q1, q2, q3]
    | false =>
      right
      unfold PixelClip
      simp [restored, hw]

theorem setter_clip (e : Env) {c c' : Ctx} {r : Res} (g : Good c.core) (op : Op) (hs : op.isSetter)
    (h : step e c op = some (c', r)) : c'.core.flags 21 = true → c.core.flags 21 = true ∧ c'.core.clipI = c.core.clipI ∧
      c'.core.clipFixed = c.core.clipFixed := by
  by_cases hj : op ≠ .fillJob ∧ op ≠ .strokeJob ∧ op ≠ .flush
  · exact (setter_quiet e g op hs hj h).clip
  · have hc : c'.core = c.core := by
      have : op = .fillJob ∨ op = .strokeJob ∨ op = .flush := by
        by_contra hcon; push Not at hcon; exact hj hcon
      have hf : ∀ c, (getSharedFill c).core = c.core := by intro c; unfold getSharedFill; split <;> rfl
      have hst : ∀ c, (getSharedStroke c).core = c.core := by intro c; unfold getSharedStroke; dsimp only; split <;> rfl
      rcases this with rfl | rfl | rfl <;> simp only [SaveRestore.step] at h
      · rw [← (Prod.mk.inj (Option.some.inj h)).1, hf]
      · rw [← (Prod.mk.inj (Option.some.inj h)).1, hst, hf]
      · rw [← (Prod.mk.inj (Option.some.inj h)).1]; rfl
    rw [hc]
    exact fun h => ⟨h, rfl, rfl⟩

theorem pixel_run {ws : Bool} {e : Env} {b c c' : Ctx} {id : Nat} (h : Above ws b id c)
    (hp : PixelClip (level (c.core.saved.length - b.core.saved.length) c.core))
    (hr : Run e ws (b.core.saved.length + 1) c c') :
    PixelClip (level (c'.core.saved.length - b.core.saved.length) c'.core) := by
  induction hr with
  | refl => exact hp
  | @step c1 c2 op r hr1 hl hs hd ih =>
    have ha := above_run h hr1
    have hlen := ha.len
    rcases step_cases ha.inv hl hs with rfl | ⟨hset, hst⟩ | ⟨cookie, junk, -, rfl⟩ | ⟨n, hn, hk, -, -⟩
    · exact ih
    · rw [hst.pres.length]
      exact (clips_setter hst (setter_clip e ha.inv.good.good op hset hs) _ (by omega) (by omega)).pixel ih
    · have : (saved c1 cookie junk).core.saved.length = c1.core.saved.length + 1 := by simp [saved]
      rw [this, show c1.core.saved.length + 1 - b.core.saved.length = (c1.core.saved.length - b.core.saved.length) + 1 by omega,
        level, restoreTop_saved_core]
      exact ih
    · have hl2 : c2.core.saved.length = c1.core.saved.length - n := by rw [hk, level_saved, List.length_drop]
      rw [hl2, hk, ← level_add, show n + (c1.core.saved.length - n - b.core.saved.length) =
        c1.core.saved.length - b.core.saved.length by omega]
      exact ih

/-- If the clip boxes the rasterizer uses were those of the clip box of the user at `save()`, `restore()` returns them
as well.  (They are not when the clip box does not begin or end near a pixel boundary; see the counterexample.) -/
theorem C31_restore_returns_pixel_clip_partial (e : Env) (ws : Bool) {c c1 c2 c3 : Ctx} (hr : Reach e ws c)
    (hp : PixelClip c.core) {mem : Option Saved} (hs : save e c false mem = some (c1, .ok))
    (hrun : Run e ws (c.core.saved.length + 1) c1 c2) (hd : c2.core.saved.length = c.core.saved.length + 1)
    (h3 : restore e c2 none = some (c3, .ok)) :
    c3.core.clipI = c.core.clipI ∧ c3.core.clipFixed = c.core.clipFixed := by
  have i := reach_inv hr
  obtain ⟨junk, rfl⟩ := save_ok i (by simp) hs
  have ha0 := above_saved (ws := ws) i false junk (by simp)
  have ha := above_run ha0 hrun
  have hlen : (saved c false junk).core.saved.length - c.core.saved.length = 1 := by simp [saved]
  have hpx := pixel_run ha0 (by rw [hlen, level, restoreTop_saved_core]; exact hp) hrun
  have hids := ha.ids
  rw [hd, show c.core.saved.length + 1 - c.core.saved.length - 1 = 0 by omega, List.drop_zero] at hids
  have hpop : popCount e c2.core none = 1 := by
    simp [popCount, hids]
  rcases restore_spec e ha.inv none with ⟨h0, -⟩ | ⟨-, c3', h1, h2, -⟩
  · omega
  · rw [h1] at h3
    obtain ⟨rfl, -⟩ := Prod.mk.inj (Option.some.inj h3)
    rw [hpop] at h2
    have hl := ha.lvl
    rw [hd, show c.core.saved.length + 1 - c.core.saved.length = 1 by omega, ← h2] at hl hpx
    have hcd : c3'.core.clipD = c.core.clipD := by have := congrArg Core.clipD hl; exact this
    rw [hpx.1, hpx.2, hp.1, hp.2, hcd]
    exact ⟨rfl, rfl⟩

/-! ### C42: render jobs -/

/-- The product of two linear parts. -/
def Mat2.mul (x y : Mat2) : Mat2 :=
  ⟨x.a * y.a + x.b * y.c, x.a * y.b + x.b * y.d, x.c * y.a + x.d * y.c, x.c * y.b + x.d * y.d⟩

/-- Cached states are current while the flags say so. -/
structure Fresh (c : Ctx) : Prop where
  fill : c.fillShared = true → c.fillState = some (fillNow c.core)
  stroke : c.strokeBaseShared = true → ∃ st, c.strokeState = some st ∧ st.stroke = c.core.stroke ∧
    (c.core.stroke.transformOrder ≠ 0 → c.strokeExtShared = true →
      ∃ u, st.ext = some (u, lin c.core.metaFixed) ∧ u.mul (lin c.core.metaFixed) = lin c.core.finalFixed)

theorem lin_final {k : Core} (g : Good k) : (lin k.user).mul (lin k.metaFixed) = lin k.finalFixed := by
  rw [g.finalFixed, g.metaFixed, g.finalT]
  simp only [lin, Mat2.mul, toFixed, Matrix.multiply, Mat2.mk.injEq]
  refine ⟨?_, ?_, ?_, ?_⟩ <;> ring

theorem Fresh.quiet {c c' : Ctx} (h : Fresh c) (q : Quiet c c') : Fresh c' := by
  refine ⟨?_, ?_⟩
  · intro hf
    obtain ⟨h1, h2⟩ := q.fill hf
    rw [q.fillState, h2]; exact h.fill h1
  · intro hb
    obtain ⟨h1, h2⟩ := q.base hb
    obtain ⟨st, hst, hs, he⟩ := h.stroke h1
    refine ⟨st, by rw [q.strokeState]; exact hst, by rw [h2]; exact hs, ?_⟩
    intro ht hx
    obtain ⟨h3, h4, h5⟩ := q.ext hx
    rw [h4, h5]
    exact he (by rw [← h2]; exact ht) h3

theorem Fresh.fillJob {c : Ctx} (h : Fresh c) :
    Fresh (getSharedFill c) ∧ (getSharedFill c).core = c.core ∧ (getSharedFill c).fillState = some (fillNow c.core) := by
  unfold getSharedFill
  split
  · rename_i hf
    exact ⟨h, rfl, h.fill hf⟩
  · exact ⟨⟨fun _ => rfl, h.stroke⟩, rfl, rfl⟩

theorem Fresh.strokeJob {c : Ctx} (g : Good c.core) (h : Fresh c) :
    Fresh (getSharedStroke c) ∧ (getSharedStroke c).core = c.core ∧ (getSharedStroke c).fillState = c.fillState ∧
    ∃ st, (getSharedStroke c).strokeState = some st ∧ st.stroke = c.core.stroke ∧
      (c.core.stroke.transformOrder ≠ 0 →
        ∃ u, st.ext = some (u, lin c.core.metaFixed) ∧ u.mul (lin c.core.metaFixed) = lin c.core.finalFixed) := by
  unfold getSharedStroke
  dsimp only
  split
  · rename_i hc
    simp only [Bool.and_eq_true, Bool.or_eq_true, Bool.not_eq_true', decide_eq_false_iff_not] at hc
    refine ⟨h, rfl, rfl, ?_⟩
    obtain ⟨st, h1, h2, h3⟩ := h.stroke hc.1
    refine ⟨st, h1, h2, fun ht => h3 ht ?_⟩
    rcases hc.2 with h | h
    · exact absurd ht h
    · exact h
  · have key : ∃ st, (some ⟨c.core.stroke, c.core.approx,
        if decide (c.core.stroke.transformOrder ≠ 0) = true then some (lin c.core.user, lin c.core.metaFixed) else none⟩ :
          Option SharedStroke) = some st ∧ st.stroke = c.core.stroke ∧
      (c.core.stroke.transformOrder ≠ 0 →
        ∃ u, st.ext = some (u, lin c.core.metaFixed) ∧ u.mul (lin c.core.metaFixed) = lin c.core.finalFixed) := by
      refine ⟨_, rfl, rfl, fun ht => ⟨lin c.core.user, ?_, lin_final g⟩⟩
      simp [ht]
    refine ⟨⟨h.fill, fun _ => ?_⟩, rfl, rfl, key⟩
    obtain ⟨st, h1, h2, h3⟩ := key
    exact ⟨st, h1, h2, fun ht _ => h3 ht⟩

theorem restoreRelease_shape {c c1 : Ctx} {b : Bool} (h : restoreRelease c b = some c1) : ∃ rc, c1 = { c with rc := rc } := by
  unfold restoreRelease at h
  split_ifs at h
  · exact destroy_shape h
  · exact ⟨c.rc, (Option.some.inj h).symm⟩

theorem Fresh.restoreStep {c c' : Ctx} (h : Fresh c) (hs : restoreStep c = some c') : Fresh c' := by
  unfold SaveRestore.restoreStep at hs
  cases h1 : restoreRelease c false with
  | none => rw [h1] at hs; simp at hs
  | some c1 =>
    rw [h1] at hs
    dsimp only at hs
    obtain ⟨rc1, rfl⟩ := restoreRelease_shape h1
    cases h2 : restoreRelease { c with rc := rc1 } true with
    | none => rw [h2] at hs; simp at hs
    | some c2 =>
      rw [h2] at hs
      obtain ⟨rc2, rfl⟩ := restoreRelease_shape h2
      rw [← Option.some.inj hs]
      cases hsv : c.core.saved with
      | nil =>
        have hk : restoreTop c.core = c.core := by simp [restoreTop, hsv]
        rw [hk]
        refine ⟨?_, ?_⟩
        · simp only [Bool.and_eq_true]
          exact fun hf => h.fill hf.1.1.1
        · simp only [Bool.and_eq_true]
          intro hb
          obtain ⟨st, a1, a2, a3⟩ := h.stroke hb.1.1
          exact ⟨st, a1, a2, fun ht hx => a3 ht hx.1.1⟩
      | cons s rest =>
        rw [restoreTop_cons _ s rest hsv]
        refine ⟨?_, ?_⟩
        · simp only [Bool.and_eq_true]
          rintro ⟨⟨⟨f1, f2⟩, f3⟩, f4⟩
          rw [h.fill f1]
          simp [fillNow, restored, f2, f3, f4]
        · simp only [Bool.and_eq_true]
          rintro ⟨⟨f1, f2⟩, f3⟩
          obtain ⟨st, a1, a2, a3⟩ := h.stroke f1
          refine ⟨st, a1, by simp [restored, f2, a2], ?_⟩
          rintro ht ⟨⟨f4, -⟩, -⟩
          simp only [restored, f2, f3, if_true] at ht ⊢
          exact a3 ht f4

theorem Fresh.restoreLoop {n : Nat} {c c' : Ctx} (h : Fresh c) (hs : restoreLoop n c = some c') : Fresh c' := by
  induction n generalizing c with
  | zero => rw [← Option.some.inj hs]; exact h
  | succ n ih =>
    rw [SaveRestore.restoreLoop] at hs
    cases h1 : SaveRestore.restoreStep c with
    | none => rw [h1] at hs; simp at hs
    | some c1 => rw [h1] at hs; exact ih (h.restoreStep h1) hs

theorem Fresh.restore {e : Env} {c c' : Ctx} {ck : Option (Nat × Nat)} {r : Res} (h : Fresh c)
    (hs : restore e c ck = some (c', r)) : Fresh c' := by
  have loop : ∀ n m, (SaveRestore.restoreLoop n { c with savedCount := m }).map (fun c => (c, Res.ok)) = some (c', r) → Fresh c' := by
    intro n m hm
    cases hl : SaveRestore.restoreLoop n { c with savedCount := m } with
    | none => rw [hl] at hm; simp at hm
    | some c1 =>
      rw [hl] at hm
      rw [← (Prod.mk.inj (Option.some.inj hm)).1]
      exact Fresh.restoreLoop (c := { c with savedCount := m }) ⟨h.fill, h.stroke⟩ hl
  have same : ∀ {r'}, some (c, r') = some (c', r) → Fresh c' := by
    intro r' h'
    rw [← (Prod.mk.inj (Option.some.inj h')).1]; exact h
  unfold SaveRestore.restore at hs
  split at hs
  · exact same hs
  · split at hs
    · split at hs
      · exact same hs
      · dsimp only at hs
        split at hs
        · exact same hs
        · exact loop _ _ hs
    · split at hs
      · exact same hs
      · exact loop _ _ hs

theorem fresh_step {ws : Bool} {e : Env} {c c' : Ctx} {op : Op} {r : Res} (i : Inv c) (h : Fresh c) (hl : Legal ws c op)
    (hs : step e c op = some (c', r)) : Fresh c' := by
  by_cases hj : op ≠ .fillJob ∧ op ≠ .strokeJob ∧ op ≠ .flush
  · cases op with
    | save cookie mem =>
      have hc : cookie = true → c.idCounter + 1 < idMax := by rintro rfl; exact hl
      simp only [SaveRestore.step] at hs
      rw [save_eq e i cookie mem hc] at hs
      split at hs
      · rw [← (Prod.mk.inj (Option.some.inj hs)).1]; exact h
      · cases mem with
        | none => rw [← (Prod.mk.inj (Option.some.inj hs)).1]; exact h
        | some junk => rw [← (Prod.mk.inj (Option.some.inj hs)).1]; exact ⟨h.fill, h.stroke⟩
    | restore ck => exact h.restore hs
    | _ => exact h.quiet (setter_quiet e i.good.good _ (by exact trivial) hj hs)
  · have : op = .fillJob ∨ op = .strokeJob ∨ op = .flush := by
      by_contra hcon; push Not at hcon; exact hj hcon
    rcases this with rfl | rfl | rfl <;> simp only [SaveRestore.step] at hs
    · rw [← (Prod.mk.inj (Option.some.inj hs)).1]; exact h.fillJob.1
    · rw [← (Prod.mk.inj (Option.some.inj hs)).1]
      exact (Fresh.strokeJob (by rw [h.fillJob.2.1]; exact i.good.good) h.fillJob.1).1
    · rw [← (Prod.mk.inj (Option.some.inj hs)).1]
      exact ⟨by simp [flush], by simp [flush]⟩

theorem reach_fresh {ws : Bool} {e : Env} {c : Ctx} (hr : Reach e ws c) : Fresh c := by
  unfold Reach at hr
  induction hr with
  | refl => exact ⟨by simp [init], by simp [init]⟩
  | step hr1 hl hs _ ih => exact fresh_step (reach_inv hr1) ih hl hs

/-- The state an asynchronous fill is given is the state at the time of the call, whatever calls were made before,
although the context reuses an earlier copy whenever it believes that nothing changed. -/
theorem C42_fill_job_gets_current_state (e : Env) (ws : Bool) {c c' : Ctx} {r : Res} (hr : Reach e ws c)
    (hs : step e c .fillJob = some (c', r)) :
    c'.core = c.core ∧
    c'.fillState = some { clipFixed := c.core.clipFixed, finalFixed := lin c.core.finalFixed, tolFixed := c.core.tolFixed } := by
  simp only [SaveRestore.step] at hs
  rw [← (Prod.mk.inj (Option.some.inj hs)).1]
  exact (reach_fresh hr).fillJob.2

/-- The same for an asynchronous stroke: clip box, transformation, tolerance and stroke options are those at the time of
the call; when the stroke is transformed by the user transformation first, the meta transformation is current, and the
user transformation is current whenever the meta transformation is invertible.  Missing: approximation options, which
may be those of an earlier stroke, see `C42_stroke_job_gets_stale_approximation_options`. -/
theorem C42_stroke_job_gets_current_state_partial (e : Env) (ws : Bool) {c c' : Ctx} {r : Res} (hr : Reach e ws c)
    (hs : step e c .strokeJob = some (c', r)) :
    c'.core = c.core ∧
    c'.fillState = some { clipFixed := c.core.clipFixed, finalFixed := lin c.core.finalFixed, tolFixed := c.core.tolFixed } ∧
    ∃ st, c'.strokeState = some st ∧ st.stroke = c.core.stroke ∧
      (c.core.stroke.transformOrder ≠ 0 → ∃ u, st.ext = some (u, lin c.core.metaFixed) ∧
        (c.core.metaT.m00 * c.core.metaT.m11 - c.core.metaT.m01 * c.core.metaT.m10 ≠ 0 → u = lin c.core.user)) := by
  simp only [SaveRestore.step] at hs
  rw [← (Prod.mk.inj (Option.some.inj hs)).1]
  have g := (reach_inv hr).good.good
  obtain ⟨f1, f2, f3⟩ := (reach_fresh hr).fillJob
  obtain ⟨-, s2, s3, st, s4, s5, s6⟩ := Fresh.strokeJob (by rw [f2]; exact g) f1
  rw [f2] at s2 s5 s6
  refine ⟨s2, s3.trans f3, st, s4, s5, fun ht => ?_⟩
  obtain ⟨u, hu, hm⟩ := s6 ht
  refine ⟨u, hu, fun hd => ?_⟩
  rw [← lin_final g, g.metaFixed] at hm
  obtain ⟨ua, ub, uc, ud⟩ := u
  simp only [Mat2.mul, lin, toFixed, fpScale, Mat2.mk.injEq] at hm ⊢
  obtain ⟨m1, m2, m3, m4⟩ := hm
  refine ⟨?_, ?_, ?_, ?_⟩
  · apply mul_right_cancel₀ hd
    linear_combination (c.core.metaT.m11 * m1 - c.core.metaT.m10 * m2) / 256
  · apply mul_right_cancel₀ hd
    linear_combination (c.core.metaT.m00 * m2 - c.core.metaT.m01 * m1) / 256
  · apply mul_right_cancel₀ hd
    linear_combination (c.core.metaT.m11 * m3 - c.core.metaT.m10 * m4) / 256
  · apply mul_right_cancel₀ hd
    linear_combination (c.core.metaT.m00 * m4 - c.core.metaT.m01 * m3) / 256

end Blend2D.SaveRestore
