import Verif.Async.Cmd

/-! # All workers -/

namespace Blend2D.Async
open Draw Draw.Spec Raster Raster.Spec Spec

variable {P : Type} {E : Env}

/-- Worker `i` between two bands. -/
structure WOk (E : Env) (cmds : List (Cmd P)) (i : Nat) (w : Worker) : Prop where
  cur : ∃ j, w.cur = i + j * E.workers ∧ (if j = 0 then w.prev = w.cur else w.prev + E.workers = w.cur)
  cmds : ∃ k : Nat, w.prevFy E = 256 * (k : Int) - 1 ∧ k ≤ w.cur * E.bh ∧ List.Forall₂ (fun c s => StOk E c k s) cmds w.cmds
  bufs : Clean E.w E.bh w.bufs

theorem start_ok {cmds : List (Cmd P)} (hc : ∀ c ∈ cmds, CmdOk E c) {b : Bufs} (hb : Clean E.w E.bh b) (i : Nat) :
    WOk E cmds i (Worker.start i cmds b) := by
  refine ⟨⟨0, by simp [Worker.start], by simp [Worker.start]⟩, ⟨0, by simp [Worker.prevFy, Worker.start], Nat.zero_le _, ?_⟩, hb⟩
  show List.Forall₂ _ cmds (cmds.map fun _ => (⟨true, none⟩ : CmdSt))
  clear hc
  induction cmds with
  | nil => exact .nil
  | cons c cs ih => exact .cons ⟨fun _ h => by omega, by simp⟩ ih

theorem WOk.mod {cmds : List (Cmd P)} {i : Nat} {w : Worker} (h : WOk E cmds i w) (hi : i < E.workers) : w.cur % E.workers = i := by
  obtain ⟨j, hj, _⟩ := h.cur
  rw [hj, Nat.add_mul_mod_self_right, Nat.mod_eq_of_lt hi]

theorem step_ok {cmds : List (Cmd P)} (hc : ∀ c ∈ cmds, CmdOk E c) {i : Nat} (hi : i < E.workers) {w : Worker} (h : WOk E cmds i w)
    {img : List (List P)} (hm : ImgOk E img) :
    ∃ w' img', w.step E cmds img = some (w', img') ∧ WOk E cmds i w' ∧ ImgOk E img' ∧
      ((E.bands ≤ w.cur ∧ w' = w ∧ img' = img) ∨
        (w.cur < E.bands ∧ w'.cur = w.cur + E.workers ∧ BandImg E w.cur (paintAll cmds) img img')) := by
  obtain ⟨⟨j, h1, h2⟩, ⟨k, h3, h4, h5⟩, h6⟩ := h
  unfold Worker.step
  by_cases c : w.cur < E.bands
  · rw [if_pos c, h3]
    obtain ⟨ss', b', img', e1, e2, e3, e4⟩ := processBand_ok c h4 cmds w.cmds w.bufs img hc h5 h6 hm
    simp only [e1, Option.bind_eq_bind, Option.bind_some]
    refine ⟨_, _, rfl, ⟨⟨j + 1, ?_, ?_⟩, ⟨(w.cur + 1) * E.bh, ?_, ?_, e2⟩, e3⟩, e4.ok hm (paintAll_length cmds), Or.inr ⟨c, rfl, e4⟩⟩
    · show w.cur + E.workers = _
      rw [Nat.succ_mul, h1]
      omega
    · rw [if_neg (by omega)]
    · unfold Worker.prevFy
      simp only []
      rw [if_neg (by omega)]
    · exact Nat.mul_le_mul_right _ (show w.cur + 1 ≤ w.cur + E.workers by omega)
  · rw [if_neg c]
    exact ⟨_, _, rfl, ⟨⟨j, h1, h2⟩, ⟨k, h3, h4, h5⟩, h6⟩, hm, Or.inl ⟨by omega, rfl, rfl⟩⟩

/-- Every band that a worker has handled is painted by all commands, every other one is as it was. -/
def Progress (E : Env) (cmds : List (Cmd P)) (img0 : List (List P)) (ws : List Worker) (img : List (List P)) : Prop :=
  ∀ (y : Nat) row w, img0[y]? = some row → ws[y / E.bh % E.workers]? = some w →
    img[y]? = some (if y / E.bh < w.cur then paintAll cmds y row else row)

/-- The state of all workers and the image. -/
structure RunOk (E : Env) (cmds : List (Cmd P)) (img0 : List (List P)) (ws : List Worker) (img : List (List P)) : Prop where
  len : ws.length = E.workers
  same : img.length = img0.length
  progress : Progress E cmds img0 ws img
  each : ∀ (i : Nat) w, ws[i]? = some w → WOk E cmds i w
  size : ImgOk E img

theorem mod_gap {a b n : Nat} (hn : 0 < n) (h : a % n = b % n) (hlt : a < b) : a + n ≤ b := by
  have h1 := Nat.div_add_mod a n
  have h2 := Nat.div_add_mod b n
  have h3 : a / n < b / n := by
    by_contra hc
    have := Nat.mul_le_mul_left n (Nat.not_lt.1 hc)
    omega
  have h4 : n * (a / n + 1) ≤ n * (b / n) := Nat.mul_le_mul_left n h3
  rw [Nat.mul_add] at h4
  omega

theorem run_step {cmds : List (Cmd P)} (hc : ∀ c ∈ cmds, CmdOk E c) {img0 : List (List P)} {ws : List Worker} {img : List (List P)}
    (h : RunOk E cmds img0 ws img) {i : Nat} (hi : i < E.workers) :
    ∃ w w' img', ws[i]? = some w ∧ w.step E cmds img = some (w', img') ∧ RunOk E cmds img0 (ws.set i w') img' ∧
      (E.bands ≤ w'.cur ∨ w'.cur = w.cur + E.workers) ∧ w.cur ≤ w'.cur := by
  have hl := h.len
  have hw : ws[i]? = some ws[i] := List.getElem?_eq_getElem (by omega)
  have hwi := h.each i _ hw
  obtain ⟨w', img', s1, s2, s3, s4⟩ := step_ok hc hi hwi h.size
  have hmod := hwi.mod hi
  have hlt : i < ws.length := by omega
  generalize ws[i] = w at *
  refine ⟨w, w', img', hw, s1, ⟨by simp [hl], ?_, ?_, ?_, s3⟩, ?_, ?_⟩
  pick_goal 3
  · intro j v hv
    by_cases c : i = j
    · subst c
      rw [List.getElem?_set_self hlt] at hv
      exact Option.some.inj hv ▸ s2
    · rw [List.getElem?_set_ne c] at hv
      exact h.each j v hv
  · rcases s4 with ⟨_, _, e⟩ | ⟨_, _, e⟩
    · rw [e, h.same]
    · rw [e.1, h.same]
  · intro y row v hy hv
    rcases s4 with ⟨_, e1, e2⟩ | ⟨e0, e1, e2⟩
    · subst e1 e2
      refine h.progress y row v hy ?_
      by_cases c : i = y / E.bh % E.workers
      · rw [← c] at hv ⊢
        rw [List.getElem?_set_self hlt] at hv
        rw [hw, hv]
      · rw [List.getElem?_set_ne c] at hv
        exact hv
    · by_cases c : i = y / E.bh % E.workers
      · rw [← c, List.getElem?_set_self hlt] at hv
        have hv := Option.some.inj hv
        subst hv
        have hp := h.progress y row w hy (by rw [← c]; exact hw)
        rw [e2.2 y _ hp, e1]
        have hmod' : y / E.bh % E.workers = w.cur % E.workers := by rw [← c, hmod]
        rcases Nat.lt_trichotomy (y / E.bh) w.cur with d | d | d
        · rw [if_neg (by omega), if_pos d, if_pos (by omega)]
        · rw [if_pos d, if_neg (by omega), if_pos (by omega)]
        · have := mod_gap (by omega) hmod'.symm d
          rw [if_neg (by omega), if_neg (by omega), if_neg (by omega)]
      · rw [List.getElem?_set_ne c] at hv
        have hp := h.progress y row v hy hv
        rw [e2.2 y _ hp]
        rw [if_neg]
        intro hcon
        rw [hcon, hmod] at c
        exact c rfl
  · rcases s4 with ⟨e0, e1, e2⟩ | ⟨e0, e1, e2⟩
    · left; rw [e1]; exact e0
    · right; exact e1
  · rcases s4 with ⟨e0, e1, e2⟩ | ⟨e0, e1, e2⟩
    · rw [e1]
    · omega

/-- Any sequence of steps of the workers. -/
theorem run_ok {cmds : List (Cmd P)} (hc : ∀ c ∈ cmds, CmdOk E c) {img0 : List (List P)} : ∀ (l : List Nat) (ws : List Worker)
    (img : List (List P)), RunOk E cmds img0 ws img → (∀ i ∈ l, i < E.workers) →
    ∃ ws' img', run E cmds l ws img = some (ws', img') ∧ RunOk E cmds img0 ws' img' ∧
      ∀ (i : Nat) w w', ws[i]? = some w → ws'[i]? = some w' →
        w.cur ≤ w'.cur ∧ (E.bands ≤ w'.cur ∨ w.cur + l.count i * E.workers ≤ w'.cur) := by
  intro l
  induction l with
  | nil =>
    intro ws img h _
    refine ⟨ws, img, rfl, h, fun i w w' a b => ?_⟩
    rw [a] at b
    cases b
    exact ⟨Nat.le_refl _, Or.inr (by simp)⟩
  | cons j l ih =>
    intro ws img h hl
    obtain ⟨w1, w2, img1, a1, a2, a3, a4, a4'⟩ := run_step hc h (hl j (by simp))
    obtain ⟨ws', img', b1, b2, b3⟩ := ih (ws.set j w2) img1 a3 fun i hi => hl i (List.mem_cons_of_mem _ hi)
    refine ⟨ws', img', by simp only [run, a1, a2, b1, Option.bind_eq_bind, Option.bind_some], b2, fun i w w' hw hw' => ?_⟩
    by_cases c : j = i
    · subst c
      rw [a1] at hw
      cases hw
      obtain ⟨c1, c2⟩ := b3 j w2 w' (by rw [List.getElem?_set_self]; exact (List.getElem?_eq_some_iff.1 a1).1) hw'
      rw [List.count_cons_self, Nat.succ_mul]
      omega
    · obtain ⟨c1, c2⟩ := b3 i w w' (by rw [List.getElem?_set_ne c]; exact hw) hw'
      rw [List.count_cons_of_ne (by simpa using c)]
      exact ⟨c1, c2⟩

end Blend2D.Async
