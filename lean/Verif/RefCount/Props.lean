import Verif.RefCount.Model
/-!
# C17: reference counting frees exactly once, never early
-/
namespace Blend2D.RefCount

/-- The inductive invariant. -/
structure Inv (s : State) : Prop where
  base : s.base = 0 ∨ s.base = 1 ∨ s.base = 3
  small : s.handles.length + 3 < 2 ^ 64
  /-- Not reference counted. -/
  static : s.base = 0 → s.rc = 0 ∧ s.pending = [] ∧ s.frees = 0
  /-- The counter is exact. -/
  count : s.base ≠ 0 → s.rc + 1 = s.base + s.handles.length
  /-- Somebody frees the impl exactly when no handle is left. -/
  last : s.base ≠ 0 → s.pending.length + s.frees = if s.handles = [] then 1 else 0
  own : ∀ u, s.accesses u ≤ s.seen u u
  /-- An access is known to the counter or to the owner of a handle. -/
  known : s.base ≠ 0 → ∀ u, s.accesses u ≤ s.msg u ∨ ∃ t ∈ s.handles, s.accesses u ≤ s.seen t u
  /-- Whoever frees the impl knows every access. -/
  all : ∀ t ∈ s.pending, s.Ordered t
  /-- Whoever may write is alone. -/
  alone : ∀ t ∈ s.writers, s.handles = [t] ∧ s.rc = 1
  gone : s.handles = [] → ∀ t ∈ s.pending, s.Ordered t

theorem inv_initial (base : Nat) (h : base = 0 ∨ base = 1 ∨ base = 3) (t : Thread) : Inv (initial base t) := by
  constructor <;> simp [initial, State.Ordered] <;> omega

theorem erase_len {t : Thread} {l : List Thread} (h : t ∈ l) : (l.erase t).length + 1 = l.length := by
  have := List.length_erase_of_mem h
  have := List.length_pos_of_mem h
  omega

theorem touch_inv {s : State} (h : Inv s) (t : Thread) (ht : t ∈ s.handles) : Inv (s.touch t) := by
  have hne : s.handles ≠ [] := List.ne_nil_of_mem ht
  have hpend : s.pending = [] := by
    rcases Nat.eq_zero_or_pos s.base with h0 | h0
    · exact (h.static h0).2.1
    · have := h.last (by omega); rw [if_neg hne] at this
      exact List.eq_nil_of_length_eq_zero (by omega)
  refine ⟨h.base, h.small, h.static, h.count, h.last, ?_, ?_, ?_, h.alone, ?_⟩
  · intro u
    have := h.own u
    by_cases hu : u = t
    · subst hu; simp [State.touch]
    · simp [State.touch, hu, this]
  · intro h0 u
    by_cases hu : u = t
    · subst hu; exact .inr ⟨u, ht, by simp [State.touch]⟩
    · rcases h.known h0 u with h1 | ⟨v, hv, h1⟩
      · exact .inl (by simpa [State.touch, hu] using h1)
      · refine .inr ⟨v, hv, ?_⟩
        by_cases hvt : v = t
        · subst hvt; simpa [State.touch, hu] using h1
        · simpa [State.touch, hu, hvt] using h1
  · intro v hv; simp [State.touch, hpend] at hv
  · intro hh; exact absurd hh hne

theorem not_freed {s : State} (h : Inv s) {t : Thread} (ht : t ∈ s.handles) : s.frees = 0 := by
  rcases Nat.eq_zero_or_pos s.base with h0 | h0
  · exact (h.static h0).2.2
  · have := h.last (by omega)
    rw [if_neg (List.ne_nil_of_mem ht)] at this
    omega

theorem no_pending {s : State} (h : Inv s) {t : Thread} (ht : t ∈ s.handles) : s.pending = [] := by
  rcases Nat.eq_zero_or_pos s.base with h0 | h0
  · exact (h.static h0).2.1
  · have := h.last (by omega); rw [if_neg (List.ne_nil_of_mem ht)] at this
    exact List.eq_nil_of_length_eq_zero (by omega)

theorem inv_step {s : State} (h : Inv s) (a : Act) (ha : Allowed s a) : ∃ s', step s a = some s' ∧ Inv s' := by
  cases a with
  | access t =>
    have ht : t ∈ s.handles := ha
    exact ⟨_, by simp [step, not_freed h ht], touch_inv h t ht⟩
  | write t =>
    have ht : t ∈ s.handles := ha.1
    exact ⟨_, by simp [step, not_freed h ht], touch_inv h t ht⟩
  | test t =>
    have ht : t ∈ s.handles := ha
    refine ⟨_, if_neg (by simp [not_freed h ht]), h.base, h.small, h.static, h.count, h.last, h.own, h.known, h.all, ?_, h.gone⟩
    intro u hu
    show s.handles = [u] ∧ s.rc = 1
    by_cases hrc : s.rc = 1
    · simp only [if_pos hrc, List.mem_cons] at hu
      refine ⟨?_, hrc⟩
      have hb : s.base ≠ 0 := fun h0 => by have := (h.static h0).1; omega
      have := h.count hb
      have hl := List.length_pos_of_mem ht
      have : s.handles.length = 1 := by omega
      obtain ⟨x, hx⟩ := List.length_eq_one_iff.1 this
      rw [hx] at ht ⊢
      simp only [List.mem_singleton] at ht
      rcases hu with rfl | hu
      · rw [ht]
      · rw [← (h.alone u hu).1, hx]
    · simp only [if_neg hrc] at hu
      exact h.alone u (List.mem_filter.1 hu).1
  | retain m t =>
    obtain ⟨ht, hl, hm⟩ : t ∈ s.handles ∧ s.handles.length + 4 < 2 ^ 64 ∧ (m = .force → s.base ≠ 0) := ha
    have hp := no_pending h ht
    have hw : ∀ u ∈ s.writers.filter (· ≠ t), False := by
      intro u hu
      obtain ⟨h1, h2⟩ := List.mem_filter.1 hu
      have := (h.alone u h1).1
      rw [this] at ht
      simp only [List.mem_singleton] at ht
      simp [ht] at h2
    have hk : s.base ≠ 0 → ∀ u, s.accesses u ≤ s.msg u ∨ ∃ v ∈ t :: s.handles, s.accesses u ≤ s.seen v u := by
      intro h0 u
      rcases h.known h0 u with h1 | ⟨v, hv, h1⟩
      · exact .inl h1
      · exact .inr ⟨v, List.mem_cons_of_mem _ hv, h1⟩
    by_cases hc : m = .maybe ∧ ¬ s.rc ≠ 0
    · refine ⟨_, (if_neg (by simp [not_freed h ht])).trans (if_pos hc), ?_⟩
      have hrc : s.rc = 0 := by omega
      have hb : s.base = 0 := by
        rcases Nat.eq_zero_or_pos s.base with h0 | h0
        · exact h0
        · have := h.count (by omega); have := List.length_pos_of_mem ht; omega
      exact ⟨h.base, by simp; omega, h.static, fun h0 => absurd hb h0, fun h0 => absurd hb h0, h.own, fun h0 => absurd hb h0,
        h.all, fun u hu => absurd (hw u hu) id, fun hh => absurd hh (by simp)⟩
    · refine ⟨_, (if_neg (by simp [not_freed h ht])).trans (if_neg hc), ?_⟩
      have hb : s.base ≠ 0 := by
        intro h0
        rcases m with _ | _
        · exact hc ⟨rfl, by simp [(h.static h0).1]⟩
        · exact hm rfl h0
      have hcnt := h.count hb
      refine ⟨h.base, by simp; omega, fun h0 => absurd h0 hb, ?_, ?_, h.own, hk, h.all, fun u hu => absurd (hw u hu) id, fun hh => absurd hh (by simp)⟩
      · intro _
        show (s.rc + 1) % 2 ^ 64 + 1 = s.base + (s.handles.length + 1)
        rcases h.base with hb | hb | hb <;> omega
      · intro _
        have := h.last hb
        rw [if_neg (List.ne_nil_of_mem ht)] at this
        rw [if_neg (by simp)]
        exact this
  | release m t =>
    obtain ⟨ht, hm⟩ : t ∈ s.handles ∧ (m = .force → s.base ≠ 0) := ha
    have hp := no_pending h ht
    have hf := not_freed h ht
    have hlen := erase_len ht
    have hsm := h.small
    have hw : ∀ u ∈ s.writers.filter (· ≠ t), False := by
      intro u hu
      obtain ⟨h1, h2⟩ := List.mem_filter.1 hu
      have := (h.alone u h1).1
      rw [this] at ht
      simp only [List.mem_singleton] at ht
      simp [ht] at h2
    by_cases hc : m = .maybe ∧ s.base = 0
    · refine ⟨_, (if_neg (by simp [hf])).trans (if_pos hc), ?_⟩
      exact ⟨h.base, by show (s.handles.erase t).length + 3 < _; omega, h.static, fun h0 => absurd hc.2 h0, fun h0 => absurd hc.2 h0, h.own, fun h0 => absurd hc.2 h0,
        h.all, fun u hu => absurd (hw u hu) id, fun _ => h.all⟩
    · refine ⟨_, (if_neg (by simp [hf])).trans (if_neg hc), ?_⟩
      have hb : s.base ≠ 0 := by
        intro h0
        rcases m with _ | _
        · exact hc ⟨rfl, h0⟩
        · exact hm rfl h0
      have hcnt := h.count hb
      have hlast : s.rc = s.base ↔ s.handles.erase t = [] := by
        rw [← List.length_eq_zero_iff]; omega
      have hkn : ∀ u, s.accesses u ≤ ((s.seen t).join s.msg) u ∨ ∃ v ∈ s.handles.erase t, s.accesses u ≤ s.seen v u := by
        intro u
        rcases h.known hb u with h1 | ⟨v, hv, h1⟩
        · exact .inl (by simp only [Clock.join]; omega)
        · by_cases hvt : v = t
          · subst hvt; exact .inl (by simp only [Clock.join]; omega)
          · exact .inr ⟨v, (List.mem_erase_of_ne hvt).2 hv, h1⟩
      have hall : s.handles.erase t = [] → ∀ u, s.accesses u ≤ ((s.seen t).join s.msg) u := by
        intro he u
        rcases hkn u with h1 | ⟨v, hv, _⟩
        · exact h1
        · rw [he] at hv; simp at hv
      have hpa : ∀ v ∈ (if s.rc = s.base then t :: s.pending else s.pending), ∀ u,
          s.accesses u ≤ (if v = t then (s.seen t).join s.msg else s.seen v) u := by
        intro v hv u
        rw [hp] at hv
        split at hv
        · simp only [List.mem_singleton] at hv
          subst hv
          rw [if_pos rfl]
          exact hall (hlast.1 ‹_›) u
        · simp at hv
      refine ⟨h.base, by show (s.handles.erase t).length + 3 < _; omega, fun h0 => absurd h0 hb, ?_, ?_, ?_, ?_, hpa, fun u hu => absurd (hw u hu) id, fun _ => hpa⟩
      · intro _
        show (s.rc + (2 ^ 64 - 1)) % 2 ^ 64 + 1 = s.base + (s.handles.erase t).length
        rcases h.base with hb | hb | hb <;> omega
      · intro _
        show (if s.rc = s.base then t :: s.pending else s.pending).length + s.frees = if s.handles.erase t = [] then 1 else 0
        rw [hp, hf]
        by_cases hx : s.rc = s.base
        · rw [if_pos hx, if_pos (hlast.1 hx)]; rfl
        · rw [if_neg hx, if_neg (fun hh => hx (hlast.2 hh))]; rfl
      · intro u
        have := h.own u
        show s.accesses u ≤ (if u = t then (s.seen t).join s.msg else s.seen u) u
        split
        · subst_vars; simp only [Clock.join]; omega
        · exact this
      · intro _ u
        rcases hkn u with h1 | ⟨v, hv, h1⟩
        · exact .inl h1
        · refine .inr ⟨v, hv, ?_⟩
          show s.accesses u ≤ (if v = t then (s.seen t).join s.msg else s.seen v) u
          split
          · subst_vars; simp only [Clock.join]; omega
          · exact h1
  | free t =>
    have ht : t ∈ s.pending := ha
    have hb : s.base ≠ 0 := by
      intro h0; rw [(h.static h0).2.1] at ht; simp at ht
    have hpos := List.length_pos_of_mem ht
    have hlen := erase_len ht
    have hl := h.last hb
    have hh : s.handles = [] := by
      by_cases hh : s.handles = []
      · exact hh
      · rw [if_neg hh] at hl; omega
    rw [if_pos hh] at hl
    have hf : s.frees = 0 := by omega
    refine ⟨_, if_neg (by simp [hf]), ?_⟩
    have hsub : ∀ v ∈ s.pending.erase t, s.Ordered v := fun v hv => h.all v (List.mem_of_mem_erase hv)
    refine ⟨h.base, h.small, fun h0 => absurd h0 hb, h.count, ?_, h.own, h.known, hsub, h.alone, fun _ => hsub⟩
    intro _
    show (s.pending.erase t).length + (s.frees + 1) = if s.handles = [] then 1 else 0
    rw [if_pos hh]; omega
  | pass t u =>
    have ht : t ∈ s.handles := ha
    have hp := no_pending h ht
    have hlen := erase_len ht
    refine ⟨_, rfl, ?_⟩
    have hsm := h.small
    have hs : ∀ v w, s.seen v w ≤ (if v = u then (s.seen u).join (s.seen t) else s.seen v) w := by
      intro v w
      split
      · subst_vars; simp only [Clock.join]; omega
      · exact Nat.le_refl _
    refine ⟨h.base, by show (u :: s.handles.erase t).length + 3 < _; simp only [List.length_cons]; omega, h.static, ?_, ?_, ?_, ?_, ?_, ?_, ?_⟩
    · intro h0
      have := h.count h0
      show s.rc + 1 = s.base + (s.handles.erase t).length.succ
      omega
    · intro h0
      have := h.last h0
      rw [if_neg (List.ne_nil_of_mem ht)] at this
      rw [if_neg (by simp)]
      exact this
    · intro v; exact Nat.le_trans (h.own v) (hs v v)
    · intro h0 v
      rcases h.known h0 v with h1 | ⟨w, hw, h1⟩
      · exact .inl h1
      · right
        by_cases hwt : w = t
        · subst hwt
          exact ⟨u, by simp, by
            show s.accesses v ≤ (if u = u then (s.seen u).join (s.seen w) else s.seen u) v
            rw [if_pos rfl]; simp only [Clock.join]; omega⟩
        · exact ⟨w, List.mem_cons_of_mem _ ((List.mem_erase_of_ne hwt).2 hw), Nat.le_trans h1 (hs w v)⟩
    · intro v hv; change v ∈ s.pending at hv; rw [hp] at hv; simp at hv
    · intro v hv
      exfalso
      obtain ⟨h1, h2⟩ := List.mem_filter.1 hv
      have := (h.alone v h1).1
      rw [this] at ht
      simp only [List.mem_singleton] at ht
      simp [ht] at h2
    · intro hh; simp at hh

theorem reach_inv {s : State} (h : Reach s) : Inv s := by
  induction h with
  | init base hb t => exact inv_initial base hb t
  | step a s' _ ha hs ih =>
    obtain ⟨s2, h1, h2⟩ := inv_step ih a ha
    rw [hs] at h1
    cases h1
    exact h2

/-- C17: whatever the threads did so far, no step they are allowed to take uses the impl after it was freed or frees it
twice. -/
theorem C17_never_used_after_free (s : State) (h : Reach s) (a : Act) (ha : Allowed s a) : ∃ s', step s a = some s' := by
  obtain ⟨s', h1, _⟩ := inv_step (reach_inv h) a ha
  exact ⟨s', h1⟩

/-- C17: the impl is freed at most once and never while a handle exists; once the last handle is gone, it was freed or
exactly one thread is about to free it (no leak).  An impl that is not reference counted is never freed. -/
theorem C17_freed_once_after_last_handle (s : State) (h : Reach s) :
    s.frees ≤ 1 ∧
    (s.handles ≠ [] → s.frees = 0 ∧ s.pending = []) ∧
    (s.base ≠ 0 → s.handles = [] → (s.frees = 1 ∧ s.pending = []) ∨ (s.frees = 0 ∧ ∃ t, s.pending = [t])) ∧
    (s.base = 0 → s.frees = 0 ∧ s.pending = []) := by
  have hi := reach_inv h
  refine ⟨?_, ?_, ?_, ?_⟩
  · rcases Nat.eq_zero_or_pos s.base with h0 | h0
    · rw [(hi.static h0).2.2]; omega
    · have := hi.last (by omega); split at this <;> omega
  · intro hh
    obtain ⟨t, ht⟩ := List.exists_mem_of_ne_nil _ hh
    exact ⟨not_freed hi ht, no_pending hi ht⟩
  · intro h0 hh
    have := hi.last h0
    rw [if_pos hh] at this
    rcases Nat.eq_zero_or_pos s.frees with hf | hf
    · right; exact ⟨hf, List.length_eq_one_iff.1 (by omega)⟩
    · left; exact ⟨by omega, List.eq_nil_of_length_eq_zero (by omega)⟩
  · intro h0; exact ⟨(hi.static h0).2.2, (hi.static h0).2.1⟩

/-- C17: in the sense of the C++ memory model, every access to the impl by any thread happens before the impl is freed. -/
theorem C17_accesses_happen_before_free (s : State) (h : Reach s) (t : Thread) (ht : Allowed s (.free t)) :
    ∀ u, s.accesses u ≤ s.seen t u := (reach_inv h).all t ht

/-- C17: a thread that found the impl mutable is its only owner when it writes, so no handle of another thread can observe the
write. -/
theorem C17_writer_is_alone (s : State) (h : Reach s) (t : Thread) (ht : Allowed s (.write t)) : s.handles = [t] :=
  ((reach_inv h).alone t ht.2).1

/-- Running a schedule. -/
def run : State → List Act → Option State
  | s, [] => some s
  | s, a :: as => (step s a).bind (fun s => run s as)

/-- Two threads share an impl and the second one destroys it. -/
example : (run (initial 1 0) [.retain .force 0, .pass 0 1, .access 1, .access 0, .release .force 0, .access 1,
    .release .maybe 1, .free 1]).map (fun s => (s.frees, s.handles, s.rc)) = some (1, [], 0) := by decide +kernel

/-- A state of the theorems in which a thread is about to free the impl. -/
example : ∃ s, Reach s ∧ Allowed s (.free 0) := by
  have h1 := Reach.init 1 (by simp) 0
  have h2 := Reach.step (.release .force 0) _ h1 ⟨by simp [initial], by simp [initial]⟩ rfl
  exact ⟨_, h2, by simp [Allowed, initial]⟩

/-- Not part of C17, but remarkable: the test for mutability is a plain load, which does not acquire.  So a write it permits is
not ordered after what other threads read before they released their handles: here thread 1 read the content (once), then
destroyed its handle, and thread 0 is allowed to write without knowing of that read. -/
theorem C17_write_not_ordered : ∃ s, Reach s ∧ Allowed s (.write 0) ∧ s.accesses 1 = 1 ∧ s.seen 0 1 = 0 := by
  have h1 := Reach.init 1 (by simp) 0
  have h2 := Reach.step (.retain .force 0) _ h1 ⟨by simp [initial], by simp [initial], by simp [initial]⟩ rfl
  have h3 := Reach.step (.pass 0 1) _ h2 (by simp [Allowed, initial]) rfl
  have h4 := Reach.step (.access 1) _ h3 (by simp [Allowed, initial]) rfl
  have h5 := Reach.step (.release .force 1) _ h4 ⟨by simp [State.touch, initial], by simp [State.touch, initial]⟩ rfl
  have h6 := Reach.step (.test 0) _ h5 (by simp [Allowed, State.touch, initial]) rfl
  refine ⟨_, h6, ?_, ?_, ?_⟩
  · simp [Allowed, State.touch, initial]
  · simp [State.touch, initial]
  · simp [State.touch, initial]

end Blend2D.RefCount
