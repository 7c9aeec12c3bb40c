import Verif.Publish.Model
/-!
# C39: lazily computed content is published once and completely
-/
namespace Blend2D.Publish

/-- What thread `t` knows when it is at `pc`. -/
def Local (c : Content) (s : State) : PC → Prop
  | .start | .computed | .own => True
  | .won => s.shared = ⟨none, 1⟩
  | .half => s.shared = ⟨some c.impl, 1⟩
  | .spin _ i => i > 1 → s.shared = ⟨some c.impl, c.info⟩
  | .copy => s.shared = ⟨some c.impl, c.info⟩
  | .done a b => a = some c.impl ∧ b = c.info

def moving : PC → Bool
  | .won | .half => true
  | _ => false

structure Inv (c : Content) (s : State) : Prop where
  here : ∀ t, Local c s (s.pc t)
  /-- At most one thread moves. -/
  one : ∀ t u, moving (s.pc t) = true → moving (s.pc u) = true → t = u
  shape : s.shared = ⟨none, 0⟩ ∧ s.wins = 0 ∧ (∀ t, moving (s.pc t) = false) ∨
    s.shared.info = 1 ∧ s.wins = 1 ∨
    s.shared = ⟨some c.impl, c.info⟩ ∧ s.wins = 1 ∧ ∀ t, moving (s.pc t) = false

theorem at_self (s : State) (t : Nat) (p : PC) : (s.at t p).pc t = p := by simp [State.at]
theorem at_ne (s : State) (t u : Nat) (p : PC) (h : u ≠ t) : (s.at t p).pc u = s.pc u := by simp [State.at, h]

/-- A step that only moves one thread, to a place where it is not moving the object. -/
theorem inv_at (c : Content) {s : State} (h : Inv c s) (t : Nat) (p : PC) (hp : Local c s p) (hm : moving p = false) :
    Inv c (s.at t p) := by
  have key : ∀ u, moving ((s.at t p).pc u) = true → u ≠ t ∧ moving (s.pc u) = true := by
    intro u hu
    by_cases hut : u = t
    · subst hut; rw [at_self, hm] at hu; cases hu
    · rw [at_ne _ _ _ _ hut] at hu; exact ⟨hut, hu⟩
  have key2 : (∀ u, moving (s.pc u) = false) → ∀ u, moving ((s.at t p).pc u) = false := by
    intro hh u
    cases hx : moving ((s.at t p).pc u) with
    | false => rfl
    | true => have := (key u hx).2; rw [hh u] at this; cases this
  refine ⟨?_, ?_, ?_⟩
  · intro u
    by_cases hut : u = t
    · subst hut; rw [at_self]; exact hp
    · rw [at_ne _ _ _ _ hut]; exact h.here u
  · intro u v hu hv; exact h.one u v (key u hu).2 (key v hv).2
  · rcases h.shape with ⟨h1, h2, h3⟩ | h1 | ⟨h1, h2, h3⟩
    · exact .inl ⟨h1, h2, key2 h3⟩
    · exact .inr (.inl h1)
    · exact .inr (.inr ⟨h1, h2, key2 h3⟩)

theorem inv_step (c : Content) (hc : c.info > 1) {s : State} (h : Inv c s) (t : Nat) : Inv c (step true c s t) := by
  have ht := h.here t
  have full : s.shared.info > 1 → s.shared = ⟨some c.impl, c.info⟩ := by
    intro hi
    rcases h.shape with ⟨h1, _⟩ | ⟨h1, _⟩ | ⟨h1, _⟩
    · rw [h1] at hi; simp at hi
    · omega
    · exact h1
  have others : ∀ u, u ≠ t → moving (s.pc t) = true → moving (s.pc u) = false := by
    intro u hu hm
    cases hx : moving (s.pc u) with
    | false => rfl
    | true => exact absurd (h.one u t hx hm) hu
  cases hpc : s.pc t with
  | start =>
    simp only [step, hpc]
    split
    · exact inv_at c h t _ (full ‹_›) rfl
    · exact inv_at c h t _ trivial rfl
  | computed =>
    simp only [step, hpc]
    split
    · rename_i h0
      obtain ⟨h1, h2, h3⟩ : s.shared = ⟨none, 0⟩ ∧ s.wins = 0 ∧ ∀ t, moving (s.pc t) = false := by
        rcases h.shape with h1 | ⟨h1, _⟩ | ⟨h1, _⟩
        · exact h1
        · omega
        · rw [h1] at h0; simp at h0; omega
      refine ⟨?_, ?_, .inr (.inl ⟨rfl, by simp [State.at, h2]⟩)⟩
      · intro u
        by_cases hut : u = t
        · subst hut; rw [at_self]; simp [Local, State.at, h1]
        · rw [at_ne _ _ _ _ hut]
          have hu := h.here u
          have hm := h3 u
          cases hp : s.pc u <;> simp only [hp, Local, moving, h1] at hu hm ⊢ <;> simp_all <;> (intro hh; omega)
      · intro u v hu hv
        by_cases hut : u = t
        · by_cases hvt : v = t
          · rw [hut, hvt]
          · rw [at_ne _ _ _ _ hvt] at hv; change moving (s.pc v) = true at hv; rw [h3 v] at hv; cases hv
        · rw [at_ne _ _ _ _ hut] at hu; change moving (s.pc u) = true at hu; rw [h3 u] at hu; cases hu
    · exact inv_at c h t _ full rfl
  | won =>
    simp only [step, hpc, if_true]
    rw [hpc] at ht
    simp only [Local] at ht
    have hm : moving (s.pc t) = true := by rw [hpc]; rfl
    refine ⟨?_, ?_, ?_⟩
    · intro u
      by_cases hut : u = t
      · subst hut; rw [at_self]; simp [Local, State.at, ht]
      · rw [at_ne _ _ _ _ hut]
        have hu := h.here u
        have hmu := others u hut hm
        cases hp : s.pc u <;> simp only [hp, Local, moving, ht] at hu hmu ⊢ <;> simp_all <;> (intro hh; omega)
    · intro u v hu hv
      by_cases hut : u = t
      · by_cases hvt : v = t
        · rw [hut, hvt]
        · rw [at_ne _ _ _ _ hvt] at hv; change moving (s.pc v) = true at hv; rw [others v hvt hm] at hv; cases hv
      · rw [at_ne _ _ _ _ hut] at hu; change moving (s.pc u) = true at hu; rw [others u hut hm] at hu; cases hu
    · right; left
      refine ⟨by simp [State.at, ht], ?_⟩
      rcases h.shape with ⟨_, _, h3⟩ | ⟨_, h2⟩ | ⟨_, _, h3⟩
      · rw [h3 t] at hm; cases hm
      · exact h2
      · rw [h3 t] at hm; cases hm
  | half =>
    simp only [step, hpc, if_true]
    rw [hpc] at ht
    simp only [Local] at ht
    have hm : moving (s.pc t) = true := by rw [hpc]; rfl
    have hw : s.wins = 1 := by
      rcases h.shape with ⟨_, _, h3⟩ | ⟨_, h2⟩ | ⟨_, _, h3⟩
      · rw [h3 t] at hm; cases hm
      · exact h2
      · rw [h3 t] at hm; cases hm
    refine ⟨?_, ?_, .inr (.inr ⟨by simp [State.at, ht], hw, ?_⟩)⟩
    · intro u
      by_cases hut : u = t
      · subst hut; rw [at_self]; simp [Local, State.at, ht]
      · rw [at_ne _ _ _ _ hut]
        have hu := h.here u
        have hmu := others u hut hm
        cases hp : s.pc u <;> simp only [hp, Local, moving, ht] at hu hmu ⊢ <;> simp_all [State.at]
    · intro u v hu hv
      by_cases hut : u = t
      · by_cases hvt : v = t
        · rw [hut, hvt]
        · rw [at_ne _ _ _ _ hvt] at hv; change moving (s.pc v) = true at hv; rw [others v hvt hm] at hv; cases hv
      · rw [at_ne _ _ _ _ hut] at hu; change moving (s.pc u) = true at hu; rw [others u hut hm] at hu; cases hu
    · intro u
      by_cases hut : u = t
      · subst hut; rw [at_self]; rfl
      · rw [at_ne _ _ _ _ hut]; exact others u hut hm
  | spin n i =>
    rw [hpc] at ht
    simp only [step, hpc]
    split
    · exact inv_at c h t _ (ht ‹_›) rfl
    · split
      · exact inv_at c h t _ trivial rfl
      · exact inv_at c h t _ full rfl
  | copy =>
    rw [hpc] at ht
    simp only [Local] at ht
    simp only [step, hpc, ht]
    exact inv_at c h t _ ⟨rfl, rfl⟩ rfl
  | own => simp only [step, hpc]; exact h
  | done a b => simp only [step, hpc]; exact h

theorem reach_inv (c : Content) (hc : c.info > 1) {s : State} (h : Reach true c s) : Inv c s := by
  induction h with
  | init => exact ⟨fun _ => trivial, fun t u ht => by simp [initial, moving] at ht, .inl ⟨rfl, rfl, fun _ => rfl⟩⟩
  | step t _ ih => exact inv_step c hc ih t

/-- C39 (partial): for every schedule of any number of callers, what a caller returns is complete, and the object is stored to by
at most one thread.  This is for a compiler that stores the word that contains `info` last; the code does not ask for
that order, and in the other one it is false (`C39_torn`). -/
theorem C39_published_completely_once_partial (c : Content) (hc : c.info > 1) (s : State) (h : Reach true c s) :
    (∀ t a b, s.pc t = .done a b → a = some c.impl ∧ b = c.info) ∧ s.wins ≤ 1 := by
  have hi := reach_inv c hc h
  refine ⟨?_, ?_⟩
  · intro t a b hp
    have := hi.here t
    rw [hp] at this
    exact this
  · rcases hi.shape with ⟨_, h2, _⟩ | ⟨_, h2⟩ | ⟨_, h2, _⟩ <;> omega

/-- C39: once the content is complete, it never changes. -/
theorem C39_stable (c : Content) (hc : c.info > 1) (s : State) (h : Reach true c s) (hs : s.shared.info > 1) (t : Nat) :
    (step true c s t).shared = s.shared := by
  have hi := reach_inv c hc h
  have hm : ∀ t, moving (s.pc t) = false := by
    rcases hi.shape with ⟨h1, _⟩ | ⟨h1, _⟩ | ⟨_, _, h3⟩
    · rw [h1] at hs; simp at hs
    · omega
    · exact h3
  have := hm t
  unfold step
  cases hp : s.pc t with
  | won => rw [hp] at this; cases this
  | half => rw [hp] at this; cases this
  | start => dsimp only; split <;> rfl
  | computed => dsimp only; rw [if_neg (by omega)]; rfl
  | spin n i => dsimp only; split; · rfl
                split <;> rfl
  | copy => rfl
  | own => rfl
  | done a b => rfl

/-- Running a schedule. -/
def run (implFirst : Bool) (c : Content) (ts : List Nat) : State := ts.foldl (step implFirst c) initial

theorem reach_run (o : Bool) (c : Content) (ts : List Nat) : Reach o c (run o c ts) := by
  have : ∀ s, Reach o c s → Reach o c (ts.foldl (step o c) s) := by
    induction ts with
    | nil => exact fun s h => h
    | cons t ts ih => exact fun s h => ih _ (.step t h)
  exact this _ .init

/-- Two threads race; both end up with the content the first one published. -/
example : let s := run true ⟨7, 0x80000000⟩ [0, 1, 0, 1, 0, 1, 0, 1, 1, 0, 1]
    (s.pc 0, s.pc 1) = (.done (some 7) 0x80000000, .done (some 7) 0x80000000) := by decide +kernel

/-- Counterexample: if the compiler stores `info` first, a thread that finds it set reads the other word before it is stored. -/
theorem C39_torn : ∃ s, Reach false ⟨7, 0x80000000⟩ s ∧ s.pc 1 = .done none 0x80000000 :=
  ⟨_, reach_run false _ [0, 0, 0, 1, 1], by decide +kernel⟩

end Blend2D.Publish
