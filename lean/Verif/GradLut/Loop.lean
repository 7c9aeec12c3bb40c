import Verif.GradLut.Kernels

/-!
# The loop over the stops fills the table
-/

namespace Blend2D.GradLut

open Spec

variable {C P S : Type} [DecidableEq C]

/-- What the loop needs to know about the inner loops; `N` bounds the number of steps. -/
structure Good (K : Kernel C P S) (B : C → C → Nat → Nat → P → Prop) (N : Nat) : Prop where
  prem : ∀ c d k n, k = 0 ∨ c = d → B c d k n (K.prem c)
  ramp : ∀ c d k n, 0 < n → k ≤ n → n < N → B c d k n (K.out (K.step^[k] (K.start c d n)))
  fin : ∀ c d n p, 0 < n → B c d n n p → B d d 0 1 p

theorem write_ok {t : List (Option P)} {k : Nat} (p : P) (h : k < t.length) : write t k p = some (t.set k (some p)) := by
  simp [write, h]

/-- `t'` is `t` with the entries from `a` up to `b` written, with pixels that satisfy `Q`. -/
def Wrote (t t' : List (Option P)) (a b : Nat) (Q : Nat → P → Prop) : Prop :=
  t'.length = t.length ∧ (∀ k, k < a ∨ b ≤ k → t'[k]? = t[k]?) ∧ ∀ k, a ≤ k → k < b → ∃ p, t'[k]? = some (some p) ∧ Q k p

theorem Wrote.mono {t t' : List (Option P)} {a b : Nat} {Q R : Nat → P → Prop} (h : Wrote t t' a b Q) (hQ : ∀ k p, a ≤ k → k < b → Q k p → R k p) :
    Wrote t t' a b R :=
  ⟨h.1, h.2.1, fun k h1 h2 => let ⟨p, e, q⟩ := h.2.2 k h1 h2; ⟨p, e, hQ k p h1 h2 q⟩⟩

theorem Wrote.cons {t t' : List (Option P)} {a b : Nat} {Q : Nat → P → Prop} {p : P} (ha : a < t.length) (hb : a < b) (hp : Q a p)
    (h : Wrote (t.set a (some p)) t' (a + 1) b Q) : Wrote t t' a b Q := by
  refine ⟨by rw [h.1, List.length_set], fun k hk => ?_, fun k h1 h2 => ?_⟩
  · rw [h.2.1 k (by omega), List.getElem?_set_ne (by omega)]
  · by_cases e : k = a
    · subst e
      refine ⟨p, ?_, hp⟩
      rw [h.2.1 k (by omega), List.getElem?_set_self ha]
    · exact h.2.2 k (by omega) h2

theorem solidLoop_spec (p : P) (i : Nat) : ∀ (t : List (Option P)) (ptr : Nat), ptr + i ≤ t.length →
    ∃ t', solidLoop t ptr p i = some (t', ptr + i) ∧ Wrote t t' ptr (ptr + i) fun _ q => q = p := by
  induction i with
  | zero => intro t ptr _; exact ⟨t, rfl, rfl, fun _ _ => rfl, fun k h1 h2 => by omega⟩
  | succ i ih =>
    intro t ptr h
    obtain ⟨t', e, w⟩ := ih (t.set ptr (some p)) (ptr + 1) (by rw [List.length_set]; omega)
    refine ⟨t', ?_, ?_⟩
    · rw [solidLoop, write_ok p (by omega)]
      show solidLoop _ _ _ _ = _
      rw [e, show ptr + 1 + i = ptr + (i + 1) by omega]
    · rw [show ptr + 1 + i = ptr + (i + 1) by omega] at w
      exact w.cons (by omega) (by omega) rfl

omit [DecidableEq C] in
theorem rampLoop_spec (K : Kernel C P S) (i : Nat) : ∀ (t : List (Option P)) (ptr : Nat) (s : S), ptr + i ≤ t.length →
    ∃ t', rampLoop K t ptr s i = some (t', ptr + i) ∧ Wrote t t' ptr (ptr + i) fun k q => q = K.out (K.step^[k - ptr + 1] s) := by
  induction i with
  | zero => intro t ptr s _; exact ⟨t, rfl, rfl, fun _ _ => rfl, fun k h1 h2 => by omega⟩
  | succ i ih =>
    intro t ptr s h
    obtain ⟨t', e, w⟩ := ih (t.set ptr (some (K.out (K.step s)))) (ptr + 1) (K.step s) (by rw [List.length_set]; omega)
    refine ⟨t', ?_, ?_⟩
    · rw [rampLoop, write_ok _ (by omega)]
      show rampLoop _ _ _ _ _ = _
      rw [e, show ptr + 1 + i = ptr + (i + 1) by omega]
    · rw [show ptr + 1 + i = ptr + (i + 1) by omega] at w
      refine Wrote.cons (by omega) (by omega) ?_ (w.mono ?_)
      · simp
      · intro k p h1 h2 hq
        rw [hq, show k - ptr + 1 = (k - (ptr + 1) + 1) + 1 by omega, Function.iterate_succ_apply _ (k - (ptr + 1) + 1)]

/-- A span of `i + 1` entries from one colour to another. -/
theorem span_spec {K : Kernel C P S} {B : C → C → Nat → Nat → P → Prop} {N : Nat} (G : Good K B N) (t : List (Option P)) (ptr i : Nat) (c0 c1 : C)
    (h : ptr + i < t.length) (hN : i < N) :
    ∃ t', span K t ptr (i + 1) c0 c1 = some (t', ptr + i + 1, c1) ∧ Wrote t t' ptr (ptr + i + 1) fun k p => B c0 c1 (k - ptr) i p := by
  unfold span
  by_cases e : c0 = c1
  · rw [if_pos e]
    obtain ⟨t', e1, w⟩ := solidLoop_spec (K.prem c0) (i + 1) t ptr (by omega)
    refine ⟨t', ?_, w.mono ?_⟩
    · rw [e1, e]; rfl
    · intro k p _ _ hp
      rw [hp]
      exact G.prem _ _ _ _ (Or.inr e)
  · rw [if_neg e, write_ok _ (by omega)]
    obtain ⟨t', e1, w⟩ := rampLoop_spec K i (t.set ptr (some (K.prem c0))) (ptr + 1) (K.start c0 c1 i) (by rw [List.length_set]; omega)
    refine ⟨t', ?_, ?_⟩
    · show (rampLoop K _ (ptr + 1) (K.start c0 c1 (i + 1 - 1)) (i + 1 - 1)).bind _ = _
      rw [Nat.add_sub_cancel, e1]
      show some _ = _
      rw [show ptr + 1 + i = ptr + i + 1 by omega]
    · rw [show ptr + 1 + i = ptr + i + 1 by omega] at w
      refine Wrote.cons (by omega) (by omega) ?_ (w.mono ?_)
      · rw [Nat.sub_self]; exact G.prem _ _ _ _ (Or.inl rfl)
      · intro k p h1 h2 hp
        rw [hp, show k - (ptr + 1) + 1 = k - ptr by omega]
        exact G.ramp _ _ _ _ (by omega) (by omega) hN

/-- The entries from the entry `q0` of a stop of colour `c0` on. -/
def From (B : C → C → Nat → Nat → P → Prop) (q0 : Nat) (c0 : C) : List (Nat × C) → Nat → P → Prop
  | [], _, p => B c0 c0 0 1 p
  | (p1, c1) :: r, k, p => if p1 / 256 ≤ k then From B (p1 / 256) c1 r k p else B c0 c1 (k - q0) (p1 / 256 - q0) p

/-- The position and the colour of the last stop. -/
def lastOf (s : Nat × C) : List (Nat × C) → Nat × C
  | [] => s
  | s :: r => lastOf s r

omit [DecidableEq C] in
theorem le_lastOf (r : List (Nat × C)) : ∀ (s : Nat × C), ((s :: r).Pairwise fun a b => a.1 ≤ b.1) → s.1 ≤ (lastOf s r).1 := by
  induction r with
  | nil => intro s _; exact Nat.le_refl _
  | cons s' r ih =>
    intro s h
    rw [List.pairwise_cons] at h
    exact Nat.le_trans (h.1 s' (by simp)) (ih s' h.2)

omit [DecidableEq C] in
theorem getLast?_lastOf (r : List (Nat × C)) : ∀ (s : Nat × C), (s :: r).getLast? = some (lastOf s r) := by
  induction r with
  | nil => intro s; rfl
  | cons s' r ih => intro s; rw [List.getLast?_cons_cons]; exact ih s'

omit [DecidableEq C] in
/-- Between two stops that follow each other. -/
theorem From.between {B : C → C → Nat → Nat → P → Prop} (r : List (Nat × C)) : ∀ (s0 : Nat × C), ((s0 :: r).Pairwise fun a b => a.1 ≤ b.1) → ∀ k p, From B (s0.1 / 256) s0.2 r k p →
    ∀ (j : Nat) (s s' : Nat × C), (s0 :: r)[j]? = some s → (s0 :: r)[j + 1]? = some s' → s.1 / 256 ≤ k → k < s'.1 / 256 → B s.2 s'.2 (k - s.1 / 256) (s'.1 / 256 - s.1 / 256) p := by
  induction r with
  | nil => intro s0 _ k p _ j s s' _ h; simp at h
  | cons s1 r ih =>
    intro s0 hs k p hF j s s' h1 h2 h3 h4
    rw [List.pairwise_cons] at hs
    rw [From] at hF
    cases j with
    | zero =>
      have e1 : s0 = s := by simpa using h1
      have e2 : s1 = s' := by simpa using h2
      subst e1; subst e2
      rw [if_neg (by omega)] at hF
      exact hF
    | succ j =>
      have h1' : (s1 :: r)[j]? = some s := by simpa using h1
      have h2' : (s1 :: r)[j + 1]? = some s' := by simpa using h2
      have h5 : s1.1 ≤ s.1 := by
        cases j with
        | zero => have : s1 = s := by simpa using h1'
                  rw [this]
        | succ j =>
          have hm : s ∈ r := List.mem_of_getElem? (by simpa using h1')
          rw [List.pairwise_cons] at hs
          exact hs.2.1 s hm
      have h6 : s1.1 / 256 ≤ s.1 / 256 := Nat.div_le_div_right h5
      rw [if_pos (by omega)] at hF
      exact ih s1 hs.2 k p hF j s s' h1' h2' h3 h4

omit [DecidableEq C] in
/-- Behind the last stop. -/
theorem From.last {B : C → C → Nat → Nat → P → Prop} (r : List (Nat × C)) : ∀ (s0 : Nat × C), ((s0 :: r).Pairwise fun a b => a.1 ≤ b.1) → ∀ k p, From B (s0.1 / 256) s0.2 r k p →
    (lastOf s0 r).1 / 256 ≤ k → B (lastOf s0 r).2 (lastOf s0 r).2 0 1 p := by
  induction r with
  | nil => intro s0 _ k p hF _; exact hF
  | cons s1 r ih =>
    intro s0 hs k p hF h
    rw [List.pairwise_cons] at hs
    have h1 := Nat.div_le_div_right (c := 256) (le_lastOf r s1 hs.2)
    have h : (lastOf s1 r).1 / 256 ≤ k := h
    rw [From, if_pos (by omega)] at hF
    exact ih s1 hs.2 k p hF h

/-- The loop, after the entry of the stop at `p0` was written. -/
theorem stopsLoop_spec {K : Kernel C P S} {B : C → C → Nat → Nat → P → Prop} {N : Nat} (G : Good K B N) (stops : List (Nat × C)) :
    ∀ (t : List (Option P)) (p0 : Nat) (c0 : C), t.length ≤ N → (((p0, c0) :: stops).Pairwise fun a b => a.1 ≤ b.1) → (lastOf (p0, c0) stops).1 / 256 < t.length →
    (∃ p, t[p0 / 256]? = some (some p) ∧ B c0 c0 0 1 p) →
    ∃ t', stopsLoop K t (p0 / 256 + 1) c0 c0 p0 stops = some (t', (lastOf (p0, c0) stops).1 / 256 + 1, (lastOf (p0, c0) stops).2, (lastOf (p0, c0) stops).2) ∧
      Wrote t t' (p0 / 256) ((lastOf (p0, c0) stops).1 / 256 + 1) (From B (p0 / 256) c0 stops) := by
  induction stops with
  | nil =>
    intro t p0 c0 _ _ _ he
    refine ⟨t, rfl, rfl, fun _ _ => rfl, fun k h1 h2 => ?_⟩
    have h2 : k < p0 / 256 + 1 := h2
    rw [show k = p0 / 256 by omega]
    exact he
  | cons s stops ih =>
    obtain ⟨p1, c1⟩ := s
    intro t p0 c0 hN hs hl he
    rw [List.pairwise_cons] at hs
    have h01 : p0 ≤ p1 := hs.1 (p1, c1) (by simp)
    have hd : p0 / 256 ≤ p1 / 256 := Nat.div_le_div_right h01
    have hl : (lastOf (p1, c1) stops).1 / 256 < t.length := hl
    have hlast : p1 / 256 ≤ (lastOf (p1, c1) stops).1 / 256 := by
      apply Nat.div_le_div_right
      have hp := hs.2
      exact le_lastOf stops (p1, c1) hp
    rw [stopsLoop, if_neg (by omega)]
    obtain ⟨t1, e1, w1⟩ := span_spec G t (p0 / 256) (p1 / 256 - p0 / 256) (if p1 / 256 - p0 / 256 = 0 then c1 else c0) c1 (by omega) (by omega)
    rw [show p0 / 256 + (p1 / 256 - p0 / 256) = p1 / 256 by omega] at e1 w1
    have hend : ∃ p, t1[p1 / 256]? = some (some p) ∧ B c1 c1 0 1 p := by
      obtain ⟨p, ep, bp⟩ := w1.2.2 (p1 / 256) hd (by omega)
      refine ⟨p, ep, ?_⟩
      by_cases hz : p1 / 256 - p0 / 256 = 0
      · -- a single entry: the pixel is the premultiplied colour
        have e2 : span K t (p0 / 256) (p1 / 256 - p0 / 256 + 1) c1 c1 = some (t1, p1 / 256 + 1, c1) := by
          rw [if_pos hz] at e1; exact e1
        rw [hz] at e2
        unfold span at e2
        rw [if_pos rfl] at e2
        obtain ⟨t2, e3, w3⟩ := solidLoop_spec (K.prem c1) 1 t (p0 / 256) (by omega)
        rw [show 0 + 1 = 1 from rfl, e3] at e2
        have e4 : t2 = t1 := by injection e2 with e2; exact congrArg Prod.fst e2
        obtain ⟨p', ep', hp'⟩ := w3.2.2 (p1 / 256) hd (by omega)
        rw [e4, ep] at ep'
        have : p = p' := by injection ep' with h; injection h
        rw [this, hp']
        exact G.prem _ _ _ _ (Or.inl rfl)
      · rw [if_neg hz] at bp
        exact G.fin _ _ _ _ (by omega) bp
    obtain ⟨t2, e2, w2⟩ := ih t1 p1 c1 (by rw [w1.1]; exact hN) hs.2 (by rw [w1.1]; exact hl) hend
    refine ⟨t2, ?_, ?_⟩
    · show ((span K t (p0 / 256) (p1 / 256 - p0 / 256 + 1) (if p1 / 256 - p0 / 256 = 0 then c1 else c0) c1).bind _) = _
      rw [e1]
      exact e2
    · refine ⟨by rw [w2.1, w1.1], fun k hk => ?_, fun k h1 h2 => ?_⟩
      · have hk : k < p0 / 256 ∨ (lastOf (p1, c1) stops).1 / 256 + 1 ≤ k := hk
        rw [w2.2.1 k (by omega), w1.2.1 k (by omega)]
      · have h2 : k < (lastOf (p1, c1) stops).1 / 256 + 1 := h2
        by_cases hk : p1 / 256 ≤ k
        · obtain ⟨p, ep, fp⟩ := w2.2.2 k hk h2
          refine ⟨p, ep, ?_⟩
          rw [From, if_pos hk]; exact fp
        · obtain ⟨p, ep, bp⟩ := w1.2.2 k h1 (by omega)
          refine ⟨p, by rw [w2.2.1 k (by omega)]; exact ep, ?_⟩
          rw [From, if_neg hk]
          rw [if_neg (by omega)] at bp
          exact bp

/-- The whole table in terms of the positions of the stops. -/
theorem fillTable_spec {K : Kernel C P S} {B : C → C → Nat → Nat → P → Prop} {N : Nat} (G : Good K B N) (n : Nat) (hn : 0 < n) (hN : n ≤ N) (s : Nat × C) (r : List (Nat × C))
    (hs : (s :: r).Pairwise fun a b => a.1 ≤ b.1) (hl : (lastOf s r).1 / 256 < n) :
    ∃ t, fillTable K n (s :: r) = some t ∧ t.length = n ∧ ∀ k < n, ∃ p, t[k]? = some (some p) ∧
      if k = 0 ∨ k < s.1 / 256 then B s.2 s.2 0 1 p
      else if k < (lastOf s r).1 / 256 + 1 then From B (s.1 / 256) s.2 r k p
      else B (lastOf s r).2 (lastOf s r).2 0 1 p := by
  obtain ⟨p0, c0⟩ := s
  have hsolid : ∀ c, B c c 0 1 (K.prem c) := fun c => G.prem _ _ _ _ (Or.inl rfl)
  have hfirst : ∀ (t : List (Option P)), t.length = n → write t 0 (K.prem c0) = some (t.set 0 (some (K.prem c0))) := fun t ht => write_ok _ (by omega)
  have hlen0 : (List.replicate n (none : Option P)).length = n := List.length_replicate
  cases r with
  | nil =>
    have hl : p0 / 256 < n := hl
    obtain ⟨t1, e1, w1⟩ := solidLoop_spec (K.prem c0) n (List.replicate n none) 0 (by omega)
    refine ⟨t1.set 0 (some (K.prem c0)), ?_, by rw [List.length_set, w1.1, hlen0], fun k hk => ?_⟩
    · show ((solidLoop (List.replicate n none) 0 (K.prem c0) n).bind _) = _
      rw [e1]
      exact hfirst t1 (by rw [w1.1, hlen0])
    · refine ⟨K.prem c0, ?_, ?_⟩
      · by_cases hk0 : k = 0
        · subst hk0; rw [List.getElem?_set_self (by rw [w1.1, hlen0]; omega)]
        · rw [List.getElem?_set_ne (by omega)]
          obtain ⟨p, ep, hp⟩ := w1.2.2 k (by omega) (by omega)
          rw [ep, hp]
      · split
        · exact hsolid c0
        · split
          · exact hsolid c0
          · exact hsolid c0
  | cons s r =>
    -- the first stop
    have hlast0 : p0 / 256 ≤ (lastOf (p0, c0) (s :: r)).1 / 256 := by
      apply Nat.div_le_div_right
      exact le_lastOf _ _ hs
    obtain ⟨t1, e1, w1⟩ := span_spec G (List.replicate n none) 0 (p0 / 256) c0 c0 (by omega) (by omega)
    have w1' : Wrote (List.replicate n none) t1 0 (p0 / 256 + 1) fun _ p => p = K.prem c0 := by
      have e2 := e1
      unfold span at e2
      rw [if_pos rfl] at e2
      obtain ⟨t2, e3, w3⟩ := solidLoop_spec (K.prem c0) (p0 / 256 + 1) (List.replicate n none) 0 (by omega)
      rw [e3] at e2
      have e4 : t2 = t1 := by injection e2 with e2; exact congrArg Prod.fst e2
      rw [e4, show 0 + (p0 / 256 + 1) = p0 / 256 + 1 by omega] at w3
      exact w3
    have len1 : t1.length = n := by rw [w1.1, hlen0]
    obtain ⟨t2, e2, w2⟩ := stopsLoop_spec G (s :: r) t1 p0 c0 (by omega) hs (by rw [len1]; exact hl)
      (by obtain ⟨p, ep, hp⟩ := w1'.2.2 (p0 / 256) (by omega) (by omega); exact ⟨p, ep, by rw [hp]; exact hsolid c0⟩)
    have len2 : t2.length = n := by rw [w2.1, len1]
    generalize hL : lastOf (p0, c0) (s :: r) = L at *
    have hf : ∃ t3, finish K t2 (L.1 / 256 + 1) L.2 L.2 = some t3 ∧ Wrote t2 t3 (L.1 / 256 + 1) n fun _ p => B L.2 L.2 0 1 p := by
      unfold finish
      rw [if_neg (by omega), len2]
      by_cases hz : n - (L.1 / 256 + 1) = 0
      · rw [if_neg (by omega)]
        exact ⟨t2, rfl, rfl, fun _ _ => rfl, fun k h1 h2 => by omega⟩
      · rw [if_pos hz]
        obtain ⟨t3, e3, w3⟩ := solidLoop_spec (K.prem L.2) (n - (L.1 / 256 + 1)) t2 (L.1 / 256 + 1) (by omega)
        refine ⟨t3, ?_, ?_⟩
        · unfold span
          rw [if_pos rfl, e3]
          show (if L.1 / 256 + 1 + (n - (L.1 / 256 + 1)) = t3.length then some t3 else none) = _
          rw [if_pos (by rw [w3.1]; omega)]
        · rw [show L.1 / 256 + 1 + (n - (L.1 / 256 + 1)) = n by omega] at w3
          exact w3.mono fun k p _ _ hp => by rw [hp]; exact hsolid L.2
    obtain ⟨t3, e3, w3⟩ := hf
    refine ⟨t3.set 0 (some (K.prem c0)), ?_, by rw [List.length_set, w3.1, len2], fun k hk => ?_⟩
    · show ((stopsLoop K (List.replicate n none) 0 c0 c0 0 ((p0, c0) :: s :: r)).bind _) = _
      have e4 : stopsLoop K (List.replicate n none) 0 c0 c0 0 ((p0, c0) :: s :: r) = some (t2, L.1 / 256 + 1, L.2, L.2) := by
        rw [stopsLoop, if_neg (by omega)]
        show ((span K _ (0 / 256) (p0 / 256 - 0 / 256 + 1) (if p0 / 256 - 0 / 256 = 0 then c0 else c0) c0).bind _) = _
        rw [ite_self, Nat.zero_div, Nat.sub_zero, e1, show 0 + p0 / 256 + 1 = p0 / 256 + 1 by omega]
        exact e2
      rw [e4]
      show ((finish K t2 (L.1 / 256 + 1) L.2 L.2).bind _) = _
      rw [e3]
      exact hfirst t3 (by rw [w3.1, len2])
    · by_cases hk0 : k = 0
      · refine ⟨K.prem c0, ?_, ?_⟩
        · subst hk0; rw [List.getElem?_set_self (by rw [w3.1, len2]; omega)]
        · rw [if_pos (Or.inl hk0)]; exact hsolid c0
      · rw [List.getElem?_set_ne (by omega)]
        by_cases h1 : k < p0 / 256
        · obtain ⟨p, ep, hp⟩ := w1'.2.2 k (by omega) (by omega)
          refine ⟨p, ?_, ?_⟩
          · rw [w3.2.1 k (by omega), w2.2.1 k (by omega), ep]
          · rw [if_pos (Or.inr h1), hp]; exact hsolid c0
        · have hneg : ¬(k = 0 ∨ k < p0 / 256) := by omega
          by_cases h2 : k < L.1 / 256 + 1
          · obtain ⟨p, ep, hp⟩ := w2.2.2 k (by omega) h2
            refine ⟨p, ?_, ?_⟩
            · rw [w3.2.1 k (by omega), ep]
            · rw [if_neg hneg, if_pos h2]; exact hp
          · obtain ⟨p, ep, hp⟩ := w3.2.2 k (by omega) hk
            exact ⟨p, ep, by rw [if_neg hneg, if_neg h2]; exact hp⟩

end Blend2D.GradLut
