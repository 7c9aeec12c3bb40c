import Verif.Settings.Ops
/-! # Programs that use font settings -/
namespace Blend2D.Settings
open Cow Spec
open Blend2D.FontTag (isValidTag)
open Blend2D.FontTag.Spec (Printable)
open Blend2D.Arr (Result)

variable {σ V : Type}

/-- A call.  The C functions are cited at the definitions; `assign_move` and `assign_weak` are `fontfeaturesettings.cpp:377-397` /
`fontvariationsettings.cpp:249-273`. -/
def step (K : Kind σ V) (ok : Bool) (w : Wld σ V) : Op V → Option (Result × Wld σ V)
  | .reset i => reset K w i
  | .clear i => clear K w i
  | .shrink i => shrink K ok w i
  | .assignWeak i j => (w.assignWeak i j).map (fun w => (.success, w))
  | .assignMove i j => (w.assignMove i j K.empty).map (fun w => (.success, w))
  | .set i tag v => setValue K ok w i tag v
  | .remove i tag => removeValue K ok w i tag

/-- `n` default constructed settings (`bl_font_feature_settings_init`, `fontfeaturesettings.cpp:280-283` /
`bl_font_variation_settings_init`, `fontvariationsettings.cpp:158-161`). -/
def initial (K : Kind σ V) (n : Nat) : Wld σ V := ⟨List.replicate n (.sso K.empty), []⟩

/-- The states a program can reach with calls that are `Right`, with what its settings should be.  Each call may or may not get memory. -/
inductive Reach (K : Kind σ V) (Right : Wld σ V → List (Map V) → Op V → Prop) : Wld σ V → List (Map V) → Prop where
  | init (n : Nat) : Reach K Right (initial K n) (List.replicate n nothing)
  | call {w : Wld σ V} {L : List (Map V)} (op : Op V) (ok : Bool) (r : Result) (w' : Wld σ V) : Reach K Right w L →
      Pre L op → Right w L op → step K ok w op = some (r, w') → Reach K Right w' (if r = .success then apply L op else L)

/-- What a call may do. -/
def Outcome (K : Kind σ V) (okV : V → Prop) (okS : σ → Map V → Prop) (ok : Bool) (w : Wld σ V) (L : List (Map V)) (op : Op V) (r : Result)
    (w' : Wld σ V) : Prop :=
  (r = .success ∧ R okV okS w' (apply L op) ∧ ¬ Invalid K.tooLarge op) ∨
  (r = .outOfMemory ∧ w' = w ∧ ok = false) ∨
  (r = .invalidValue ∧ R okV okS w' L ∧ Invalid K.tooLarge op)

/-- The laws' conditions. -/
def LawRight (okV : V → Prop) (okSet : σ → UInt32 → V → Prop) (okRemove : σ → UInt32 → Prop) (w : Wld σ V) : Op V → Prop
  | .set i tag v => okV v ∧ ∀ s, w.vars[i]? = some (.sso s) → okSet s tag v
  | .remove i tag => ∀ s, w.vars[i]? = some (.sso s) → okRemove s tag
  | _ => True

variable {K : Kind σ V} {okV okE : V → Prop} {okS : σ → Map V → Prop} {okHas : σ → UInt32 → Prop}
  {okSet : σ → UInt32 → V → Prop} {okRemove : σ → UInt32 → Prop}

theorem invalid_set (i : Nat) (tag : UInt32) (v : V) :
    Invalid K.tooLarge (.set i tag v) ↔ K.tooLarge v = true ∨ isValidTag tag = false := by
  rw [Invalid, ← FontTag.valid_iff]
  simp

theorem step_ok (law : Law K okV okE okS okHas okSet okRemove) {w : Wld σ V} {L : List (Map V)} (h : R okV okS w L)
    (hvalid : ∀ i, ValidMap (get L i)) (ok : Bool) (op : Op V) (hpre : Pre L op) (hright : LawRight okV okSet okRemove w op) :
    ∃ r w', step K ok w op = some (r, w') ∧ Outcome K okV okS ok w L op r w' := by
  cases op with
  | reset i =>
    obtain ⟨w', e, h1⟩ := reset_ok law h hpre.1
    exact ⟨_, w', e, .inl ⟨rfl, h1, id⟩⟩
  | clear i =>
    obtain ⟨w', e, h1⟩ := clear_ok law h hpre.1
    exact ⟨_, w', e, .inl ⟨rfl, h1, id⟩⟩
  | shrink i => exact shrink_ok law h hpre.1 ok
  | assignWeak i j =>
    obtain ⟨c, hc, hL, hh⟩ := var_get h hpre.2
    obtain ⟨w', e, h1⟩ := rel_assignWeak h i j hpre.1 (get L j) hL
    exact ⟨_, w', by simp only [step, e]; rfl, .inl ⟨rfl, h1, id⟩⟩
  | assignMove i j =>
    obtain ⟨c, hc, hL, hh⟩ := var_get h hpre.2
    obtain ⟨w', e, h1⟩ := rel_assignMove h i j hpre.1 (get L j) hL K.empty nothing law.empty
    exact ⟨_, w', by simp only [step, e]; rfl, .inl ⟨rfl, h1, id⟩⟩
  | set i tag v =>
    obtain ⟨r, w', e, h1⟩ := setValue_ok law h hpre.1 ok tag v hright.1 hright.2 (hvalid i)
    refine ⟨r, w', e, ?_⟩
    rw [Outcome, invalid_set]
    exact h1
  | remove i tag => exact removeValue_ok law h hpre.1 ok tag hright

theorem get_set (L : List (Map V)) (i : Nat) (m : Map V) (k : Nat) : get (L.set i m) k = m ∨ get (L.set i m) k = get L k := by
  rw [Spec.get, Spec.get, List.getElem?_set]
  split
  · split
    · exact .inl rfl
    · rename_i h1 h2
      subst h1
      rw [List.getElem?_eq_none (by omega)]
      exact .inr rfl
  · exact .inr rfl

theorem valid_nothing : ValidMap (nothing : Map V) := fun t h => absurd rfl h

theorem valid_set {L : List (Map V)} (h : ∀ i, ValidMap (get L i)) (i : Nat) {m : Map V} (hm : ValidMap m) :
    ∀ k, ValidMap (get (L.set i m) k) := by
  intro k
  rcases get_set L i m k with e | e
  · rw [e]; exact hm
  · rw [e]; exact h k

theorem valid_apply {L : List (Map V)} (h : ∀ i, ValidMap (get L i)) (op : Op V) (hinv : ¬ Invalid K.tooLarge op) :
    ∀ i, ValidMap (get (apply L op) i) := by
  cases op with
  | reset i => exact valid_set h i valid_nothing
  | clear i => exact valid_set h i valid_nothing
  | shrink i => exact h
  | assignWeak i j => exact valid_set h i (h j)
  | assignMove i j => exact valid_set (valid_set h j valid_nothing) i (h j)
  | set i tag v =>
    refine valid_set h i (fun t ht => ?_)
    rw [invalid_set] at hinv
    rw [put] at ht
    split at ht
    · rename_i e
      rw [e]
      cases hv : isValidTag tag with
      | true => rfl
      | false => exact absurd (.inr hv) hinv
    · exact h i t ht
  | remove i tag =>
    refine valid_set h i (fun t ht => ?_)
    rw [put] at ht
    split at ht
    · exact absurd rfl ht
    · exact h i t ht

theorem initial_rel (law : Law K okV okE okS okHas okSet okRemove) (n : Nat) : R okV okS (initial K n) (List.replicate n nothing) := by
  have hz : ∀ a, refs ((initial K n).vars ++ []) a = 0 := by
    intro a
    rw [refs, List.countP_eq_zero]
    intro c hc
    rw [List.append_nil, initial, List.mem_replicate] at hc
    rw [hc.2]
    simp
  refine ⟨by simp [initial], ?_, ?_, ?_⟩
  · intro i c v hc hv
    rw [initial, List.getElem?_replicate] at hc
    rw [List.getElem?_replicate] at hv
    split at hc
    · rename_i hlt
      rw [if_pos hlt] at hv
      rw [← Option.some.inj hc, ← Option.some.inj hv]
      exact law.empty
    · simp at hc
  · intro a ha
    rw [hz] at ha
    omega
  · intro a b hb
    simp [World.block?, initial] at hb

theorem reach_rel (law : Law K okV okE okS okHas okSet okRemove) {Right : Wld σ V → List (Map V) → Op V → Prop}
    (hright : ∀ w L op, R okV okS w L → Right w L op → LawRight okV okSet okRemove w op) {w : Wld σ V} {L : List (Map V)}
    (h : Reach K Right w L) : R okV okS w L ∧ ∀ i, ValidMap (get L i) := by
  induction h with
  | init n =>
    refine ⟨initial_rel law n, fun i => ?_⟩
    rw [Spec.get, List.getElem?_replicate]
    split <;> exact valid_nothing
  | call op ok r w' _ hpre hr hstep ih =>
    obtain ⟨hR, hv⟩ := ih
    obtain ⟨r2, w2, e, hout⟩ := step_ok law hR hv ok op hpre (hright _ _ op hR hr)
    rw [hstep] at e
    obtain ⟨e1, e2⟩ := Prod.mk.inj (Option.some.inj e)
    subst e1
    subst e2
    rcases hout with ⟨q1, q2, q3⟩ | ⟨q1, q2, q3⟩ | ⟨q1, q2, q3⟩
    · subst q1
      exact ⟨q2, valid_apply hv op q3⟩
    · subst q1
      subst q2
      exact ⟨hR, hv⟩
    · subst q1
      exact ⟨q2, hv⟩

/-- Every call is memory safe, and what its result says. -/
theorem call_ok (law : Law K okV okE okS okHas okSet okRemove) {Right : Wld σ V → List (Map V) → Op V → Prop}
    (hright : ∀ w L op, R okV okS w L → Right w L op → LawRight okV okSet okRemove w op) {w : Wld σ V} {L : List (Map V)}
    (h : Reach K Right w L) (ok : Bool) (op : Op V) (hpre : Pre L op) (hr : Right w L op) :
    ∃ r w', step K ok w op = some (r, w') ∧ (r = .invalidValue ↔ Invalid K.tooLarge op ∧ r ≠ .outOfMemory) ∧
      (r = .outOfMemory → ok = false ∧ w' = w) ∧
      Reach K Right w' (if r = .success then apply L op else L) := by
  obtain ⟨hR, hv⟩ := reach_rel law hright h
  obtain ⟨r, w', e, hout⟩ := step_ok law hR hv ok op hpre (hright _ _ op hR hr)
  refine ⟨r, w', e, ?_, ?_, .call op ok r w' h hpre hr e⟩
  · rcases hout with ⟨q1, q2, q3⟩ | ⟨q1, q2, q3⟩ | ⟨q1, q2, q3⟩ <;> subst q1 <;> simp [q3]
  · intro hq
    rcases hout with ⟨q1, q2, q3⟩ | ⟨q1, q2, q3⟩ | ⟨q1, q2, q3⟩
    · rw [hq] at q1; simp at q1
    · exact ⟨q3, q2⟩
    · rw [hq] at q1; simp at q1

/-- When every object is reset, no impl is left. -/
theorem no_leak {w : Wld σ V} {L : List (Map V)} (h : R okV okS w L) (hall : ∀ c ∈ w.vars, ∃ s, c = .sso s) : ∀ a, w.block? a = none := by
  intro a
  cases hb : w.block? a with
  | none => rfl
  | some b =>
    obtain ⟨_, h2, _⟩ := h.cnt a b hb
    rw [List.append_nil, refs, List.countP_pos_iff] at h2
    obtain ⟨c, hc, h3⟩ := h2
    obtain ⟨s, e⟩ := hall c hc
    rw [e] at h3
    simp at h3

end Blend2D.Settings
