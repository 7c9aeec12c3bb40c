import Verif.Cow.Heap
/-! # Changes of an impl that its owners cannot see -/
namespace Blend2D.Cow
variable {σ β V : Type} {okS : σ → V → Prop} {okB : β → V → Prop}

/-- Changing a possibly shared impl in a way that keeps the values it represents. -/
theorem rel_touch {w : World σ β} {L : List V} {es : List (Core σ)} (h : Rel okS okB w L es) (a : Nat) (b : Block β)
    (hb : w.block? a = some b) (x : β) (hv : ∀ v, okB b.val v → okB x v) :
    Rel okS okB (w.setVal a x) L es ∧ (w.setVal a x).vars = w.vars ∧ (w.setVal a x).block? a = some { b with val := x } := by
  obtain ⟨hlt, hget, hal⟩ := block_some_lt w a b hb
  have hset : w.setVal a x = { w with heap := w.heap.set a { b with val := x } } := by
    unfold World.setVal
    rw [hget]
  have key := block_set w a
  have hself : (w.setVal a x).block? a = some { b with val := x } := by
    rw [hset, key a _ ⟨b, hb⟩]; simp [hal]
  have hother : ∀ a', a' ≠ a → (w.setVal a x).block? a' = w.block? a' := by
    intro a' hne
    rw [hset, key a' _ ⟨b, hb⟩]; simp [hne]
  have hvars : (w.setVal a x).vars = w.vars := by rw [hset]
  refine ⟨⟨by rw [hvars]; exact h.len, ?_, ?_, ?_⟩, hvars, hself⟩
  · intro j d u hj hu
    rw [hvars] at hj
    have := h.hold j d u hj hu
    cases d with
    | sso s => exact this
    | dyn a' =>
      obtain ⟨b', hb', hok⟩ := this
      by_cases hc : a' = a
      · subst hc
        rw [hb] at hb'
        cases hb'
        exact ⟨_, hself, hv u hok⟩
      · exact ⟨b', by rw [hother a' hc]; exact hb', hok⟩
  · intro a' ha'
    rw [hvars] at ha'
    by_cases hc : a' = a
    · subst hc; exact ⟨_, hself⟩
    · obtain ⟨b', hb'⟩ := h.live a' ha'
      exact ⟨b', by rw [hother a' hc]; exact hb'⟩
  · intro a' b' hb'
    rw [hvars]
    by_cases hc : a' = a
    · subst hc
      rw [hself] at hb'
      cases hb'
      exact h.cnt a' b hb
    · rw [hother a' hc] at hb'
      exact h.cnt a' b' hb'

end Blend2D.Cow
