import Verif.Gradient.Stops
/-! # Adding, removing and finding stops -/
namespace Blend2D.Gradient
open Spec

theorem countP_map_offset (l : List Stop) (x : Int) : l.countP (fun s => s.offset = x) = (l.map (·.offset)).countP (fun y => y = x) := by
  rw [List.countP_map]; rfl

theorem valid_congr {l m : List Stop} (h : Valid l) (e : l.map (·.offset) = m.map (·.offset)) : Valid m := by
  refine ⟨?_, ?_, ?_⟩
  · intro s hs
    have : s.offset ∈ m.map (·.offset) := List.mem_map_of_mem hs
    rw [← e] at this
    obtain ⟨t, ht, he⟩ := List.mem_map.1 this
    rw [← he]; exact h.range t ht
  · have h1 := h.sorted
    rw [← List.pairwise_map (f := fun s : Stop => s.offset) (R := fun a b => a ≤ b)] at h1 ⊢
    rw [← e]; exact h1
  · intro x
    rw [countP_map_offset, ← e, ← countP_map_offset]; exact h.two x

/-- The stops up to an offset and those after it. -/
theorem split_at (l : List Stop) (hs : l.Pairwise (fun a b => a.offset ≤ b.offset)) (x : Int) (k : Nat) (hk : k ≤ l.length)
    (h1 : ∀ (i : Nat) (h : i < l.length), i < k → l[i].offset ≤ x) (h2 : ∀ (i : Nat) (h : i < l.length), k ≤ i → x < l[i].offset) :
    l.takeWhile (fun t => t.offset ≤ x) = l.take k ∧ l.dropWhile (fun t => t.offset ≤ x) = l.drop k := by
  have ha : ∀ t ∈ l.take k, (fun t : Stop => decide (t.offset ≤ x)) t = true := by
    intro t ht
    obtain ⟨i, hi, rfl⟩ := List.getElem_of_mem ht
    rw [List.length_take] at hi
    rw [List.getElem_take]
    simpa using h1 i (by omega) (by omega)
  have hb : (l.drop k).takeWhile (fun t => decide (t.offset ≤ x)) = [] ∧
      (l.drop k).dropWhile (fun t => decide (t.offset ≤ x)) = l.drop k := by
    match hd : l.drop k with
    | [] => simp
    | b :: t =>
      have hlt : k < l.length := by
        have := congrArg List.length hd
        rw [List.length_drop, List.length_cons] at this; omega
      have : l[k] = b := by
        rw [List.drop_eq_getElem_cons hlt] at hd
        exact (List.cons.inj hd).1
      have hx := h2 k hlt (Nat.le_refl _)
      rw [this] at hx
      have : ¬ b.offset ≤ x := by omega
      simp [this]
  have e : l = l.take k ++ l.drop k := (List.take_append_drop k l).symm
  constructor
  · conv_lhs => rw [e]
    rw [List.takeWhile_append_of_pos ha, hb.1, List.append_nil]
  · conv_lhs => rw [e]
    rw [List.dropWhile_append_of_pos ha, hb.2]

/-- Every sorted list has such a place. -/
theorem split_exists (l : List Stop) (hs : l.Pairwise (fun a b => a.offset ≤ b.offset)) (x : Int) :
    ∃ k, k ≤ l.length ∧ (∀ (i : Nat) (h : i < l.length), i < k → l[i].offset ≤ x) ∧
      (∀ (i : Nat) (h : i < l.length), k ≤ i → x < l[i].offset) := by
  induction l with
  | nil => exact ⟨0, by simp, by simp, by simp⟩
  | cons a t ih =>
    rw [List.pairwise_cons] at hs
    by_cases ha : a.offset ≤ x
    · obtain ⟨k, k1, k2, k3⟩ := ih hs.2
      refine ⟨k + 1, by simp; omega, ?_, ?_⟩
      · intro i h hi
        match i with
        | 0 => exact ha
        | i + 1 => exact k2 i (by simpa using h) (by omega)
      · intro i h hi
        match i with
        | i + 1 => exact k3 i (by simpa using h) (by omega)
    · refine ⟨0, by simp, by simp, ?_⟩
      intro i h _
      match i with
      | 0 => simp only [List.getElem_cons_zero]; omega
      | i + 1 =>
        have := hs.1 (t[i]'(by simpa using h)) (List.getElem_mem _)
        simp only [List.getElem_cons_succ]; omega

theorem getElem_le {l : List Stop} (hs : l.Pairwise (fun a b => a.offset ≤ b.offset)) {i j : Nat} (hj : j < l.length) (h : i ≤ j) :
    l[i].offset ≤ l[j].offset := by
  rcases Nat.lt_or_ge i j with h' | h'
  · exact List.pairwise_iff_getElem.1 hs i j (by omega) hj h'
  · have : i = j := by omega
    subst this; omega

/-- With the place `k` of the split: there are two stops at `x` if the last but one before it is there. -/
theorem count_two (l : List Stop) (hs : l.Pairwise (fun a b => a.offset ≤ b.offset)) (x : Int) (k : Nat) (hk : k ≤ l.length)
    (h1 : ∀ (i : Nat) (h : i < l.length), i < k → l[i].offset ≤ x) (h2 : ∀ (i : Nat) (h : i < l.length), k ≤ i → x < l[i].offset) :
    2 ≤ l.countP (fun t => t.offset = x) ↔ 2 ≤ k ∧ ∃ h : k - 2 < l.length, l[k - 2].offset = x := by
  have hd : (l.drop k).countP (fun t => t.offset = x) = 0 := by
    apply count_gt
    intro t ht
    obtain ⟨i, hi, rfl⟩ := List.getElem_of_mem ht
    rw [List.length_drop] at hi
    rw [List.getElem_drop]
    exact h2 (k + i) (by omega) (by omega)
  have hc : l.countP (fun t => t.offset = x) = (l.take k).countP (fun t => t.offset = x) := by
    conv_lhs => rw [← List.take_append_drop k l]
    rw [List.countP_append, hd, Nat.add_zero]
  rw [hc]
  constructor
  · intro h
    have hk2 : 2 ≤ k := by
      have := List.countP_le_length (p := fun t : Stop => decide (t.offset = x)) (l := l.take k)
      rw [List.length_take] at this; omega
    refine ⟨hk2, by omega, ?_⟩
    by_contra hne
    have hlt : l[k - 2].offset < x := by have := h1 (k - 2) (by omega) (by omega); omega
    have e : l.take k = l.take (k - 1) ++ [l[k - 1]] := by
      conv_lhs => rw [show k = (k - 1) + 1 by omega]
      rw [List.take_succ_eq_append_getElem (by omega)]
    rw [e, List.countP_append] at h
    have h0 : (l.take (k - 1)).countP (fun t => t.offset = x) = 0 := by
      rw [List.countP_eq_zero]
      intro t ht
      obtain ⟨i, hi, rfl⟩ := List.getElem_of_mem ht
      rw [List.length_take] at hi
      rw [List.getElem_take]
      have := getElem_le hs (i := i) (j := k - 2) (by omega) (by omega)
      simp only [decide_eq_true_eq]; omega
    rw [h0] at h
    have := List.countP_le_length (p := fun t : Stop => decide (t.offset = x)) (l := [l[k - 1]])
    simp only [List.length_singleton] at this; omega
  · rintro ⟨hk2, hl, hx⟩
    have e : l.take k = l.take (k - 2) ++ [l[k - 2], l[k - 1]] := by
      conv_lhs => rw [show k = (k - 2) + 1 + 1 by omega]
      rw [List.take_succ_eq_append_getElem (by omega), List.take_succ_eq_append_getElem (by omega)]
      simp only [List.append_assoc, List.cons_append, List.nil_append, show k - 2 + 1 = k - 1 by omega]
    have hy : l[k - 1].offset = x := by
      have := h1 (k - 1) (by omega) (by omega)
      have := getElem_le hs (i := k - 2) (j := k - 1) (by omega) (by omega)
      omega
    rw [e, List.countP_append, List.countP_cons, List.countP_cons]
    simp [hx, hy]

/-- Where a stop is added. -/
theorem addPos_ok (l : List Stop) (hs : l.Pairwise (fun a b => a.offset ≤ b.offset)) (x : Int) (c : Nat) :
    ∃ k repl, addPos l x = some (k, repl) ∧ repl = decide (2 ≤ l.countP (fun t => t.offset = x)) ∧ k ≤ l.length ∧
      (repl = true → (∃ h : k < l.length, l[k].offset = x) ∧ l.set k ⟨x, c⟩ = add l ⟨x, c⟩) ∧
      (repl = false → l.take k ++ ⟨x, c⟩ :: l.drop k = add l ⟨x, c⟩) := by
  obtain ⟨k, k1, k2, k3⟩ := split_exists l hs x
  obtain ⟨e1, e2⟩ := split_at l hs x k k1 k2 k3
  have hc := count_two l hs x k k1 k2 k3
  have hpos : addPos l x = some (if 2 ≤ l.countP (fun t => t.offset = x) then (k - 1, true) else (k, false)) := by
    match l, hs, k1, k2, k3, hc with
    | [], _, k1, _, _, _ =>
      have : k = 0 := by simpa using k1
      subst this; rfl
    | t :: ts, hs, k1, k2, k3, hc =>
      rw [addPos]
      by_cases h0 : x ≥ t.offset
      · rw [if_pos h0]
        have hk0 : 0 < k := by
          by_contra hn
          have := k3 0 (by simp) (by omega)
          simp only [List.getElem_cons_zero] at this; omega
        obtain ⟨i, i1, i2, i3, i4⟩ := Algo.C14_closest_last (fun t : Stop => t.offset) (t :: ts).toArray x (by
          intro i j hj hij
          simpa using getElem_le hs (i := i) (j := j) (by simpa using hj) hij)
        simp only [List.size_toArray] at i1 i2 i3 i4
        have hil : i < (t :: ts).length := by
          have : 0 < (t :: ts).length := by simp
          omega
        have hi : i = k - 1 := by
          have a1 : ¬ k - 1 < i := by
            intro hlt
            have hi0 : 0 < i := by omega
            have b1 := i4 i hil (Nat.le_refl _) hi0
            have b2 := k3 i hil (by omega)
            simp only [List.getElem_toArray] at b1; omega
          have a2 : ¬ i < k - 1 := by
            intro hlt
            have b1 := i3 (k - 1) (by omega) hlt
            have b2 := k2 (k - 1) (by omega) (by omega)
            simp only [List.getElem_toArray] at b1; omega
          omega
        rw [i1, hi]
        simp only [Option.bind_eq_bind, Option.bind_some]
        by_cases hk2 : k - 1 > 0
        · rw [if_pos hk2, List.getElem?_eq_getElem (by omega : k - 1 - 1 < (t :: ts).length)]
          simp only [Option.bind_some]
          by_cases hx : ((t :: ts)[k - 1 - 1]'(by omega)).offset = x
          · rw [if_pos hx, if_pos (hc.2 ⟨by omega, by omega, hx⟩)]; rfl
          · rw [if_neg hx, if_neg (fun h => hx (by obtain ⟨_, _, h⟩ := hc.1 h; exact h))]
            rw [show k - 1 + 1 = k by omega]; rfl
        · rw [if_neg hk2, if_neg (fun h => by have := (hc.1 h).1; omega), show k - 1 + 1 = k by omega]; rfl
      · rw [if_neg h0]
        have hk0 : k = 0 := by
          by_contra hn
          have := k2 0 (by simp) (by omega)
          simp only [List.getElem_cons_zero] at this; omega
        rw [if_neg (fun h => by have := (hc.1 h).1; omega), hk0]
  by_cases h2 : 2 ≤ l.countP (fun t => t.offset = x)
  · obtain ⟨c1, c2, c3⟩ := hc.1 h2
    refine ⟨k - 1, true, by rw [hpos, if_pos h2], by simp [h2], by omega, fun _ => ⟨⟨by omega, ?_⟩, ?_⟩, by simp⟩
    · have := k2 (k - 1) (by omega) (by omega)
      have := getElem_le hs (i := k - 2) (j := k - 1) (by omega) (by omega)
      omega
    · unfold add
      simp only [e1, e2]
      rw [if_pos h2, List.set_eq_take_append_cons_drop, if_pos (by omega), show k - 1 + 1 = k by omega]
      rw [List.dropLast_eq_take, List.take_take, List.length_take]
      rw [show min (min k l.length - 1) k = k - 1 by omega]
  · refine ⟨k, false, by rw [hpos, if_neg h2], by simp [h2], k1, by simp, fun _ => ?_⟩
    unfold add
    simp only [e1, e2]
    rw [if_neg h2]

theorem add_length (l : List Stop) (s : Stop) (hs : l.Pairwise (fun a b => a.offset ≤ b.offset)) :
    (add l s).length = if 2 ≤ l.countP (fun t => t.offset = s.offset) then l.length else l.length + 1 := by
  obtain ⟨k, repl, _, h2, h3, h4, h5⟩ := addPos_ok l hs s.offset s.rgba
  by_cases h : 2 ≤ l.countP (fun t => t.offset = s.offset)
  · rw [if_pos h, ← (h4 (by simp [h2, h])).2, List.length_set]
  · rw [if_neg h, ← h5 (by simp [h2, h])]
    simp only [List.length_append, List.length_take, List.length_cons, List.length_drop]; omega

theorem add_valid (l : List Stop) (h : Valid l) (s : Stop) (h0 : 0 ≤ s.offset) (h1 : s.offset ≤ one) : Valid (add l s) := by
  by_cases h2 : 2 ≤ l.countP (fun t => t.offset = s.offset)
  · obtain ⟨k, repl, _, e2, e3, e4, e5⟩ := addPos_ok l h.sorted s.offset s.rgba
    obtain ⟨⟨hk, hx⟩, e⟩ := e4 (by simp [e2, h2])
    rw [show (⟨s.offset, s.rgba⟩ : Stop) = s from rfl] at e
    rw [← e]
    refine valid_congr h ?_
    rw [List.map_set]
    apply List.ext_getElem
    · simp
    · intro i hi hi'
      rw [List.getElem_set]
      split
      · rename_i hki; subst hki; simpa using hx
      · rfl
  · obtain ⟨k, k1, k2, k3⟩ := split_exists l h.sorted s.offset
    obtain ⟨e1, e2⟩ := split_at l h.sorted s.offset k k1 k2 k3
    unfold add
    simp only [e1, e2]
    rw [if_neg h2]
    refine ⟨?_, ?_, ?_⟩
    · intro t ht
      rw [List.mem_append, List.mem_cons] at ht
      rcases ht with ht | rfl | ht
      · exact h.range t (List.mem_of_mem_take ht)
      · exact ⟨h0, h1⟩
      · exact h.range t (List.mem_of_mem_drop ht)
    · rw [List.pairwise_append, List.pairwise_cons]
      refine ⟨h.sorted.sublist (List.take_sublist _ _), ⟨?_, h.sorted.sublist (List.drop_sublist _ _)⟩, ?_⟩
      · intro t ht
        obtain ⟨i, hi, rfl⟩ := List.getElem_of_mem ht
        rw [List.length_drop] at hi
        rw [List.getElem_drop]
        have := k3 (k + i) (by omega) (by omega)
        omega
      · intro a ha b hb
        obtain ⟨i, hi, rfl⟩ := List.getElem_of_mem ha
        rw [List.length_take] at hi
        rw [List.getElem_take]
        have hi1 := k2 i (by omega) (by omega)
        rcases List.mem_cons.1 hb with rfl | hb
        · exact hi1
        · obtain ⟨j, hj, rfl⟩ := List.getElem_of_mem hb
          rw [List.length_drop] at hj
          rw [List.getElem_drop]
          have := k3 (k + j) (by omega) (by omega)
          omega
    · intro x
      have e : (l.take k ++ s :: l.drop k).countP (fun t => t.offset = x) =
          l.countP (fun t => t.offset = x) + if s.offset = x then 1 else 0 := by
        conv_rhs => rw [← List.take_append_drop k l]
        rw [List.countP_append, List.countP_append, List.countP_cons]
        simp only [decide_eq_true_eq]; omega
      rw [e]
      split
      · rename_i hx; subst hx; omega
      · have := h.two x; omega

/-! ## Ranges of offsets -/

theorem countWhile_eq (p : Stop → Bool) (l : List Stop) : countWhile p l = (l.takeWhile p).length := by
  induction l with
  | nil => rfl
  | cons a t ih =>
    rw [countWhile, List.takeWhile_cons]
    by_cases h : p a = true <;> simp [h, ih]

theorem take_countWhile (p : Stop → Bool) (l : List Stop) : l.take (countWhile p l) = l.takeWhile p := by
  rw [countWhile_eq]
  exact (List.prefix_iff_eq_take.1 (List.takeWhile_prefix p)).symm

theorem drop_countWhile (p : Stop → Bool) (l : List Stop) : l.drop (countWhile p l) = l.dropWhile p := by
  have h := List.takeWhile_append_dropWhile (p := p) (l := l)
  rw [← take_countWhile] at h
  have h2 := List.take_append_drop (countWhile p l) l
  exact List.append_cancel_left (h2.trans h.symm)

theorem countWhile_le (p : Stop → Bool) (l : List Stop) : countWhile p l ≤ l.length := by
  rw [countWhile_eq]; exact (List.takeWhile_prefix p).length_le

/-- In a list where `p` holds of a prefix, `filter` is `dropWhile`. -/
theorem dropWhile_filter (p : Stop → Bool) (l : List Stop) (h : l.Pairwise (fun a b => p b = true → p a = true)) :
    l.dropWhile p = l.filter (fun t => !p t) := by
  induction l with
  | nil => rfl
  | cons a t ih =>
    rw [List.pairwise_cons] at h
    by_cases ha : p a = true
    · simp [ha, ih h.2]
    · rw [List.dropWhile_cons, if_neg ha, List.filter_cons, if_pos (by simpa using ha)]
      congr 1
      symm
      rw [List.filter_eq_self]
      intro b hb
      have := h.1 b hb
      cases hb' : p b with
      | false => rfl
      | true => exact absurd (this hb') ha

theorem scanEq_none (x : Int) (l : List Stop) (hs : l.Pairwise (fun a b => a.offset ≤ b.offset)) (a : Nat) (h : scanEq x l a = none) :
    ∀ s ∈ l, s.offset ≠ x := by
  induction l generalizing a with
  | nil => simp
  | cons t ts ih =>
    rw [List.pairwise_cons] at hs
    rw [scanEq] at h
    intro s hsm
    split at h
    · rename_i ht
      rcases List.mem_cons.1 hsm with rfl | hsm
      · omega
      · have := hs.1 s hsm; omega
    · split at h
      · cases h
      · rename_i hne
        rcases List.mem_cons.1 hsm with rfl | hsm
        · exact hne
        · exact ih hs.2 (a + 1) h s hsm

theorem scanEq_some (x : Int) (l : List Stop) (a k : Nat) (h : scanEq x l a = some k) :
    a ≤ k ∧ ∃ hk : k - a < l.length, l[k - a].offset = x ∧ ∀ (i : Nat) (hi : i < l.length), i < k - a → l[i].offset < x := by
  induction l generalizing a with
  | nil => cases h
  | cons t ts ih =>
    rw [scanEq] at h
    split at h
    · cases h
    · split at h
      · rename_i h1 h2
        injection h with h
        subst h
        exact ⟨Nat.le_refl _, by simp, by simpa using h2, by omega⟩
      · rename_i h1 h2
        obtain ⟨i1, i2, i3, i4⟩ := ih (a + 1) h
        refine ⟨by omega, by simp only [List.length_cons]; omega, ?_, ?_⟩
        · have : (t :: ts)[k - a]'(by simp only [List.length_cons]; omega) = ts[k - (a + 1)] := by
            rw [List.getElem_cons, dif_neg (by omega)]
            congr 1
          rw [this]; exact i3
        · intro i hi hik
          match i with
          | 0 => simp only [List.getElem_cons_zero]; omega
          | i + 1 => exact i4 i (by simpa using hi) (by omega)

end Blend2D.Gradient
