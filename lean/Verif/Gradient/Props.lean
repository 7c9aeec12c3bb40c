import Verif.Gradient.Step
/-!
# Gradients (C20)
-/
namespace Blend2D.Gradient
open Cow Spec
open Blend2D.Arr (Result implMaxSize)

/-! ## When the code does what it should -/

/-- The calls for which the code does what `apply` says.  For the others see the counterexamples below. -/
def Right (own : Bool) (g : G) : Call → Prop
  | .create _ _ _ _ rs => Valid (rs.map Raw.num) ∨ ¬ (rs.all (fun r => inUnit r.offset))
  | .assignStops rs => Valid (rs.map Raw.num) ∨ ¬ (rs.all (fun r => inUnit r.offset))
  | .removeStop k => own = true ∨ g.stops.length ≤ k ∨ g.stops.length ≤ 1
  | .removeByIndex a b => own = true ∨ g.stops.take a ++ g.stops.drop b = g.stops ∨ g.stops.take a ++ g.stops.drop b = []
  | .removeByOffset x all => own = true ∨ (∀ s ∈ g.stops, some s.offset ≠ x) ∨ (all = true ∧ ∀ s ∈ g.stops, some s.offset = x) ∨ g.stops.length ≤ 1
  | .removeByOffsets lo hi => own = true ∨ (∀ s ∈ g.stops, within lo hi s.offset = false) ∨ ∀ s ∈ g.stops, within lo hi s.offset = true
  | .replaceStop k x _ => g.stops.length ≤ k ∨ inUnit x = true ∧ (own = true ∨ trim g = g.values)
  | .addStop _ _ | .setValues _ _ | .resetTransform | .applyTransform _ => own = true ∨ trim g = g.values
  | _ => True

theorem noThree_of_count (l : List Stop) (h : ∀ x : Int, l.countP (fun s => s.offset = x) ≤ 2) : NoThree l := by
  induction l with
  | nil => trivial
  | cons a t ih =>
    have ht := ih (fun x => by
      have := h x
      rw [List.countP_cons] at this; omega)
    match t, ht with
    | [], _ => trivial
    | [b], _ => trivial
    | b :: c :: t, ht =>
      refine ⟨?_, ht⟩
      rintro ⟨e1, e2⟩
      have := h a.offset
      rw [List.countP_cons, List.countP_cons, List.countP_cons] at this
      have e3 : c.offset = a.offset := by omega
      have e4 : b.offset = a.offset := by omega
      simp only [e3, e4, decide_true, ↓reduceIte] at this
      omega

theorem analyzeLoop_good (rs : List Raw) (hu : rs.all (fun r => inUnit r.offset)) : ∀ (was : Bool) (p q : Stop), was = decide (q.offset = p.offset) →
    (q :: rs.map Raw.num).Pairwise (fun a b : Stop => a.offset ≤ b.offset) → NoThree (p :: q :: rs.map Raw.num) →
    analyzeLoop false was (some q.offset) rs = .conforming := by
  induction rs with
  | nil => intros; rfl
  | cons r rs ih =>
    intro was p q hw hp hn
    simp only [List.all_cons, Bool.and_eq_true] at hu
    obtain ⟨v, hv, v0, v1⟩ := inUnit_some hu.1
    have hnum : r.num.offset = v := by simp [Raw.num, hv]
    rw [List.map_cons] at hp hn
    rw [analyzeLoop, unit_eq, hu.1]
    simp only [Bool.not_true, Bool.false_eq_true, ↓reduceIte, Bool.false_or]
    have hle := (List.pairwise_cons.1 hp).1 r.num (by simp)
    have e1 : F.lt r.offset (some q.offset) = false := by rw [hv]; simp only [F.lt, decide_eq_false_iff_not]; omega
    have e2 : (F.eq r.offset (some q.offset) && was) = false := by
      rw [hv, hw]
      have := hn.1
      rw [hnum] at this
      simp only [F.eq, Bool.and_eq_false_iff, beq_eq_false_iff_ne, decide_eq_false_iff_not]
      by_contra hc
      push Not at hc
      exact this ⟨hc.2.symm, hc.1.symm⟩
    rw [e1, e2, Bool.or_false]
    have := ih hu.2 (F.eq r.offset (some q.offset)) q r.num (by rw [hv, hnum]; rfl) (List.pairwise_cons.1 hp).2 hn.2
    rw [hnum] at this
    rw [hv] at this ⊢
    exact this

theorem analyze_good (rs : List Raw) (hu : rs.all (fun r => inUnit r.offset)) (hv : Valid (rs.map Raw.num)) : analyze rs = .conforming := by
  refine analyzeLoop_good rs hu false ⟨-one - 1, 0⟩ ⟨-one, 0⟩ (by simp only [Bool.false_eq, decide_eq_false_iff_not]; omega) ?_ ?_
  · rw [List.pairwise_cons]
    refine ⟨?_, hv.sorted⟩
    intro s hs
    have := (hv.range s hs).1
    have h1 : 0 < one := by unfold one; positivity
    simp only; omega
  · have hn := noThree_of_count _ hv.two
    have h1 : 0 < one := by unfold one; positivity
    cases hr : rs.map Raw.num with
    | nil => trivial
    | cons a t =>
      have ha := (hv.range a (by rw [hr]; simp)).1
      rw [hr] at hn
      refine ⟨by simp only; omega, ?_⟩
      cases t with
      | nil => trivial
      | cons b t => exact ⟨by simp only; omega, hn⟩

theorem effect_right (own : Bool) (g : G) (hg : OkG g) (c : Call) (h : Right own g c) : effect own g c = apply g c := by
  have hk : ∀ l : List Stop, (own = true ∨ l = g.stops ∨ l = []) → (if own = true ∨ l.length = g.stops.length then l else []) = l := by
    rintro l (h | h | h)
    · rw [if_pos (.inl h)]
    · rw [if_pos (.inr (by rw [h]))]
    · rw [h]; simp
  have hv : (own = true ∨ trim g = g.values) → (if own = true then g.values else trim g) = g.values := by
    intro h; split
    · rfl
    · rcases h with h | h
      · contradiction
      · exact h
  have hass : ∀ rs : List Raw, (Valid (rs.map Raw.num) ∨ ¬ (rs.all (fun r => inUnit r.offset))) → rs.all (fun r => inUnit r.offset) = true →
      assigned rs = normalize (rs.map Raw.num) := by
    intro rs h hu
    rcases h with h | h
    · exact assigned_normalize rs (analyze_good rs hu h)
    · contradiction
  cases c with
  | reset | shrink | reserve | setType | setExtend | resetStops => rfl
  | create type extend values m rs =>
    simp only [effect, Spec.apply]
    split
    · rfl
    · rename_i hn
      rw [hass rs h (by by_contra hc; exact hn (.inr (.inr hc)))]
  | setValues k vs =>
    simp only [effect, Spec.apply, hv h]
    split
    · rfl
    · split
      · rename_i h0
        rw [h0]; simp [overwrite]
      · rfl
  | assignStops rs =>
    simp only [effect, Spec.apply]
    split
    · rfl
    · rename_i hn
      rw [hass rs h (by by_contra hc; exact hn hc)]
  | addStop x rgba => simp only [effect, Spec.apply, hv h, ite_self]
  | removeStop k =>
    simp only [effect, Spec.apply]
    rw [hk]
    rcases h with h | h | h
    · exact .inl h
    · right; left; exact List.eraseIdx_of_length_le h
    · right
      match hs : g.stops with
      | [] => simp
      | [a] => cases k <;> simp
      | a :: b :: t => rw [hs] at h; simp at h
  | removeByIndex a b => simp only [effect, Spec.apply]; rw [hk _ h]
  | removeByOffset x all =>
    simp only [effect, Spec.apply]
    cases hu : inUnit x with
    | false => rfl
    | true =>
      obtain ⟨v, rfl, _, _⟩ := inUnit_some hu
      simp only [Option.getD_some, ↓reduceIte]
      rw [hk]
      rcases h with h | h | ⟨rfl, h⟩ | h
      · exact .inl h
      · right; left
        have h' : ∀ s ∈ g.stops, s.offset ≠ v := fun s hs hc => h s hs (by rw [hc])
        split
        · rw [List.filter_eq_self]; intro t ht; simpa using h' t ht
        · apply List.eraseP_of_forall_not; intro t ht; simpa using h' t ht
      · right; right
        simp only [↓reduceIte, List.filter_eq_nil_iff]
        intro t ht
        have := h t ht
        simp only [Option.some.injEq] at this
        simp [this]
      · right
        match hs : g.stops with
        | [] => simp
        | [a] => by_cases ha : a.offset = v <;> cases all <;> simp [ha]
        | a :: b :: t => rw [hs] at h; simp at h
  | removeByOffsets lo hi =>
    simp only [effect, Spec.apply]
    rw [hk]
    rcases h with h | h | h
    · exact .inl h
    · right; left; rw [List.filter_eq_self]; intro t ht; simp [h t ht]
    · right; right; rw [List.filter_eq_nil_iff]; intro t ht; simp [h t ht]
  | replaceStop k x rgba =>
    simp only [effect, Spec.apply]
    rcases h with h | ⟨h1, h2⟩
    · rw [List.getElem?_eq_none h]
    · rw [hv h2, h1]; simp only [↓reduceIte]
  | resetTransform =>
    simp only [effect, Spec.apply, hv h]
    split
    · rename_i ht
      have h1 := hg.tt
      rw [ht] at h1
      have h2 := (getType_identity _).1 h1.symm
      rw [← h2, ← ht]
    · rfl
  | applyTransform f => simp only [effect, Spec.apply, hv h]

/-! ## C20 -/

variable {s : St} {i : Nat} {g : G}

/-- C20: after any history the stops of every gradient are sorted, within `[0, 1]`, and at most two are at one offset. -/
theorem C20_stops_valid (h : Reach s) (i : Nat) (g : G) (hg : valueOf s i = some g) : Valid g.stops := by
  obtain ⟨L, hR⟩ := reach_rel h
  rw [hR.value] at hg
  exact (hR.ok g (List.mem_of_getElem? hg)).valid

/-- C20 (partial): after any history every call does what it should, or it runs out of memory and does nothing; no other
gradient changes.  Missing: the calls that are not `Right` or not `Safe`, for which this is false, see below. -/
theorem C20_calls_partial (h : Reach s) (hg : valueOf s i = some g) (ok : Bool) (c : Call) (hpre : Pre g c)
    (hs : Safe (ownOf s i) g c) (hr : Right (ownOf s i) g c) :
    ∃ r s', call ok s i c = some (r, s') ∧
      ((r = .outOfMemory ∧ s' = s ∧ (ok = false ∨ ∃ n, c = .reserve n ∧ 2 ^ 58 ≤ n)) ∨
       (r = (apply g c).1 ∧ valueOf s' i = some (apply g c).2 ∧ ∀ j, j ≠ i → valueOf s' j = valueOf s j)) := by
  obtain ⟨L, hR⟩ := reach_rel h
  rw [hR.value] at hg
  obtain ⟨hi, rfl⟩ := List.getElem?_eq_some_iff.1 hg
  obtain ⟨r, s', h1, h2⟩ := call_ok hR hi ok c hpre hs
  rw [effect_right _ _ (hR.ok _ (List.getElem_mem hi)) _ hr] at h2
  refine ⟨r, s', h1, h2.imp id ?_⟩
  rintro ⟨e1, e2⟩
  refine ⟨e1, by rw [e2.value, List.getElem?_set_self hi], ?_⟩
  intro j hj
  rw [e2.value, hR.value, List.getElem?_set_ne (Ne.symm hj)]

/-- C20: what every call does, right or not. -/
theorem C20_calls_effect (h : Reach s) (hg : valueOf s i = some g) (ok : Bool) (c : Call) (hpre : Pre g c) (hs : Safe (ownOf s i) g c) :
    ∃ r s', call ok s i c = some (r, s') ∧
      ((r = .outOfMemory ∧ s' = s ∧ (ok = false ∨ ∃ n, c = .reserve n ∧ 2 ^ 58 ≤ n)) ∨
       (r = (effect (ownOf s i) g c).1 ∧ valueOf s' i = some (effect (ownOf s i) g c).2 ∧ ∀ j, j ≠ i → valueOf s' j = valueOf s j)) := by
  obtain ⟨L, hR⟩ := reach_rel h
  rw [hR.value] at hg
  obtain ⟨hi, rfl⟩ := List.getElem?_eq_some_iff.1 hg
  obtain ⟨r, s', h1, h2⟩ := call_ok hR hi ok c hpre hs
  refine ⟨r, s', h1, h2.imp id ?_⟩
  rintro ⟨e1, e2⟩
  refine ⟨e1, by rw [e2.value, List.getElem?_set_self hi], ?_⟩
  intro j hj
  rw [e2.value, hR.value, List.getElem?_set_ne (Ne.symm hj)]

/-- C20: assignments copy or move the value; other gradients stay as they are. -/
theorem C20_assign (h : Reach s) (j : Nat) (gi gj : G) (hi : valueOf s i = some gi) (hj : valueOf s j = some gj) :
    (∃ s', assignWeak s i j = some (.success, s') ∧ valueOf s' i = some gj ∧ ∀ k, k ≠ i → valueOf s' k = valueOf s k) ∧
    (∃ s', assignMove s i j = some (.success, s') ∧ valueOf s' i = some gj ∧ (i ≠ j → valueOf s' j = some .default) ∧
      ∀ k, k ≠ i → k ≠ j → valueOf s' k = valueOf s k) := by
  obtain ⟨L, hR⟩ := reach_rel h
  rw [hR.value] at hi hj
  obtain ⟨hil, rfl⟩ := List.getElem?_eq_some_iff.1 hi
  obtain ⟨hjl, rfl⟩ := List.getElem?_eq_some_iff.1 hj
  constructor
  · obtain ⟨s', h1, h2⟩ := assignWeak_ok hR hil hjl
    refine ⟨s', h1, by rw [h2.value, List.getElem?_set_self hil], ?_⟩
    intro k hk
    rw [h2.value, hR.value, List.getElem?_set_ne (Ne.symm hk)]
  · obtain ⟨s', h1, h2⟩ := assignMove_ok hR hil hjl
    refine ⟨s', h1, by rw [h2.value, List.getElem?_set_self (by rw [List.length_set]; exact hil)], ?_, ?_⟩
    · intro hne
      rw [h2.value, List.getElem?_set_ne hne, List.getElem?_set_self hjl]
    · intro k hk1 hk2
      rw [h2.value, hR.value, List.getElem?_set_ne (Ne.symm hk1), List.getElem?_set_ne (Ne.symm hk2)]

/-- C20: rendering with a gradient never uses a stale cache: the info and the lookup table are those of its current
stops, however they were cached and shared before, and no assertion fails.  It changes no gradient. -/
theorem C20_rendering_uses_current_stops (h : Reach s) (hg : valueOf s i = some g) (ok hq : Bool) :
    ∃ lut s', ensure ok s i hq = some (computeInfo g.stops, lut, s') ∧ (∀ j, valueOf s' j = valueOf s j) ∧
      (∀ l, lut = some l → l.src = g.stops ∧ ∃ inf, computeInfo g.stops = some inf ∧ inf.solid = false ∧ l.size = inf.lut hq) ∧
      (lut = none → ok = false ∨ ∀ inf, computeInfo g.stops = some inf → inf.solid = true) := by
  obtain ⟨L, hR⟩ := reach_rel h
  rw [hR.value] at hg
  obtain ⟨hi, rfl⟩ := List.getElem?_eq_some_iff.1 hg
  obtain ⟨lut, s', h1, h2, h3, h4⟩ := ensure_ok hR hi ok hq
  refine ⟨lut, s', h1, fun j => by rw [h2.value, hR.value], ?_, h4⟩
  intro l hl
  obtain ⟨inf, e1, e2, e3⟩ := h3 l hl
  exact ⟨by rw [e3], inf, e1, e2, by rw [e3]⟩

/-- C20: an impl exists as long as a gradient uses it, and no longer; its counter is exact. -/
theorem C20_no_leak_no_dangling (h : Reach s) (a : Nat) :
    ((∃ i : Nat, s.w.vars[i]? = some (Core.dyn a)) ↔ ∃ b, s.w.block? a = some b) ∧
    (∀ b, s.w.block? a = some b → b.rc + 1 = b.base + refs s.w.vars a) := by
  obtain ⟨L, hR⟩ := reach_rel h
  have hr := hR.rel
  refine ⟨⟨?_, ?_⟩, ?_⟩
  · rintro ⟨i, hi⟩
    exact hr.live a (by rw [List.append_nil]; exact refs_mem s.w.vars i a hi)
  · rintro ⟨b, hb⟩
    have := (hr.cnt a b hb).2.1
    rw [List.append_nil] at this
    obtain ⟨x, hx1, hx2⟩ := List.countP_pos_iff.1 this
    obtain ⟨i, hi⟩ := List.mem_iff_getElem?.1 hx1
    cases x with
    | sso s => simp at hx2
    | dyn b' =>
      simp only [is_dyn, beq_iff_eq] at hx2
      exact ⟨i, by rw [hi, hx2]⟩
  · intro b hb
    have := (hr.cnt a b hb).2.2
    rwa [List.append_nil] at this

theorem halve_congr {α β γ : Type} (data : Array α) (v : β) (u : γ) (p : α → β → Bool) (q : α → γ → Bool) (h : ∀ a, p a v = q a u) (base size : Nat) :
    Algo.halve data v p base size = Algo.halve data u q base size := by
  induction size using Nat.strongRecOn generalizing base with
  | ind size ih =>
    rw [Algo.halve, Algo.halve]
    by_cases h0 : size / 2 = 0
    · simp [h0]
    · simp only [h0, ↓reduceIte, h]
      split
      · rfl
      · exact ih _ (by omega) _

/-- C20: `index_of_stop` finds the first stop at an offset, if there is one. -/
theorem C20_index_of_stop (l : List Stop) (hv : Valid l) (x : F) :
    ∃ r, indexOfStop l x = some r ∧
      (∀ k, r = some k → ∃ h : k < l.length, some l[k].offset = x ∧ ∀ j (hj : j < k), some l[j].offset ≠ x) ∧
      (r = none → ∀ t ∈ l, some t.offset ≠ x) := by
  unfold indexOfStop
  by_cases h0 : l.length = 0
  · rw [if_pos h0]
    rw [List.length_eq_zero_iff] at h0
    exact ⟨none, rfl, by simp, by simp [h0]⟩
  · rw [if_neg h0]
    cases x with
    | none =>
      have hb : Algo.binarySearch l.toArray l.length (none : F) (fun t v => F.le (some t.offset) v) (fun t v => F.eq (some t.offset) v) = some none := by
        obtain ⟨⟨r, h1, _⟩, _⟩ := Algo.C14_binary_search_safe l.toArray l.length (by simp) (none : F) (fun t v => F.le (some t.offset) v) (fun _ _ => false) (fun t v => F.eq (some t.offset) v)
        rw [h1]
        unfold Algo.binarySearch at h1
        rw [if_neg h0] at h1
        split at h1
        · cases h1
        · split at h1
          · cases h1
          · simp only [F.eq, Bool.false_eq_true, ↓reduceIte, Option.some.injEq] at h1
            rw [← h1]
      rw [hb]
      exact ⟨none, rfl, by simp, by simp⟩
    | some v =>
      have hs : Algo.SortedBy (fun t : Stop => t.offset) l.toArray := by
        intro a b hb hab
        simp only [List.getElem_toArray]
        exact getElem_le hv.sorted (by simpa using hb) hab
      obtain ⟨r, h1, h2, h3⟩ := Algo.C14_binary_search (fun t : Stop => t.offset) l.toArray v hs
      have hb : Algo.binarySearch l.toArray l.length (some v : F) (fun t v => F.le (some t.offset) v) (fun t v => F.eq (some t.offset) v) = some r := by
        rw [← h1]
        unfold Algo.binarySearch
        rw [List.size_toArray, if_neg h0, if_neg h0, halve_congr _ (some v : F) v _ (fun (a : Stop) v => decide (a.offset ≤ v)) (fun a => rfl)]
        rfl
      rw [hb]
      simp only [Option.bind_eq_bind, Option.bind_some]
      cases r with
      | none =>
        refine ⟨none, rfl, by simp, fun _ t ht => ?_⟩
        obtain ⟨k, hk, rfl⟩ := List.getElem_of_mem ht
        have := h3 rfl k (by simpa using hk)
        simpa using this
      | some k =>
        obtain ⟨hk, hkv⟩ := h2 k rfl
        simp only [List.size_toArray] at hk
        simp only [List.getElem_toArray] at hkv
        simp only
        -- two stops at most are at `v`
        have hlow : ∀ j (hj : j + 2 ≤ k), l[j].offset ≠ v := by
          intro j hj hc
          have e1 := getElem_le hv.sorted (i := j) (j := j + 1) (by omega) (by omega)
          have e2 := getElem_le hv.sorted (i := j + 1) (j := k) hk (by omega)
          have hn := hv.two v
          have hsub : [l[j], l[j + 1], l[k]].Sublist l := by
            have hd : l.drop j = l[j] :: l.drop (j + 1) := (List.getElem_cons_drop (by omega)).symm
            have hd1 : l.drop (j + 1) = l[j + 1] :: l.drop (j + 2) := (List.getElem_cons_drop (by omega)).symm
            refine List.Sublist.trans ?_ (List.drop_sublist j l)
            rw [hd, hd1]
            refine List.Sublist.cons_cons _ (List.Sublist.cons_cons _ ?_)
            rw [List.singleton_sublist]
            have : l[k] = (l.drop (j + 2))[k - (j + 2)]'(by rw [List.length_drop]; omega) := by
              rw [List.getElem_drop]; congr 1; omega
            rw [this]; exact List.getElem_mem _
          have := hsub.countP_le (p := fun s => decide (s.offset = v))
          have e3 : l[j + 1].offset = v := by omega
          simp only [List.countP_cons, hc, e3, hkv, decide_true, ↓reduceIte, List.countP_nil] at this
          omega
        by_cases hk0 : k > 0
        · rw [if_pos hk0, List.getElem?_eq_getElem (show k - 1 < l.length by omega)]
          simp only [Option.bind_some]
          refine ⟨_, rfl, ?_, by simp⟩
          intro m hm
          by_cases he : l[k - 1].offset = v
          · have : F.eq (some l[k - 1].offset) (some v) = true := by simp [F.eq, he]
            rw [if_pos this] at hm
            simp only [Option.some.injEq] at hm
            subst hm
            refine ⟨by omega, by rw [he], ?_⟩
            intro j hj
            have := hlow j (by omega)
            simpa using this
          · have : ¬ F.eq (some l[k - 1].offset) (some v) = true := by simp [F.eq, he]
            rw [if_neg this] at hm
            simp only [Option.some.injEq] at hm
            subst hm
            refine ⟨hk, by rw [hkv], ?_⟩
            intro j hj
            by_cases hjk : j = k - 1
            · subst hjk; simpa using he
            · have := hlow j (by omega)
              simpa using this
        · rw [if_neg hk0]
          refine ⟨_, rfl, ?_, by simp⟩
          intro m hm
          simp only [Option.some.injEq] at hm
          subst hm
          exact ⟨hk, by rw [hkv], fun j hj => absurd hj (by omega)⟩

/-- C20 (partial): `equals` compares types, extend modes, transformations and stops.  Missing: values, which it ignores. -/
theorem C20_equals_partial (h : Reach s) (j : Nat) (gi gj : G) (hi : valueOf s i = some gi) (hj : valueOf s j = some gj) :
    equals s i j = some (decide (gi.fields = gj.fields ∧ gi.transform = gj.transform ∧ gi.stops = gj.stops)) := by
  obtain ⟨L, hR⟩ := reach_rel h
  rw [hR.value] at hi hj
  obtain ⟨hil, rfl⟩ := List.getElem?_eq_some_iff.1 hi
  obtain ⟨hjl, rfl⟩ := List.getElem?_eq_some_iff.1 hj
  obtain ⟨V⟩ := view hR hil
  obtain ⟨W⟩ := view hR hjl
  have v1 : V.x.stops = L[i].stops := V.hx.stops
  have v2 : V.x.transform = L[i].transform := V.hx.transform
  have w1 : W.x.stops = L[j].stops := W.hx.stops
  have w2 : W.x.transform = L[j].transform := W.hx.transform
  simp only [equals, V.hv, W.hv, V.look, W.look, Option.bind_eq_bind, Option.bind_some, v1, v2, w1, w2]
  by_cases hf : L[i].fields = L[j].fields
  · rw [if_neg (by simpa using hf)]
    by_cases hc : V.c = W.c
    · rw [if_pos hc]
      have : V.x = W.x := by
        have a := V.hi
        have b := W.hi
        rw [hc, b] at a
        simpa using a.symm
      have t1 : L[i].transform = L[j].transform := by rw [← v2, ← w2, this]
      have t2 : L[i].stops = L[j].stops := by rw [← v1, ← w1, this]
      simp [hf, t1, t2]
    · rw [if_neg hc]
      simp only [Option.pure_def, Option.some.injEq, hf, true_and]
      rw [Bool.eq_iff_iff]
      simp only [decide_eq_true_eq]
      constructor
      · rintro ⟨a, _, b⟩; exact ⟨a, b⟩
      · rintro ⟨a, b⟩; exact ⟨a, by rw [b], b⟩
  · rw [if_pos hf]
    simp [hf]

/-! ## What the renderer learns from the stops -/

/-- The 8-bit alpha of a stop. -/
def alpha8 (t : Stop) : Nat := t.rgba / 2 ^ 56 % 256

theorem msk_alpha (t : Stop) : msk t / 2 ^ 56 = alpha8 t := by
  unfold msk alpha8
  rw [← Nat.shiftRight_eq_div_pow, Nat.shiftRight_and_distrib, Nat.shiftRight_eq_div_pow]
  have : (0xFF00FF00FF00FF00 : Nat) >>> 56 = 2 ^ 8 - 1 := by decide
  rw [this, Nat.and_two_pow_sub_one_eq_mod]

theorem infoLoop_spec (l : List Stop) : ∀ (a b tr : Bool) (prev : Nat), (prev < 0xFF00000000000000 → a = true) → (prev > 0x00FFFFFFFFFFFFFF → b = true) →
    infoLoop a b tr prev l = (a || l.any (fun t => msk t < 0xFF00000000000000), b || l.any (fun t => msk t > 0x00FFFFFFFFFFFFFF), tr || l.any (fun t => msk t ≠ prev)) := by
  induction l with
  | nil => intros; simp [infoLoop]
  | cons t l ih =>
    intro a b tr prev ha hb
    rw [infoLoop]
    by_cases hv : msk t = prev
    · simp only [hv, ↓reduceIte, List.any_cons, ne_eq, not_true_eq_false, decide_false, Bool.false_or]
      rw [ih a b tr prev ha hb]
      refine Prod.ext ?_ (Prod.ext ?_ rfl)
      · by_cases h : prev < 0xFF00000000000000
        · simp [ha h]
        · simp [h]
      · by_cases h : prev > 0x00FFFFFFFFFFFFFF
        · simp [hb h]
        · simp [h]
    · simp only [hv, ↓reduceIte, List.any_cons, ne_eq, not_false_eq_true, decide_true, Bool.true_or, Bool.or_true]
      rw [ih _ _ true (msk t) (by intro h; simp [h]) (by intro h; simp [h])]
      simp [Bool.or_assoc]

theorem lutSizeOf_range (tr : Bool) (l : List Stop) : lutSizeOf tr l = 256 ∨ lutSizeOf tr l = 512 ∨ lutSizeOf tr l = 1024 := by
  unfold lutSizeOf
  by_cases h : tr = false
  · rw [if_pos h]; exact .inl rfl
  · rw [if_neg h]
    split
    · exact .inl rfl
    · split_ifs
      · exact .inl rfl
      · exact .inr (.inl rfl)
    · split_ifs
      · exact .inr (.inl rfl)
      · exact .inr (.inr rfl)
    · exact .inr (.inr rfl)

/-- C20: the renderer fills with a solid color exactly if all stops have the same color or all are transparent (with 8 bits
per component), and takes the gradient for opaque exactly if all stops are. -/
theorem C20_info (l : List Stop) (hl : l ≠ []) : ∃ inf, computeInfo l = some inf ∧
    (inf.solid = true ↔ (∀ t ∈ l, alpha8 t = 0) ∨ ∀ t ∈ l, ∀ u ∈ l, msk t = msk u) ∧
    (inf.frgb = true ↔ ∀ t ∈ l, alpha8 t = 255) ∧ (inf.lutSize = 256 ∨ inf.lutSize = 512 ∨ inf.lutSize = 1024) := by
  match l, hl with
  | s :: t, _ =>
    have hspec := infoLoop_spec t (msk s < 0xFF00000000000000) (msk s > 0x00FFFFFFFFFFFFFF) false (msk s) (by simp) (by simp)
    refine ⟨_, rfl, ?_, ?_, ?_⟩
    · simp only [hspec]
      have hz : ∀ u : Stop, (msk u > 0x00FFFFFFFFFFFFFF) ↔ alpha8 u ≠ 0 := by
        intro u; have := msk_alpha u; omega
      by_cases h0 : ∀ u ∈ s :: t, alpha8 u = 0
      · have : (decide (msk s > 0x00FFFFFFFFFFFFFF) || t.any (fun t => decide (msk t > 0x00FFFFFFFFFFFFFF))) = false := by
          simp only [Bool.or_eq_false_iff, decide_eq_false_iff_not, hz, List.any_eq_false, decide_eq_true_eq]
          exact ⟨by simpa using h0 s (by simp), fun u hu => by simpa using h0 u (by simp [hu])⟩
        simp only [this, ↓reduceIte, Bool.not_false, true_iff]
        exact .inl h0
      · have : (decide (msk s > 0x00FFFFFFFFFFFFFF) || t.any (fun t => decide (msk t > 0x00FFFFFFFFFFFFFF))) = true := by
          by_contra hc
          apply h0
          simp only [Bool.not_eq_true, Bool.or_eq_false_iff, decide_eq_false_iff_not, hz, List.any_eq_false, decide_eq_true_eq] at hc
          intro u hu
          rcases List.mem_cons.1 hu with rfl | hu
          · simpa using hc.1
          · simpa using hc.2 u hu
        simp only [this, Bool.true_eq_false, ↓reduceIte, h0, false_or, Bool.false_or, Bool.not_eq_true', List.any_eq_false, decide_eq_true_eq, ne_eq, not_not]
        constructor
        · intro h u hu v hv
          have key : ∀ u ∈ s :: t, msk u = msk s := by
            intro u hu
            rcases List.mem_cons.1 hu with rfl | hu
            · rfl
            · exact h u hu
          rw [key u hu, key v hv]
        · intro h u hu
          exact h u (by simp [hu]) s (by simp)
    · simp only [hspec]
      have hz : ∀ u : Stop, (msk u < 0xFF00000000000000) ↔ alpha8 u ≠ 255 := by
        intro u
        have h1 := msk_alpha u
        have h2 : alpha8 u < 256 := by unfold alpha8; omega
        omega
      simp only [Bool.not_eq_true', Bool.or_eq_false_iff, decide_eq_false_iff_not, hz, List.any_eq_false, decide_eq_true_eq, ne_eq, not_not]
      constructor
      · rintro ⟨h1, h2⟩ u hu
        rcases List.mem_cons.1 hu with rfl | hu
        · exact h1
        · exact h2 u hu
      · intro h
        exact ⟨h s (by simp), fun u hu => h u (by simp [hu])⟩
    · exact lutSizeOf_range _ _

/-! ## Examples -/

/-- Runs calls on gradients; `none` if one is undefined. -/
def run (s : St) : List (Nat × Call) → Option St
  | [] => some s
  | (i, c) :: t => do
    let (_, s) ← call true s i c
    run s t

/-- A program with two gradients: makes stops on the first one and copies it to the second one. -/
def shared (cs : List (Nat × Call)) : Option St := do
  let s ← run (initial 2) cs
  let (_, s) ← assignWeak s 1 0
  return s

def three : List (Nat × Call) := [(0, .addStop (some one) 1), (0, .addStop (some 0) 2), (0, .addStop (some k5) 3)]

def stopsOf (s : Option St) (i : Nat) : Option (List Stop) := do
  let s ← s
  (valueOf s i).map (·.stops)

theorem reach_run {s s' : St} (h : Reach s) (cs : List (Nat × Call)) (hr : run s cs = some s')
    (hp : ∀ p ∈ cs, (∀ g, Pre g p.2) ∧ (∀ o g, Safe o g p.2)) (hi : ∀ p ∈ cs, p.1 < s.w.vars.length) : Reach s' := by
  induction cs generalizing s with
  | nil => simp only [run, Option.some.injEq] at hr; rw [← hr]; exact h
  | cons p cs ih =>
    obtain ⟨L, hR⟩ := reach_rel h
    have hil : p.1 < L.length := by rw [← hR.len]; exact hi p (by simp)
    have hv : valueOf s p.1 = some L[p.1] := by rw [hR.value, List.getElem?_eq_getElem hil]
    obtain ⟨r, s1, h1, h2⟩ := call_ok hR hil true p.2 ((hp p (by simp)).1 _) ((hp p (by simp)).2 _ _)
    simp only [run, h1, Option.bind_eq_bind, Option.bind_some] at hr
    have hl : s1.w.vars.length = s.w.vars.length := by
      rcases h2 with ⟨_, rfl, _⟩ | ⟨_, h2⟩
      · rfl
      · rw [h2.len, List.length_set, hR.len]
    exact ih (.call true p.1 p.2 _ r s1 h hv ((hp p (by simp)).1 _) ((hp p (by simp)).2 _ _) h1) hr (fun q hq => hp q (by simp [hq]))
      (fun q hq => by rw [hl]; exact hi q (by simp [hq]))

def plain : List (Nat × Call) := [(0, .create 0 1 [1, 2, 3, 4] Matrix.identity [⟨some 0, 2⟩, ⟨some k5, 3⟩, ⟨some one, 1⟩])]

theorem plain_ok (p : Nat × Call) (h : p ∈ plain) : (∀ g, Pre g p.2) ∧ (∀ o g, Safe o g p.2) := by
  simp only [plain, List.mem_singleton] at h
  subst h
  exact ⟨fun g => ⟨by decide, by decide⟩, fun _ _ => trivial⟩

/-- The hypotheses of the theorems are met: a program that shares a gradient of three stops and renders with it. -/
example : ∃ s, Reach s ∧ ownOf s 0 = false ∧ ownOf s 1 = false ∧ ∃ g, valueOf s 1 = some g ∧ g.stops = [⟨0, 2⟩, ⟨k5, 3⟩, ⟨one, 1⟩] ∧
    (∀ rgba, Right (ownOf s 1) g (.addStop (some k5) rgba)) ∧ Right (ownOf s 1) g (.removeByOffsets (some 0) (some one)) := by
  have h1 : (run (initial 2) plain).isSome = true := by decide +kernel
  obtain ⟨s1, hs1⟩ := Option.isSome_iff_exists.1 h1
  have r1 : Reach s1 := reach_run (.init 2) plain hs1 plain_ok (by intro p hp; simp only [plain, List.mem_singleton] at hp; subst hp; decide)
  have hl : (run (initial 2) plain).map (fun s => s.w.vars.length) = some 2 := by decide +kernel
  rw [hs1] at hl
  simp only [Option.map_some, Option.some.injEq] at hl
  have h2 : ((run (initial 2) plain).bind (fun s => assignWeak s 1 0)).isSome = true := by decide +kernel
  rw [hs1] at h2
  obtain ⟨⟨r, s2⟩, hs2⟩ := Option.isSome_iff_exists.1 h2
  refine ⟨s2, .assignWeak 1 0 r s2 r1 (by omega) (by omega) hs2, ?_⟩
  have h3 : ((run (initial 2) plain).bind (fun s => assignWeak s 1 0)).map (fun p => (ownOf p.2 0, ownOf p.2 1, (valueOf p.2 1).map (fun g => (g.stops, trim g == g.values)))) =
      some (false, false, some ([⟨0, 2⟩, ⟨k5, 3⟩, ⟨one, 1⟩], true)) := by decide +kernel
  rw [hs1, hs2] at h3
  simp only [Option.map_some, Option.some.injEq, Prod.mk.injEq, Option.map_eq_some_iff] at h3
  obtain ⟨e1, e2, g, e3, e4, e5⟩ := h3
  refine ⟨e1, e2, g, e3, e4, fun _ => .inr (by simpa using e5), .inr (.inr ?_)⟩
  rw [e4]; decide +kernel

/-- A third stop at one offset replaces the second one; removing by offset removes both. -/
example : stopsOf (run (initial 1) (three ++ [(0, .addStop (some one) 4), (0, .addStop (some one) 5)])) 0 = some [⟨0, 2⟩, ⟨k5, 3⟩, ⟨one, 1⟩, ⟨one, 5⟩] := by decide +kernel
example : stopsOf (run (initial 1) (three ++ [(0, .addStop (some one) 4), (0, .removeByOffset (some one) true)])) 0 = some [⟨0, 2⟩, ⟨k5, 3⟩] := by decide +kernel
example : stopsOf (run (initial 1) (three ++ [(0, .replaceStop 0 (some one) 9)])) 0 = some [⟨k5, 3⟩, ⟨one, 1⟩, ⟨one, 9⟩] := by decide +kernel

/-- C20: creating a gradient with the values its type has (two points; two points and two radii; a point, an angle and a repeat
count) keeps all of them and clears the others. -/
theorem C20_created_values (h : Reach s) (hg : valueOf s i = some g) (type extend : Nat) (v : List Rat) (m : Matrix.Mat Rat) (rs : List Raw)
    (hrs : rs.length < 2 ^ 58)
    (hv : (type = 0 ∧ v.length = 4) ∨ (type = 1 ∧ v.length = 6) ∨ (type = 2 ∧ v.length = 4))
    (hc : call ok s i (.create type extend v m rs) = some (.success, s')) :
    (valueOf s' i).map (·.values) = some (v ++ List.replicate (6 - v.length) 0) := by
  have hn : valueCount type = v.length := by
    rcases hv with ⟨rfl, h⟩ | ⟨rfl, h⟩ | ⟨rfl, h⟩ <;> simp [valueCount, h]
  obtain ⟨r, s2, e1, e2⟩ := C20_calls_effect h hg ok (.create type extend v m rs) ⟨by omega, hrs⟩ trivial
  rw [e1] at hc
  obtain ⟨rfl, rfl⟩ := Prod.mk.inj (Option.some.inj hc)
  rcases e2 with ⟨h1, -⟩ | ⟨h1, h2, -⟩
  · cases h1
  · rw [h2, Option.map_some]
    simp only [effect] at h1 ⊢
    split at h1
    · cases h1
    · rename_i hcond
      rw [if_neg hcond, hn]
      simp [initValues]

example : ((run (initial 1) [(0, .create 1 0 [1, 2, 3, 4, 5, 6] Matrix.identity [])]).bind (fun s => valueOf s 0)).map (·.values) =
    some [1, 2, 3, 4, 5, 6] := by decide +kernel

/-! ## Where the code is wrong -/

/-- Assigning stops that have to be sorted loses the last one. -/
theorem C20_sorting_loses_a_stop :
    stopsOf (run (initial 1) [(0, .assignStops [⟨some one, 1⟩, ⟨some 0, 2⟩])]) 0 = some [⟨0, 2⟩] ∧
    normalize [⟨one, 1⟩, ⟨0, 2⟩] = [⟨0, 2⟩, ⟨one, 1⟩] := by
  constructor
  · decide +kernel
  · have h : ¬ one ≤ 0 := by decide +kernel
    simp [normalize, sort, List.mergeSort, List.MergeSort.Internal.splitInTwo, thin, h]

/-- Removing one stop of a shared gradient removes all. -/
theorem C20_removing_from_shared_removes_all :
    stopsOf (shared three) 1 = some [⟨0, 2⟩, ⟨k5, 3⟩, ⟨one, 1⟩] ∧
    stopsOf ((shared three).bind (fun s => run s [(1, .removeStop 0)])) 1 = some [] := by
  constructor <;> decide +kernel

/-- Replacing a stop with an invalid offset reports an error and removes the stop. -/
theorem C20_failed_replace_removes :
    ((run (initial 1) three).bind (fun s => call true s 0 (.replaceStop 0 none 7))).map (fun p => (p.1, stopsOf (some p.2) 0)) =
      some (.invalidValue, some [⟨k5, 3⟩, ⟨one, 1⟩]) := by decide +kernel

/-- Setting a value of a shared gradient clears the values its type does not have; those of a gradient that is not shared stay. -/
theorem C20_values_depend_on_sharing :
    ((shared [(0, .setValues 5 [7])]).bind (fun s => run s [(1, .setValues 0 [1])])).bind (fun s => (valueOf s 1).map (·.values)) = some [1, 0, 0, 0, 0, 0] ∧
    (run (initial 1) [(0, .setValues 5 [7]), (0, .setValues 0 [1])]).bind (fun s => (valueOf s 0).map (·.values)) = some [1, 0, 0, 0, 0, 7] := by
  constructor <;> decide +kernel

/-- `reserve` of less than it has on a shared gradient writes outside of the new impl. -/
theorem C20_reserve_overflows : (shared three).isSome = true ∧ (shared three).bind (fun s => run s [(1, .reserve 1)]) = none := by
  constructor <;> decide +kernel

/-- Gradients between different points are equal. -/
theorem C20_equals_ignores_values :
    (run (initial 2) [(0, .setValues 0 [1]), (1, .setValues 0 [2])]).bind (fun s => equals s 0 1) = some true := by decide +kernel

end Blend2D.Gradient
