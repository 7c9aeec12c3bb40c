import Verif.Gradient.Ops
/-! # What every call does (continued) -/
namespace Blend2D.Gradient
open Cow Spec
open Blend2D.Arr (Result implMaxSize expand masked)

variable {s : St} {L : List G} {i : Nat}

/-- What the code keeps of the stops when some are removed. -/
def keptStops (own : Bool) (g : G) (l : List Stop) : List Stop := if own ∨ l.length = g.stops.length then l else []

theorem kept_self (own : Bool) (g : G) : keptStops own g g.stops = g.stops := by simp [keptStops]

section
variable (h : R s L) (hi : i < L.length)
include h hi

omit h hi in
theorem overwrite_length (l : List Rat) (k : Nat) (vs : List Rat) (h6 : l.length = 6) (hk : k ≤ 5) (hv : vs.length ≤ 6 - k) :
    (overwrite l k vs).length = 6 := by
  simp only [overwrite, List.length_append, List.length_take, List.length_drop]; omega

theorem setValues_ok (ok : Bool) (k : Nat) (vs : List Rat) :
    Does s L i (effect (ownOf s i) L[i] (.setValues k vs)) (ok = false) (setValues ok s i k vs) := by
  unfold setValues effect
  simp only
  by_cases h1 : k > 5 ∨ vs.length > 6 - k
  · rw [if_pos h1, if_pos h1]
    exact ⟨_, s, rfl, .inr ⟨rfl, h.self hi⟩⟩
  · rw [if_neg h1, if_neg h1]
    by_cases h0 : vs = []
    · rw [if_pos h0, if_pos (show vs.length = 0 by simp [h0])]
      exact ⟨_, s, rfl, .inr ⟨rfl, h.self hi⟩⟩
    · rw [if_neg h0, if_neg (show ¬ vs.length = 0 by simpa using h0)]
      obtain ⟨r, s1, e1, e2⟩ := makeMutable_ok h hi ok true
      rw [e1]
      simp only [Option.bind_eq_bind, Option.bind_some]
      rcases e2 with ⟨rfl, rfl, hok⟩ | ⟨rfl, r1, y, r2, _⟩
      · exact ⟨_, s1, rfl, .inl ⟨rfl, rfl, hok⟩⟩
      · obtain ⟨L1, hL1⟩ : ∃ L1, L1 = L.set i { L[i] with values := if ownOf s i then L[i].values else trim L[i] } := ⟨_, rfl⟩
        rw [← hL1] at r1
        have hi1 : i < L1.length := by rw [hL1, List.length_set]; exact hi
        have hget : L1[i] = { L[i] with values := if ownOf s i then L[i].values else trim L[i] } := by
          simp only [hL1, List.getElem_set_self]
        obtain ⟨W⟩ := view r1 hi1
        have hxy : W.x = y ∧ W.m = true := by
          have := W.look
          rw [r2] at this
          simp only [Option.some.injEq, Prod.mk.injEq] at this
          exact ⟨this.1.symm, this.2.1.symm⟩
        have hx := W.hx
        have hv : W.x.values = L1[i].values := hx.values
        have hl6 : L1[i].values.length = 6 := W.hg.vlen
        obtain ⟨s', q1, q2, _⟩ := store_ok' r1 hi1 W hxy.2 { W.x with values := overwrite W.x.values k vs } { L1[i] with values := overwrite L1[i].values k vs }
          ⟨hx.stops, by show overwrite W.x.values k vs = overwrite L1[i].values k vs; rw [hv], hx.transform, hx.fits, hx.cap,
            ⟨hx.cache.info, hx.cache.lut32, hx.cache.lut64⟩⟩
          ⟨W.hg.valid, overwrite_length _ _ _ hl6 (by omega) (by omega), W.hg.tt⟩ rfl
        rw [r2, ← hxy.1]
        simp only [ne_eq, not_true_eq_false, ↓reduceIte, Option.bind_some]
        refine ⟨_, s', by rw [q1]; rfl, .inr ⟨rfl, ?_⟩⟩
        rw [hget, hL1, List.set_set] at q2
        exact q2

/-- `remove_stops_by_index` of a mutable impl. -/
theorem removeByIndex_own (ok : Bool) (W : View s L i L[i]) (hm : W.m = true) (a b : Nat) (hab : a < b) (hb : b ≤ L[i].stops.length) :
    ∃ s' z, removeByIndex ok s i a b = some (.success, s') ∧ R s' (L.set i { L[i] with stops := L[i].stops.take a ++ L[i].stops.drop b }) ∧
      look s' i = some (z, true, L[i].fields) ∧ z.stops.length < z.cap ∧ z.lut32 = none ∧ z.lut64 = none ∧ z.info = none := by
  have hx := W.hx
  have hg := W.hg
  have hst : W.x.stops = L[i].stops := hx.stops
  have hf := hx.fits
  have hsub : (L[i].stops.take a ++ L[i].stops.drop b).Sublist L[i].stops := by
    conv_rhs => rw [← List.take_append_drop a L[i].stops]
    apply List.Sublist.append (List.Sublist.refl _)
    rw [show b = a + (b - a) by omega, ← List.drop_drop]
    exact List.drop_sublist _ _
  simp only [removeByIndex, W.look, Option.bind_eq_bind, Option.bind_some, hst]
  rw [if_neg (by omega), if_neg (by omega), hm, if_neg (by simp), Nat.min_eq_left hb]
  obtain ⟨s', r1, r2, r3⟩ := store_ok' h hi W hm (Impl.invalidate { W.x with stops := L[i].stops.take a ++ L[i].stops.drop b })
    { L[i] with stops := L[i].stops.take a ++ L[i].stops.drop b }
    ⟨rfl, hx.values, hx.transform, by simp only [Impl.invalidate]; have := hsub.length_le; rw [hst] at hf; omega, hx.cap, invalidate_cache _⟩
    ⟨Valid.sublist hg.valid hsub, hg.vlen, hg.tt⟩ rfl
  refine ⟨s', _, by rw [r1]; rfl, r2, r3, ?_, rfl, rfl, rfl⟩
  simp only [Impl.invalidate, List.length_append, List.length_take, List.length_drop]
  rw [hst] at hf
  omega

theorem removeCore (ok : Bool) (a b : Nat) :
    Does s L i (if a > L[i].stops.length ∨ b < a then (.invalidValue, L[i]) else
      (.success, { L[i] with stops := keptStops (ownOf s i) L[i] (L[i].stops.take a ++ L[i].stops.drop b) })) (ok = false) (removeByIndex ok s i a b) := by
  obtain ⟨W⟩ := view h hi
  have hx := W.hx
  have hg := W.hg
  have hst : W.x.stops = L[i].stops := hx.stops
  by_cases h1 : a > L[i].stops.length ∨ b < a
  · rw [if_pos h1]
    simp only [removeByIndex, W.look, Option.bind_eq_bind, Option.bind_some, hst]
    rw [if_pos (by omega)]
    exact ⟨_, s, rfl, .inr ⟨rfl, h.self hi⟩⟩
  · rw [if_neg h1]
    by_cases h2 : a = min b L[i].stops.length
    · simp only [removeByIndex, W.look, Option.bind_eq_bind, Option.bind_some, hst]
      rw [if_neg (by omega), if_pos h2]
      refine ⟨_, s, rfl, .inr ⟨rfl, ?_⟩⟩
      have : L[i].stops.take a ++ L[i].stops.drop b = L[i].stops := by
        rcases Nat.lt_or_ge b L[i].stops.length with hb | hb
        · have : a = b := by omega
          rw [this, List.take_append_drop]
        · rw [List.take_of_length_le (by omega), List.drop_of_length_le hb, List.append_nil]
      simp only [this, kept_self]
      exact h.self hi
    · cases hm : W.m with
      | true =>
        have hle : removeByIndex ok s i a b = removeByIndex ok s i a (min b L[i].stops.length) := by
          simp only [removeByIndex, W.look, Option.bind_eq_bind, Option.bind_some, hst]
          rw [Nat.min_assoc, Nat.min_self]
        have hdr : L[i].stops.drop b = L[i].stops.drop (min b L[i].stops.length) := by
          rcases Nat.lt_or_ge b L[i].stops.length with hb | hb
          · rw [Nat.min_eq_left (by omega)]
          · rw [Nat.min_eq_right hb, List.drop_of_length_le hb, List.drop_length]
        obtain ⟨s', z, r1, r2, _⟩ := removeByIndex_own h hi ok W hm a (min b L[i].stops.length) (by omega) (by omega)
        refine ⟨_, s', by rw [hle, r1], .inr ⟨rfl, ?_⟩⟩
        rw [W.own, hm, hdr]
        simpa [keptStops] using r2
      | false =>
        simp only [removeByIndex, W.look, Option.bind_eq_bind, Option.bind_some, hst]
        rw [if_neg (by omega), if_neg h2, hm, if_pos rfl]
        have hc := cap_lt hx
        have hf := hx.fits
        have hmx := hx.cap
        rw [hst] at hf
        have hsz := implSize_eq (L[i].stops.length - (min b L[i].stops.length - a)) (by omega)
        rcases alloc_ok ok (implSize (L[i].stops.length - (min b L[i].stops.length - a))) W.x.values 6 W.x.transform (by omega) with ⟨e1, e2⟩ | ⟨e1, e2⟩
        · rw [e1]
          refine ⟨_, s, rfl, .inl ⟨rfl, rfl, ?_⟩⟩
          rcases e2 with e2 | e2
          · exact e2
          · omega
        · rw [e2]
          simp only
          rw [put_eq _ _ (by
            simp only [List.length_append, List.length_take, List.length_drop]
            have : a ≤ L[i].stops.length := by omega
            omega)]
          simp only [Option.bind_some]
          have hk : keptStops (ownOf s i) L[i] (L[i].stops.take a ++ L[i].stops.drop b) = [] := by
            rw [W.own, hm, keptStops, if_neg]
            simp only [List.length_append, List.length_take, List.length_drop]
            simp only [Bool.false_eq_true, false_or]
            omega
          rw [hk]
          obtain ⟨s', r1, r2, _⟩ := renew_ok h hi ⟨(implSize (L[i].stops.length - (min b L[i].stops.length - a)) - 144) / 16, [], initValues W.x.values 6, W.x.transform, none, none, none⟩ { L[i] with stops := [] }
            (fresh_ok _ e1 (by omega) { L[i] with stops := [] } (by simp only [List.length_nil]; omega) _ rfl rfl
              (by rw [show W.x.values = L[i].values from hx.values]; exact initValues_self _ W.hg.vlen) hx.transform (cacheOk_none rfl rfl rfl))
            ⟨valid_nil, hg.vlen, hg.tt⟩
          exact ⟨_, s', by rw [r1]; rfl, .inr ⟨rfl, r2⟩⟩

theorem removeByIndex_ok (ok : Bool) (a b : Nat) :
    Does s L i (effect (ownOf s i) L[i] (.removeByIndex a b)) (ok = false) (removeByIndex ok s i a b) := removeCore h hi ok a b

theorem removeStop_ok (ok : Bool) (k : Nat) (hk : k < 2 ^ 64) :
    Does s L i (effect (ownOf s i) L[i] (.removeStop k)) (ok = false) (removeStop ok s i k) := by
  have hc := removeCore h hi ok k ((k + 1) % 2 ^ 64)
  unfold removeStop
  obtain ⟨W⟩ := view h hi
  have := cap_lt W.hx
  have hf := W.hx.fits
  rw [show W.x.stops = L[i].stops from W.hx.stops] at hf
  by_cases h1 : k > L[i].stops.length
  · rw [if_pos (.inl h1)] at hc
    show Does s L i (if k > L[i].stops.length then _ else _) _ _
    rw [if_pos h1]; exact hc
  · rw [Nat.mod_eq_of_lt (by omega)] at hc ⊢
    rw [if_neg (by omega)] at hc
    show Does s L i (if k > L[i].stops.length then _ else _) _ _
    rw [if_neg h1]
    rw [← List.eraseIdx_eq_take_drop_succ] at hc
    exact hc

end

/-! ## Removing by offset -/

theorem erase_first (l : List Stop) (x : Int) (a : Nat) (ha : a < l.length) (h1 : l[a].offset = x)
    (h2 : ∀ (i : Nat) (hi : i < l.length), i < a → l[i].offset < x) :
    l.eraseP (fun s => s.offset = x) = l.take a ++ l.drop (a + 1) := by
  rw [List.eraseP_eq_eraseIdx]
  have : l.findIdx? (fun s => decide (s.offset = x)) = some a := by
    rw [List.findIdx?_eq_some_iff_getElem]
    refine ⟨ha, by simpa using h1, ?_⟩
    intro j hj
    have := h2 j (by omega) hj
    simp; omega
  rw [this]
  exact List.eraseIdx_eq_take_drop_succ _ _

theorem erase_all (l : List Stop) (hs : l.Pairwise (fun a b => a.offset ≤ b.offset)) (x : Int) (a : Nat) (ha : a < l.length) (h1 : l[a].offset = x)
    (h2 : ∀ (i : Nat) (hi : i < l.length), i < a → l[i].offset < x) :
    l.filter (fun s => s.offset ≠ x) = l.take a ++ l.drop (a + 1 + countWhile (fun t => F.eq (some t.offset) (some x)) (l.drop (a + 1))) := by
  have hsplit : l = l.take a ++ l[a] :: l.drop (a + 1) := by rw [List.getElem_cons_drop, List.take_append_drop]
  have hd : ∀ t ∈ l.drop (a + 1), x ≤ t.offset := by
    intro t ht
    obtain ⟨j, hj, rfl⟩ := List.getElem_of_mem ht
    rw [List.getElem_drop]
    rw [List.length_drop] at hj
    have := getElem_le hs (i := a) (j := a + 1 + j) (by omega) (by omega)
    omega
  rw [← List.drop_drop, drop_countWhile, dropWhile_filter]
  · conv_lhs => rw [hsplit]
    rw [List.filter_append, List.filter_cons_of_neg (by simpa using h1)]
    congr 1
    · rw [List.filter_eq_self]
      intro t ht
      obtain ⟨j, hj, rfl⟩ := List.getElem_of_mem ht
      rw [List.length_take] at hj
      rw [List.getElem_take]
      have := h2 j (by omega) (by omega)
      simp; omega
    · apply List.filter_congr
      intro t _
      rw [Bool.eq_iff_iff]; simp [F.eq]
  · have : (l.drop (a + 1)).Pairwise (fun a b => a.offset ≤ b.offset) := hs.sublist (List.drop_sublist _ _)
    refine List.Pairwise.imp_of_mem ?_ this
    intro p q hp hq hle he
    have h3 := hd p hp
    simp only [F.eq, beq_iff_eq] at he ⊢
    omega

theorem remove_range (l : List Stop) (hs : l.Pairwise (fun a b => a.offset ≤ b.offset)) (lo hi : F) :
    let a := countWhile (fun t => F.lt (some t.offset) lo) l
    l.filter (fun s => !within lo hi s.offset) = l.take a ++ l.drop (a + countWhile (fun t => F.le (some t.offset) hi) (l.drop a)) := by
  intro a
  have hp1 : l.drop a = l.filter (fun t => !F.lt (some t.offset) lo) := by
    rw [drop_countWhile]
    apply dropWhile_filter
    refine hs.imp ?_
    intro p q hle
    cases lo with
    | none => simp [F.lt]
    | some z => simp only [F.lt, decide_eq_true_eq]; omega
  rw [← List.drop_drop, drop_countWhile, dropWhile_filter]
  · conv_lhs => rw [← List.take_append_drop a l]
    rw [List.filter_append]
    congr 1
    · rw [List.filter_eq_self]
      intro t ht
      rw [take_countWhile] at ht
      have : F.lt (some t.offset) lo = true := (List.all_eq_true.1 List.all_takeWhile) t ht
      simp [within, this]
    · apply List.filter_congr
      intro t ht
      rw [hp1, List.mem_filter] at ht
      simp only [within, ht.2, Bool.true_and]
  · have : (l.drop a).Pairwise (fun a b => a.offset ≤ b.offset) := hs.sublist (List.drop_sublist _ _)
    refine this.imp ?_
    intro p q hle
    cases hi with
    | none => simp [F.le]
    | some z => simp only [F.le, decide_eq_true_eq]; omega

section
variable (h : R s L) (hi : i < L.length)
include h hi

theorem removeByOffset_ok (ok : Bool) (x : F) (all : Bool) :
    Does s L i (effect (ownOf s i) L[i] (.removeByOffset x all)) (ok = false) (removeByOffset ok s i x all) := by
  obtain ⟨W⟩ := view h hi
  have hst : W.x.stops = L[i].stops := W.hx.stops
  have hsort := W.hg.valid.sorted
  unfold removeByOffset
  rw [unit_eq]
  show Does s L i (if inUnit x then (.success, { L[i] with stops := keptStops (ownOf s i) L[i] _ }) else _) _ _
  cases hu : inUnit x with
  | false =>
    simp only [Bool.not_false, ↓reduceIte, Bool.false_eq_true]
    exact ⟨_, s, rfl, .inr ⟨rfl, h.self hi⟩⟩
  | true =>
    simp only [Bool.not_true, Bool.false_eq_true, ↓reduceIte, W.look, Option.bind_eq_bind, Option.bind_some, hst]
    obtain ⟨x, rfl, _, _⟩ := inUnit_some hu
    simp only [Option.getD_some]
    cases hsc : scanEq x L[i].stops 0 with
    | none =>
      have hn := scanEq_none x _ hsort 0 hsc
      refine ⟨_, s, rfl, .inr ⟨rfl, ?_⟩⟩
      have : (if all = true then L[i].stops.filter (fun s => decide (s.offset ≠ x)) else L[i].stops.eraseP (fun s => decide (s.offset = x))) = L[i].stops := by
        split
        · rw [List.filter_eq_self]; intro t ht; simpa using hn t ht
        · apply List.eraseP_of_forall_not; intro t ht; simpa using hn t ht
      simp only [this, kept_self]
      exact h.self hi
    | some a =>
      obtain ⟨_, ha, h1, h2⟩ := scanEq_some x _ 0 a hsc
      simp only [Nat.sub_zero] at ha h1 h2
      have hc := removeCore h hi ok a (a + 1 + if all then countWhile (fun t => F.eq (some t.offset) (some x)) (L[i].stops.drop (a + 1)) else 0)
      rw [if_neg (by omega)] at hc
      have : (if all = true then L[i].stops.filter (fun s => decide (s.offset ≠ x)) else L[i].stops.eraseP (fun s => decide (s.offset = x))) =
          L[i].stops.take a ++ L[i].stops.drop (a + 1 + if all then countWhile (fun t => F.eq (some t.offset) (some x)) (L[i].stops.drop (a + 1)) else 0) := by
        cases all with
        | true => simp only [↓reduceIte]; exact erase_all _ hsort x a ha h1 h2
        | false => simp only [Bool.false_eq_true, ↓reduceIte, Nat.add_zero]; exact erase_first _ x a ha h1 h2
      rw [this]
      exact hc

theorem removeByOffsets_ok (ok : Bool) (lo up : F) :
    Does s L i (effect (ownOf s i) L[i] (.removeByOffsets lo up)) (ok = false) (removeByOffsets ok s i lo up) := by
  obtain ⟨W⟩ := view h hi
  have hst : W.x.stops = L[i].stops := W.hx.stops
  have hsort := W.hg.valid.sorted
  unfold removeByOffsets
  show Does s L i (if F.lt up lo then _ else (.success, { L[i] with stops := keptStops (ownOf s i) L[i] _ })) _ _
  cases hlt : F.lt up lo with
  | true =>
    simp only [↓reduceIte]
    exact ⟨_, s, rfl, .inr ⟨rfl, h.self hi⟩⟩
  | false =>
    simp only [Bool.false_eq_true, ↓reduceIte, W.look, Option.bind_eq_bind, Option.bind_some, hst]
    rw [remove_range _ hsort lo up]
    obtain ⟨a, ha⟩ : ∃ a, a = countWhile (fun t => F.lt (some t.offset) lo) L[i].stops := ⟨_, rfl⟩
    obtain ⟨b, hb⟩ : ∃ b, b = a + countWhile (fun t => F.le (some t.offset) up) (L[i].stops.drop a) := ⟨_, rfl⟩
    rw [← ha, ← hb]
    have hal : a ≤ L[i].stops.length := by rw [ha]; exact countWhile_le _ _
    have hbl : b ≤ L[i].stops.length := by
      have := countWhile_le (fun t => F.le (some t.offset) up) (L[i].stops.drop a)
      rw [List.length_drop] at this; omega
    by_cases h0 : L[i].stops.length = 0
    · rw [if_pos h0]
      refine ⟨_, s, rfl, .inr ⟨rfl, ?_⟩⟩
      have : L[i].stops.take a ++ L[i].stops.drop b = L[i].stops := by rw [show b = a by omega, List.take_append_drop]
      simp only [this, kept_self]
      exact h.self hi
    · rw [if_neg h0]
      by_cases hab : a ≥ b
      · rw [if_pos hab]
        refine ⟨_, s, rfl, .inr ⟨rfl, ?_⟩⟩
        have : L[i].stops.take a ++ L[i].stops.drop b = L[i].stops := by rw [show b = a by omega, List.take_append_drop]
        simp only [this, kept_self]
        exact h.self hi
      · rw [if_neg hab]
        have hc := removeCore h hi ok a b
        rw [if_neg (by omega)] at hc
        exact hc

end
end Blend2D.Gradient
