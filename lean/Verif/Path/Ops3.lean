import Verif.Path.Ops2
/-! # What the functions do: copies, removing, geometries -/
namespace Blend2D.Path
open Cow Spec
open Blend2D.Arr (implMaxSize expand masked rd wr ModifyOp)

variable {E : Ext} {s : St} {C : List (List Item)} {i : Nat}

/-! ### Commands that make sense -/

theorem update_valid (n : Nat) : ∀ (xs : List Item), xs.length ≤ n → ∀ (hp : Bool) (prev : Option Pt) (u : Upd) (r : Bool) (v : Upd),
    update E hp prev u xs = some (r, v) → (r = true ↔ Valid hp (xs.map (·.cmd))) := by
  induction n with
  | zero =>
    intro xs hl hp prev u r v h
    have : xs = [] := List.length_eq_zero_iff.1 (by omega)
    subst this
    unfold update at h
    simp only [Option.some.injEq, Prod.mk.injEq] at h
    obtain ⟨rfl, _⟩ := h
    exact ⟨fun _ => .nil _, fun _ => rfl⟩
  | succ n ih =>
    intro xs hl hp prev u r v h
    cases xs with
    | nil =>
      unfold update at h
      simp only [Option.some.injEq, Prod.mk.injEq] at h
      obtain ⟨rfl, _⟩ := h
      exact ⟨fun _ => .nil _, fun _ => rfl⟩
    | cons i t =>
      have hlt : t.length ≤ n := by simpa using hl
      have fin : some (false, u) = some (r, v) → ¬ Valid hp (List.map (·.cmd) (i :: t)) → (r = true ↔ Valid hp (List.map (·.cmd) (i :: t))) := by
        intro h hn
        simp only [Option.some.injEq, Prod.mk.injEq] at h
        obtain ⟨rfl, _⟩ := h
        exact ⟨fun h => by simp at h, fun h => absurd h hn⟩
      unfold update at h
      split at h
      · rename_i hc
        have := ih t hlt _ _ _ _ _ h
        rw [this]; simp only [List.map_cons, hc, cMove]
        exact ⟨fun h => .move _ _ h, fun h => by cases h; assumption⟩
      split at h
      · rename_i hc
        split at h
        · rename_i hh
          apply fin h
          have : hp = false := by simpa using hh
          subst this
          simp only [List.map_cons, hc, cOn]; intro h; cases h
        · rename_i hh
          have hh : hp = true := by simpa using hh
          subst hh
          have := ih t hlt _ _ _ _ _ h
          rw [this]; simp only [List.map_cons, hc, cOn]
          exact ⟨fun h => .line _ h, fun h => by cases h; assumption⟩
      split at h
      · rename_i hc
        cases t with
        | nil => exact fin h (by simp only [List.map_cons, List.map_nil, hc, cQuad]; intro h; cases h)
        | cons e t =>
          simp only at h
          split at h
          · rename_i hh
            have : hp = false := by simpa using hh
            subst this
            exact fin h (by simp only [List.map_cons, hc, cQuad]; intro h; cases h)
          · rename_i hh
            have hh : hp = true := by simpa using hh
            subst hh
            obtain ⟨w, hw1, hw2⟩ := Option.bind_eq_some_iff.1 h
            have := ih t (by simp at hlt; omega) _ _ _ _ _ hw2
            rw [this]; simp only [List.map_cons, hc, cQuad]
            exact ⟨fun h => .quad _ _ h, fun h => by cases h; assumption⟩
      split at h
      · rename_i hc
        rcases t with _ | ⟨w, _ | ⟨e, t⟩⟩
        · exact fin h (by simp only [List.map_cons, List.map_nil, hc, cConic]; intro h; cases h)
        · exact fin h (by simp only [List.map_cons, List.map_nil, hc, cConic]; intro h; cases h)
        · simp only at h
          split at h
          · rename_i hh
            have : hp = false := by simpa using hh
            subst this
            exact fin h (by simp only [List.map_cons, hc, cConic]; intro h; cases h)
          · rename_i hh
            have hh : hp = true := by simpa using hh
            subst hh
            obtain ⟨w, hw1, hw2⟩ := Option.bind_eq_some_iff.1 h
            have := ih t (by simp at hlt; omega) _ _ _ _ _ hw2
            rw [this]; simp only [List.map_cons, hc, cConic]
            exact ⟨fun h => .conic _ _ _ h, fun h => by cases h; assumption⟩
      split at h
      · rename_i hc
        rcases t with _ | ⟨w, _ | ⟨e, t⟩⟩
        · exact fin h (by simp only [List.map_cons, List.map_nil, hc, cCubic]; intro h; cases h)
        · exact fin h (by simp only [List.map_cons, List.map_nil, hc, cCubic]; intro h; cases h)
        · simp only at h
          split at h
          · rename_i hh
            have : hp = false := by simpa using hh
            subst this
            exact fin h (by simp only [List.map_cons, hc, cCubic]; intro h; cases h)
          · rename_i hh
            have hh : hp = true := by simpa using hh
            subst hh
            obtain ⟨w, hw1, hw2⟩ := Option.bind_eq_some_iff.1 h
            have := ih t (by simp at hlt; omega) _ _ _ _ _ hw2
            rw [this]; simp only [List.map_cons, hc, cCubic]
            exact ⟨fun h => .cubic _ _ _ h, fun h => by cases h; assumption⟩
      split at h
      · rename_i hc
        have := ih t hlt _ _ _ _ _ h
        rw [this]; simp only [List.map_cons, hc, cClose]
        exact ⟨fun h => .close _ _ h, fun h => by cases h; assumption⟩
      · rename_i h0 h1 h2 h3 h4 h5
        apply fin h
        simp only [cMove, cOn, cQuad, cConic, cCubic, cClose] at h0 h1 h2 h3 h4 h5
        simp only [List.map_cons]
        intro hv
        generalize hg : i.cmd = c at *
        generalize hl : c :: t.map (·.cmd) = l at hv
        cases hv <;> simp at hl <;> omega

theorem computeInfo_invalid {xs : List Item} {n : Info} (h : computeInfo E xs = some n) :
    n.flags.invalid = false ↔ Valid false (xs.map (·.cmd)) := by
  simp only [computeInfo, Option.bind_eq_bind] at h
  obtain ⟨⟨r, u⟩, h1, h2⟩ := Option.bind_eq_some_iff.1 h
  have h3 := (update_dirty (E := E) xs.length xs (Nat.le_refl _) _ _ _ _ _ h1).2.1
  have h4 := update_valid (E := E) xs.length xs (Nat.le_refl _) _ _ _ _ _ h1
  simp only at h2
  split at h2
  · rename_i hr
    cases h2
    subst hr
    rw [← h4]; simp
  · rename_i hr
    have hr : r = true := by simpa using hr
    rw [← h4]
    simp only [hr, iff_true]
    split at h2
    · cases h2; exact h3
    · cases h2; exact h3

open Classical in
theorem shrink_ok (h : RI E s C) (hi : i < C.length) (ok : Bool) :
    ∃ r s', shrink E ok s i = some (r, s') ∧ (Fail ok C[i].length r s s' ∨
      Did E C i (if Valid false (C[i].map (·.cmd)) then .success else .invalidGeometry, C[i]) r s') := by
  have hi' : i < (C.map M).length := by rw [List.length_map]; exact hi
  obtain ⟨x, m, h1, h2, h3⟩ := view h hi'
  rw [getM hi] at h2
  have hsz := h2.size
  rw [List.length_map] at hsz
  have hb := len_bound h hi
  have fin : ∀ s1, RI E s1 C → x.size ≠ 0 → ∃ r s', ensureInfo E s1 i = some (r, s') ∧
      Did E C i (if Valid false (C[i].map (·.cmd)) then .success else .invalidGeometry, C[i]) r s' := by
    intro s1 hs1 h0
    obtain ⟨r, s2, e1, e2, y, my, _, e3⟩ := ensureInfo_ok hs1 hi
    obtain ⟨n, n1, _, _, _, n2⟩ := e3 (by intro e; rw [e] at hsz; exact h0 hsz)
    refine ⟨_, _, e1, ?_, keep e2 hi⟩
    rw [n2]
    have := computeInfo_invalid n1
    by_cases hv : Valid false (C[i].map (·.cmd))
    · simp only [if_pos hv, this.2 hv]; rfl
    · have : n.flags.invalid = true := by
        cases hc : n.flags.invalid with
        | true => rfl
        | false => exact absurd (this.1 hc) hv
      simp only [if_neg hv, this]; rfl
  simp only [shrink, h1, Option.bind_eq_bind, Option.bind_some]
  by_cases h0 : x.size = 0
  · rw [if_pos h0]
    have hnil : C[i] = [] := List.length_eq_zero_iff.1 (by omega)
    obtain ⟨r, s', e1, e2⟩ := reset_ok h hi
    refine ⟨_, _, e1, .inr ?_⟩
    rw [hnil, if_pos (by exact Valid.nil _)]
    exact e2
  · rw [if_neg h0]
    split
    · obtain ⟨r, s1, e1, e2⟩ := reallocPath_ok h hi' ok x.size (by omega) (by rw [getM hi, List.length_map]; omega)
      rw [e1]
      simp only [Option.bind_some]
      rcases e2 with e2 | ⟨rfl, e2, _⟩
      · rw [if_pos (by rw [e2.1]; decide)]
        exact ⟨_, _, rfl, .inl (by rw [← hsz]; exact e2)⟩
      · rw [if_neg (by decide)]
        obtain ⟨r, s', f1, f2⟩ := fin s1 e2 h0
        exact ⟨_, _, f1, .inr f2⟩
    · obtain ⟨r, s', f1, f2⟩ := fin s h h0
      exact ⟨_, _, f1, .inr f2⟩

/-! ### Copies -/

theorem assignDeep_ok (h : RI E s C) (hi : i < C.length) (j : Nat) (hj : j < C.length) (ok : Bool) :
    ∃ r s', assignDeep ok s i j = some (r, s') ∧ (Fail ok C[j].length r s s' ∨ Did E C i (.success, C[j]) r s') := by
  have hi' : i < (C.map M).length := by rw [List.length_map]; exact hi
  have hj' : j < (C.map M).length := by rw [List.length_map]; exact hj
  obtain ⟨x, m, h1, h2, h3⟩ := view h hi'
  obtain ⟨o, mo, o1, o2, o3⟩ := view h hj'
  rw [getM hj] at o2
  have hsz := o2.size
  rw [List.length_map] at hsz
  have hb := len_bound h hj
  have hcap := maxCap_bound h2.cap
  simp only [assignDeep, h1, o1, Option.bind_eq_bind, Option.bind_some]
  by_cases h0 : o.size = 0
  · rw [if_pos h0]
    have hnil : C[j] = [] := List.length_eq_zero_iff.1 (by omega)
    obtain ⟨r, s', e1, e2⟩ := clear_ok h hi
    rw [hnil]
    exact ⟨_, _, e1, .inr e2⟩
  · rw [if_neg h0]
    by_cases hg : masked o.size m > x.cells.length
    · rw [if_pos hg, implSize_eq (show 104 + o.size * 17 < 2 ^ 64 by omega)]
      cases ha : allocImpl ok o.size (104 + o.size * 17) with
      | none => exact ⟨_, _, rfl, .inl ⟨rfl, rfl, by rw [← hsz]; exact alloc_none (.inl rfl) ha⟩⟩
      | some y =>
        obtain ⟨z, e1, e2, junk, e3, e4⟩ := allocCopy (M C[j]) o2 o.size (Nat.le_refl _) (Nat.le_refl _) (Nat.le_refl _) ha
        have hnil : junk = [] := List.length_eq_zero_iff.1 (by omega)
        rw [hsz, ← List.length_map (f := some) (as := C[j]), List.take_length, hnil, List.append_nil] at e4
        obtain ⟨s', g1, g2, g3⟩ := renew_ok h hi' z _ e4
        simp only [e1, g1, Option.bind_some]
        refine ⟨_, _, rfl, .inr ⟨rfl, ?_⟩⟩
        rw [setM hi] at g2; exact g2
    · rw [if_neg hg]
      obtain ⟨rfl, hle⟩ := masked_gt hcap hg
      obtain ⟨s1, g1, g2, g3⟩ := store_ok h hi' h1 { x with size := o.size, flags := { dirty := true } } (x.cells.take o.size)
        ⟨hle, rfl, h2.cap, cacheOk_dirty rfl rfl⟩
      have hi2 : i < ((C.map M).set i (x.cells.take o.size)).length := by rw [List.length_set]; exact hi'
      have hj2 : j < ((C.map M).set i (x.cells.take o.size)).length := by rw [List.length_set]; exact hj'
      obtain ⟨p, mp, p1, p2, _⟩ := view g2 hj2
      have hp : p.cells.take p.size = M C[j] ∧ p.size = C[j].length := by
        have hv := p2.val
        by_cases hij : i = j
        · subst hij
          rw [List.getElem_set_self] at hv
          rw [o1] at h1
          simp only [Option.some.injEq, Prod.mk.injEq] at h1
          obtain ⟨rfl, _⟩ := h1
          rw [o2.val] at hv
          refine ⟨hv, ?_⟩
          have := congrArg List.length hv
          rw [List.length_take, List.length_map, Nat.min_eq_left p2.fits] at this
          exact this
        · rw [List.getElem_set_ne hij, getM hj] at hv
          refine ⟨hv, ?_⟩
          have := congrArg List.length hv
          rw [List.length_take, List.length_map, Nat.min_eq_left p2.fits] at this
          exact this
      have hpf := p2.fits
      simp only [g1, p1, Option.bind_some, rd_eq p.cells 0 p.size (by omega), List.drop_zero, hp.1]
      obtain ⟨s2, k1, k2, k3⟩ := pokeCells_ok g2 hi2 ⟨_, g3, rfl⟩ 0 (M C[j])
        (by rw [List.getElem_set_self, List.length_take, List.length_map]; omega)
      rw [k1]
      refine ⟨_, _, rfl, .inr ⟨rfl, ?_⟩⟩
      have e : splice (x.cells.take o.size) 0 (M C[j]) = M C[j] := by
        simp only [splice, List.take_zero, List.nil_append]
        rw [List.drop_of_length_le (by rw [List.length_take, List.length_map]; omega), List.append_nil]
      rw [List.getElem_set_self, List.set_set, e, setM hi] at k2
      exact k2

/-! ### Removing -/

theorem checkRange_without {n start k : Nat} {r : Range} (h : checkRange n r = some (start, k)) (xs : List Item) (hx : xs.length = n) :
    without r xs = xs.take start ++ xs.drop (start + k) := by
  cases r with
  | none =>
    simp only [checkRange] at h
    split at h
    · simp only [Option.some.injEq, Prod.mk.injEq] at h
      obtain ⟨rfl, rfl⟩ := h
      simp [without, ← hx]
    · simp at h
  | some q =>
    obtain ⟨a, b⟩ := q
    simp only [checkRange] at h
    split at h
    · rename_i hc
      simp only [Option.some.injEq, Prod.mk.injEq] at h
      obtain ⟨rfl, rfl⟩ := h
      simp only [without]
      rw [if_pos (by omega)]
      congr 1
      rw [show a + (min n b - a) = min n b by omega]
      rcases Nat.lt_or_ge n b with hb | hb
      · rw [List.drop_of_length_le (by omega), List.drop_of_length_le (by omega)]
      · rw [Nat.min_eq_right hb]
    · simp at h

theorem removeRange_ok (h : RI E s C) (hi : i < C.length) (ok : Bool) (range : Range) :
    ∃ r s', removeRange ok s i range = some (r, s') ∧ (Fail ok C[i].length r s s' ∨ Did E C i (.success, without range C[i]) r s') := by
  have hi' : i < (C.map M).length := by rw [List.length_map]; exact hi
  obtain ⟨x, m, h1, h2, _⟩ := view h hi'
  rw [getM hi] at h2
  have hsz := h2.size
  rw [List.length_map] at hsz
  have hb := len_bound h hi
  have hf := h2.fits
  simp only [removeRange, h1, Option.bind_eq_bind, Option.bind_some]
  cases hr : checkRange x.size range with
  | none =>
    obtain ⟨_, c2, _⟩ := checkRange_none hr C[i] hsz.symm
    rw [c2]
    exact ⟨_, _, rfl, .inr ⟨rfl, keep h hi⟩⟩
  | some q =>
    obtain ⟨start, n⟩ := q
    obtain ⟨c1, c2, c3⟩ := checkRange_some hr
    have hw := checkRange_without hr C[i] hsz.symm
    simp only
    by_cases hn : n = x.size
    · rw [if_pos hn]
      obtain ⟨r, s', e1, e2⟩ := clear_ok h hi
      refine ⟨_, _, e1, .inr ?_⟩
      have hs0 : start = 0 := by omega
      rw [hw, hs0, List.take_zero, List.drop_of_length_le (by omega)]
      exact e2
    · rw [if_neg hn]
      have htail : (x.cells.drop (start + n)).take (x.size - (start + n)) = M (C[i].drop (start + n)) := by
        have := congrArg (fun l => l.drop (start + n)) h2.val
        rw [M, List.map_drop, ← this, List.drop_take]
      have hlen : (M (C[i].drop (start + n))).length = x.size - (start + n) := by rw [List.length_map, List.length_drop]; omega
      have hval : (M C[i]).take start ++ M (C[i].drop (start + n)) = M (without range C[i]) := by
        rw [hw]; simp only [M, List.map_append, List.map_take]
      cases m with
      | false =>
        simp only [Bool.not_false, if_true, implSize_eq (show 104 + (x.size - n) * 17 < 2 ^ 64 by omega)]
        cases ha : allocImpl ok (x.size - n) (104 + (x.size - n) * 17) with
        | none =>
          refine ⟨_, _, rfl, .inl ⟨rfl, rfl, ?_⟩⟩
          exact (alloc_none (.inl rfl) ha).imp id (fun g => by omega)
        | some y =>
          obtain ⟨z, e1, e2, junk, e3, e4⟩ := allocCopy (M C[i]) h2 start (by omega) (by omega) (Nat.le_refl _) ha
          have hzs := e4.size
          rw [List.length_append, List.length_take, List.length_map, e3] at hzs
          have hzf := e4.fits
          have e5 := copyTo_ok (x := x) (y := z) (start + n) start (x.size - (start + n)) (by omega) (by omega)
          rw [htail] at e5
          have hz3 : okB E { z with cells := splice z.cells start (M (C[i].drop (start + n))) } (M (without range C[i])) := by
            refine ⟨?_, ?_, ?_, cacheOk_dirty e2 (e4.cache.1 e2)⟩
            · show z.size ≤ _
              rw [splice_length _ _ _ (by rw [hlen]; omega)]; exact hzf
            · show (splice z.cells start _).take z.size = _
              rw [take_splice _ _ _ _ (by rw [hlen]; omega) hzf, e4.val]
              have hst : start = ((M C[i]).take start).length := by rw [List.length_take, List.length_map]; omega
              have := splice_end ((M C[i]).take start) junk (M (C[i].drop (start + n))) (by rw [hlen]; omega)
              rw [← hst] at this
              rw [this, hval]
            · show 104 + (splice z.cells start _).length * 17 ≤ _
              rw [splice_length _ _ _ (by rw [hlen]; omega)]; exact e4.cap
          obtain ⟨s', g1, g2, g3⟩ := renew_ok h hi' _ _ hz3
          simp only [e1, e5, g1, Option.bind_some]
          refine ⟨_, _, rfl, .inr ⟨rfl, ?_⟩⟩
          rw [setM hi] at g2; exact g2
      | true =>
        simp only [Bool.not_true, Bool.false_eq_true, if_false]
        rw [rd_eq _ _ _ (by omega), htail]
        simp only [Option.bind_some]
        rw [wr_eq _ _ _ (by rw [hlen]; omega)]
        simp only [Option.bind_some]
        obtain ⟨s', g1, g2, g3⟩ := store_ok h hi' h1 { x with cells := splice x.cells start (M (C[i].drop (start + n))), size := x.size - n, flags := { dirty := true } }
          (M (without range C[i])) ⟨by show x.size - n ≤ (splice _ _ _).length; rw [splice_length _ _ _ (by rw [hlen]; omega)]; omega,
            by
              show (splice x.cells start _).take (x.size - n) = _
              rw [take_splice _ _ _ _ (by rw [hlen]; omega) (by omega), ← hval]
              simp only [splice]
              rw [List.take_take, Nat.min_eq_left (by omega), List.drop_of_length_le (l := x.cells.take (x.size - n)) (by rw [List.length_take, hlen]; omega), List.append_nil]
              congr 1
              rw [show M C[i] = _ from h2.val.symm, List.take_take, Nat.min_eq_left (by omega)],
            by show 104 + (splice _ _ _).length * 17 ≤ _; rw [splice_length _ _ _ (by rw [hlen]; omega)]; exact h2.cap,
            cacheOk_dirty rfl rfl⟩
        rw [g1]
        refine ⟨_, _, rfl, .inr ⟨rfl, ?_⟩⟩
        rw [setM hi] at g2; exact g2

/-! ### Modifying -/

theorem modifyOp_ok (h : RI E s C) (hi : i < C.length) (ok : Bool) (op : ModifyOp) (n : Nat) (hn : n ≤ 2 ^ 58) :
    ∃ r off s', modifyOp ok s i op n = some (r, off, s') ∧
      (Fail ok (C[i].length + n) r s s' ∨
       (r = .success ∧ off = (if op.assign then 0 else C[i].length) ∧
        ∃ junk : Cells, junk.length = n ∧ R E s' ((C.map M).set i (M (if op.assign then [] else C[i]) ++ junk)) ∧ Own s' i)) := by
  have hi' : i < (C.map M).length := by rw [List.length_map]; exact hi
  obtain ⟨x, m, h1, h2, h3⟩ := view h hi'
  rw [getM hi] at h2
  have hsz := h2.size
  rw [List.length_map] at hsz
  have hcap := maxCap_bound h2.cap
  have hf := h2.fits
  have hidx : (if op.assign then 0 else x.size) ≤ x.size := by split <;> omega
  have hM : ∀ rest, (M C[i]).take (if op.assign then 0 else x.size) ++ rest = M (if op.assign then [] else C[i]) ++ rest := by
    intro rest
    cases op.assign with
    | true => rfl
    | false =>
      simp only [Bool.false_eq_true, if_false]
      rw [hsz, ← List.length_map (f := some) (as := C[i]), List.take_length]
  have hoff : (if op.assign then 0 else x.size) = if op.assign then 0 else C[i].length := by rw [hsz]
  generalize hix : (if op.assign then 0 else x.size) = idx at hidx hM hoff
  have hmod : (idx + n) % 2 ^ 64 = idx + n := Nat.mod_eq_of_lt (by omega)
  have hb := len_bound h hi
  simp only [modifyOp, h1, Option.bind_eq_bind, Option.bind_some, hix, hmod]
  by_cases hg : masked n m > x.cells.length - idx
  · rw [if_pos hg, implSize_eq (show 104 + (idx + n) * 17 < 2 ^ 64 by omega)]
    have hbytes : (if op.grow then expandSize (104 + (idx + n) * 17) else 104 + (idx + n) * 17) = 104 + (idx + n) * 17 ∨
        (if op.grow then expandSize (104 + (idx + n) * 17) else 104 + (idx + n) * 17) = expandSize (104 + (idx + n) * 17) := by
      split
      · exact .inr rfl
      · exact .inl rfl
    have hge : 104 + (idx + n) * 17 ≤ if op.grow then expandSize (104 + (idx + n) * 17) else 104 + (idx + n) * 17 := by
      split
      · exact expandSize_ge _
      · exact Nat.le_refl _
    generalize (if op.grow then expandSize (104 + (idx + n) * 17) else 104 + (idx + n) * 17) = bytes at hbytes hge
    cases ha : allocImpl ok (idx + n) bytes with
    | none =>
      refine ⟨_, _, _, rfl, .inl ⟨rfl, rfl, ?_⟩⟩
      exact (alloc_none hbytes ha).imp id (fun g => by omega)
    | some y =>
      obtain ⟨z, e1, e2, junk, e3, e4⟩ := allocCopy (M C[i]) h2 idx hidx (by omega) hge ha
      rw [hM] at e4
      obtain ⟨s', g1, g2, g3⟩ := renew_ok h hi' z _ e4
      simp only [e1, g1, Option.bind_some]
      exact ⟨_, _, _, rfl, .inr ⟨rfl, hoff, junk, by omega, g2, z, g3, e2⟩⟩
  · rw [if_neg hg]
    obtain ⟨rfl, hle⟩ := masked_gt (c := x.cells.length - idx) (by omega) hg
    by_cases hn0 : n ≠ 0
    · rw [if_pos hn0]
      obtain ⟨s', g1, g2, g3⟩ := store_ok h hi' h1 { x with size := idx + n, flags := { dirty := true } }
        (M (if op.assign then [] else C[i]) ++ (x.cells.drop idx).take n)
        ⟨by show idx + n ≤ x.cells.length; omega, by
          show x.cells.take (idx + n) = _
          rw [List.take_add, ← hM, show M C[i] = _ from h2.val.symm, List.take_take, Nat.min_eq_left hidx], h2.cap, cacheOk_dirty rfl rfl⟩
      rw [g1]
      exact ⟨_, _, _, rfl, .inr ⟨rfl, hoff, _, by rw [List.length_take, List.length_drop]; omega, g2, _, g3, rfl⟩⟩
    · rw [if_neg hn0]
      have hn0 : n = 0 := by omega
      by_cases hi0 : idx = 0
      · rw [if_pos hi0]
        simp only [clear, h1, Option.bind_eq_bind, Option.bind_some, Bool.not_true, Bool.false_eq_true, if_false]
        obtain ⟨s1, g1, g2, g3⟩ := store_ok h hi' h1 { x with size := 0, flags := {} } []
          ⟨Nat.zero_le _, rfl, h2.cap, fun _ => rfl, fun h0 => absurd rfl h0⟩
        have hi2 : i < ((C.map M).set i []).length := by rw [List.length_set]; exact hi'
        obtain ⟨s2, k1, k2, k3⟩ := store_ok g2 hi2 g3 { x with size := 0, flags := { dirty := true } } []
          ⟨Nat.zero_le _, rfl, h2.cap, cacheOk_dirty rfl rfl⟩
        simp only [g1, Option.bind_some, Option.pure_def, g3, k1]
        refine ⟨_, _, _, rfl, .inr ⟨rfl, hoff, [], by simp [hn0], ?_, _, k3, rfl⟩⟩
        rw [List.set_set] at k2
        rw [← hM, hi0]; exact k2
      · rw [if_neg hi0]
        obtain ⟨s', g1, g2, g3⟩ := store_ok h hi' h1 { x with flags := { dirty := true } } (M C[i])
          ⟨hf, h2.val, h2.cap, cacheOk_dirty rfl rfl⟩
        rw [g1]
        have ha : op.assign = false := by
          cases ha : op.assign with
          | false => rfl
          | true => rw [ha] at hix; simp at hix; omega
        refine ⟨_, _, _, rfl, .inr ⟨rfl, hoff, [], by simp [hn0], ?_, _, g3, rfl⟩⟩
        rw [ha, List.append_nil]; exact g2

theorem modifyFill_ok (h : RI E s C) (hi : i < C.length) (ok : Bool) (op : ModifyOp) (xs : List Item) (hn : xs.length ≤ 2 ^ 58) :
    ∃ r s', modifyFill ok s i op xs = some (r, s') ∧ (Fail ok (C[i].length + xs.length) r s s' ∨
      Did E C i (.success, (if op.assign then [] else C[i]) ++ xs) r s') := by
  have hi' : i < (C.map M).length := by rw [List.length_map]; exact hi
  obtain ⟨r, off, s1, e1, e2⟩ := modifyOp_ok h hi ok op xs.length hn
  simp only [modifyFill, e1, Option.bind_eq_bind, Option.bind_some]
  rcases e2 with e2 | ⟨rfl, rfl, junk, e3, e4, e5⟩
  · rw [if_pos (by rw [e2.1]; decide)]
    exact ⟨_, _, rfl, .inl e2⟩
  · rw [if_neg (by decide)]
    by_cases hx : xs = []
    · subst hx
      rw [if_pos rfl]
      have : junk = [] := List.length_eq_zero_iff.1 e3
      subst this
      refine ⟨_, _, rfl, .inr ⟨rfl, ?_⟩⟩
      simp only [List.append_nil] at e4 ⊢
      rw [setM hi] at e4; exact e4
    · rw [if_neg hx]
      have hi2 : i < ((C.map M).set i (M (if op.assign then [] else C[i]) ++ junk)).length := by rw [List.length_set]; exact hi'
      have hlen : (if op.assign then 0 else C[i].length) = (M (if op.assign then [] else C[i])).length := by
        cases op.assign <;> simp
      rw [hlen]
      obtain ⟨s2, g1, g2, g3⟩ := poke_ok e4 hi2 e5 (M (if op.assign then [] else C[i])).length xs
        (by rw [List.getElem_set_self, List.length_append]; omega)
      rw [g1]
      refine ⟨_, _, rfl, .inr ⟨rfl, ?_⟩⟩
      rw [List.getElem_set_self, List.set_set, splice_end _ _ _ (by rw [List.length_map]; exact e3)] at g2
      have e : M (if op.assign then [] else C[i]) ++ xs.map some = M ((if op.assign then [] else C[i]) ++ xs) := by
        simp only [M, List.map_append]
      rw [e, setM hi] at g2
      exact g2

/-! ### Geometries -/

/-- Geometries for which the array is not read backwards from behind its end. -/
def SafeGeo (g : Geo) (cw : Bool) : Prop :=
  cw = true ∨ match g with
    | .polygon ps => ps = []
    | .boxes bs => bs = []
    | _ => True

theorem backward_eq {α : Type} (xs : List α) : ∀ (n k : Nat), k + 1 = n → n ≤ xs.length → backward xs k n = some (xs.take n).reverse := by
  intro n
  induction n with
  | zero => intro k h; omega
  | succ n ih =>
    intro k hk hn
    have hkn : k = n := by omega
    subst hkn
    simp only [backward, List.getElem?_eq_getElem (show k < xs.length by omega), Option.bind_eq_bind, Option.bind_some]
    have ht : xs.take (k + 1) = xs.take k ++ [xs[k]] := by rw [List.take_succ_eq_append_getElem (by omega)]
    by_cases h0 : k = 0
    · subst h0
      rw [if_pos rfl, ht]; rfl
    · rw [if_neg h0, if_neg h0, ih (k - 1) (by omega) (by omega)]
      simp only [Option.bind_some]
      rw [ht, List.reverse_append]; rfl

theorem polyItems_length (ps : List Pt) : (polyItems ps).length = ps.length := by
  cases ps with
  | nil => rfl
  | cons p t => simp [polyItems]

theorem boxesItems_length (cw : Bool) (bs : List (F × F × F × F)) : (boxesItems cw bs).length ≤ bs.length * 5 := by
  induction bs with
  | nil => simp [boxesItems]
  | cons b t ih =>
    simp only [boxesItems, List.filter_cons] at ih ⊢
    split
    · simp only [List.flatMap_cons, List.length_append, List.length_cons]
      have : (boxItems b.1 b.2.1 b.2.2.1 b.2.2.2 cw).length = 5 := by unfold boxItems; split <;> rfl
      omega
    · simp only [List.length_cons]; omega

/-- The number of elements of the array. -/
def Geo.len : Geo → Nat
  | .polyline ps => ps.length
  | .polygon ps => ps.length
  | .boxes bs => bs.length
  | _ => 0

theorem items_ok (kappa : Rat) (cw : Bool) (g : Geo) (hc : g.count ≠ 0) (hs : SafeGeo g cw) (hl : g.len ≤ 2 ^ 55) :
    g.items kappa cw = some (outline kappa cw g) ∧ (outline kappa cw g).length ≤ g.count := by
  cases g with
  | box x0 y0 x1 y1 => exact ⟨rfl, by simp only [outline, Geo.items, Option.getD_some, boxItems, Geo.count]; split <;> simp⟩
  | ellipse cx cy rx ry => exact ⟨rfl, by simp [outline, Geo.items, Geo.count, ellipseItems, cubic3]⟩
  | circle cx cy r => exact ⟨rfl, by simp [outline, Geo.items, Geo.count, ellipseItems, cubic3]⟩
  | roundRect x y w h rx ry =>
    refine ⟨rfl, ?_⟩
    simp only [outline, Geo.items, Option.getD_some, roundRectItems, Geo.count]
    split
    · unfold boxItems; split <;> simp
    · split <;> simp [cubic3]
  | line p0 p1 => exact ⟨rfl, by simp only [outline, Geo.items, Option.getD_some, Geo.count]; split <;> simp⟩
  | triangle p0 p1 p2 => exact ⟨rfl, by simp only [outline, Geo.items, Option.getD_some, Geo.count]; split <;> simp⟩
  | polyline ps =>
    simp only [Geo.count, ne_eq] at hc
    have hl2 : (outline kappa cw (.polyline ps)).length = ps.length := by
      simp only [outline]; rw [polyItems_length]; split <;> simp
    refine ⟨?_, by rw [hl2]; exact Nat.le_refl _⟩
    simp only [Geo.items, Geo.count, outline]
    cases cw with
    | true => simp [Geo.items.rd']
    | false =>
      simp only [Bool.false_eq_true, if_false]
      rw [backward_eq ps ps.length (ps.length - 1) (by omega) (Nat.le_refl _), List.take_length]; rfl
  | polygon ps =>
    have hne : ps ≠ [] := by intro e; subst e; simp [Geo.count] at hc
    have hl0 : ps.length ≠ 0 := fun e => hne (List.length_eq_zero_iff.1 e)
    have hcw : cw = true := by rcases hs with hs | hs; exact hs; exact absurd hs hne
    subst hcw
    have ho : outline kappa true (.polygon ps) = polyItems ps ++ [⟨cClose, nanPt⟩] := by
      cases ps with
      | nil => exact absurd rfl hne
      | cons p t => rfl
    rw [ho]
    refine ⟨?_, by rw [List.length_append, polyItems_length]; simp [Geo.count, hl0]⟩
    simp only [Geo.items, Geo.count, if_neg hl0, if_true, Nat.add_sub_cancel]
    simp [Geo.items.rd']
  | boxes bs =>
    simp only [Geo.count, Geo.len] at hc hl
    have hne : bs ≠ [] := by intro e; subst e; simp at hc
    have hcw : cw = true := by rcases hs with hs | hs; exact hs; exact absurd hs hne
    subst hcw
    have hm : min (bs.length * 5) (2 ^ 64 - 1) = bs.length * 5 := by omega
    refine ⟨?_, ?_⟩
    · simp only [Geo.items, Geo.count, outline, hm, if_true, Geo.items.rd', Nat.mul_div_cancel _ (show 0 < 5 by omega)]
      simp [boxesItems]
    · simp only [Geo.count, hm, outline, if_true]
      exact boxesItems_length true bs

/-- Making a path shorter, at the end of `add_geometry`. -/
theorem cut_ok {L : List Cells} (h : R E s L) (hi : i < L.length) (ho : Own s i) (n : Nat) (hn : n ≤ L[i].length) :
    ∃ x m s', look s i = some (x, m) ∧ store s i { x with size := n } = some s' ∧ R E s' (L.set i (L[i].take n)) ∧ Own s' i := by
  obtain ⟨y, hy, hd⟩ := ho
  obtain ⟨x', m, h1, h2, _⟩ := view h hi
  rw [hy] at h1
  simp only [Option.some.injEq, Prod.mk.injEq] at h1
  obtain ⟨rfl, rfl⟩ := h1
  have hs := h2.size
  have hf := h2.fits
  obtain ⟨s', g1, g2, g3⟩ := store_ok h hi hy { y with size := n } (L[i].take n)
    ⟨by show n ≤ y.cells.length; omega,
     by show y.cells.take n = _; rw [← h2.val, List.take_take, Nat.min_eq_left (by omega)], h2.cap, cacheOk_dirty hd (h2.cache.1 hd)⟩
  exact ⟨y, true, s', hy, g1, g2, _, g3, hd⟩

theorem count_le (g : Geo) (hl : g.len ≤ 2 ^ 55) : g.count ≤ 2 ^ 58 := by
  cases g <;> simp only [Geo.count, Geo.len] at * <;> first | omega | (split <;> omega)

theorem outline_nil (kappa : Rat) (cw : Bool) (g : Geo) (h : g.count = 0) : outline kappa cw g = [] := by
  cases g with
  | polyline ps =>
    have : ps = [] := List.length_eq_zero_iff.1 h
    subst this; cases cw <;> rfl
  | polygon ps =>
    simp only [Geo.count] at h
    have : ps = [] := by
      split at h
      · exact List.length_eq_zero_iff.1 (by assumption)
      · omega
    subst this; rfl
  | boxes bs =>
    simp only [Geo.count] at h
    have : bs = [] := List.length_eq_zero_iff.1 (by omega)
    subst this; cases cw <;> rfl
  | _ => simp [Geo.count] at h

theorem addGeometry_ok (h : RI E s C) (hi : i < C.length) (kappa : Rat) (ok : Bool) (g : Geo) (cw : Bool) (f : Option (Pt → Pt))
    (hs : SafeGeo g cw) (hl : g.len ≤ 2 ^ 55) :
    ∃ r s', addGeometry kappa ok s i g cw f = some (r, s') ∧ (Fail ok (C[i].length + g.count) r s s' ∨
      Did E C i (.success, C[i] ++ (match f with | none => outline kappa cw g | some f => mapVtx f (outline kappa cw g))) r s') := by
  have hi' : i < (C.map M).length := by rw [List.length_map]; exact hi
  simp only [addGeometry]
  by_cases hc : g.count = 0
  · rw [if_pos hc]
    refine ⟨_, _, rfl, .inr ⟨rfl, ?_⟩⟩
    rw [outline_nil kappa cw g hc]
    have : (match f with | none => [] | some f => mapVtx f []) = ([] : List Item) := by cases f <;> rfl
    simp only [this, List.append_nil]
    exact keep h hi
  · rw [if_neg hc]
    obtain ⟨x, m, h1, h2, _⟩ := view h hi'
    rw [getM hi] at h2
    have hsz := h2.size
    rw [List.length_map] at hsz
    obtain ⟨r, off, s1, e1, e2⟩ := modifyOp_ok h hi ok ⟨false, true⟩ g.count (count_le g hl)
    obtain ⟨t1, t2⟩ := items_ok kappa cw g hc hs hl
    simp only [h1, e1, Option.bind_eq_bind, Option.bind_some]
    rcases e2 with e2 | ⟨rfl, rfl, junk, e3, e4, e5⟩
    · rw [if_pos (by rw [e2.1]; decide)]
      exact ⟨_, _, rfl, .inl e2⟩
    · rw [if_neg (by decide), t1]
      simp only [Bool.false_eq_true, if_false, Option.bind_some] at e4 ⊢
      have hi2 : i < ((C.map M).set i (M C[i] ++ junk)).length := by rw [List.length_set]; exact hi'
      obtain ⟨s2, g1, g2, g3⟩ := poke_ok e4 hi2 e5 C[i].length (outline kappa cw g)
        (by rw [List.getElem_set_self, List.length_append, List.length_map]; omega)
      rw [g1]
      simp only [Option.bind_some]
      rw [List.getElem_set_self, List.set_set] at g2
      have hi3 : i < ((C.map M).set i (splice (M C[i] ++ junk) C[i].length (List.map some (outline kappa cw g)))).length := by
        rw [List.length_set]; exact hi'
      obtain ⟨x3, m3, s3, k1, k2, k3, k4⟩ := cut_ok g2 hi3 g3 (C[i].length + (outline kappa cw g).length)
        (by rw [List.getElem_set_self, splice_length _ _ _ (by simp only [List.length_append, List.length_map]; omega), List.length_append, List.length_map]; omega)
      simp only [k1, k2, Option.bind_some]
      rw [List.getElem_set_self, List.set_set] at k3
      have hval : (splice (M C[i] ++ junk) C[i].length (List.map some (outline kappa cw g))).take (C[i].length + (outline kappa cw g).length) =
          M (C[i] ++ outline kappa cw g) := by
        simp only [splice]
        rw [List.take_left' (by simp only [List.length_append, List.length_take, List.length_map]; omega)]
        rw [List.take_left' (by rw [List.length_map])]
        simp only [M, List.map_append]
      rw [hval] at k3
      cases f with
      | none =>
        refine ⟨_, _, rfl, .inr ⟨rfl, ?_⟩⟩
        rw [setM hi] at k3; exact k3
      | some f =>
        have hi4 : i < ((C.map M).set i (M (C[i] ++ outline kappa cw g))).length := by rw [List.length_set]; exact hi'
        obtain ⟨x4, m4, v1, v2, _⟩ := view k3 hi4
        rw [List.getElem_set_self] at v2
        have v3 := v2.size
        rw [List.length_map, List.length_append] at v3
        have v4 := v2.fits
        have hread : (x4.cells.drop C[i].length).take (x4.size - C[i].length) = M (outline kappa cw g) := by
          have := congrArg (fun l => l.drop C[i].length) v2.val
          rw [← List.drop_take, this]
          simp only [M, List.map_append]
          rw [List.drop_left' (by rw [List.length_map])]
        simp only [v1, Option.bind_some, hsz]
        rw [rd_eq _ _ _ (by omega), hread]
        simp only [Option.bind_some, map_mapItem]
        obtain ⟨s5, w1, w2, _⟩ := pokeCells_ok k3 hi4 k4 C[i].length (M (mapVtx f (outline kappa cw g)))
          (by rw [List.getElem_set_self]; simp only [mapVtx, List.length_map, List.length_append]; omega)
        rw [w1]
        refine ⟨_, _, rfl, .inr ⟨rfl, ?_⟩⟩
        have e : splice (M (C[i] ++ outline kappa cw g)) C[i].length (M (mapVtx f (outline kappa cw g))) = M (C[i] ++ mapVtx f (outline kappa cw g)) := by
          have := splice_end (M C[i]) (M (outline kappa cw g)) (M (mapVtx f (outline kappa cw g))) (by simp [mapVtx])
          rw [List.length_map] at this
          simp only [M, List.map_append] at this ⊢
          exact this
        rw [List.getElem_set_self, List.set_set, e, setM hi] at w2
        exact w2

end Blend2D.Path
