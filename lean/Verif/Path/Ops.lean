import Verif.Path.Lemmas
/-! # What the functions do -/
namespace Blend2D.Path
open Cow Spec
open Blend2D.Arr (implMaxSize expand masked rd wr ModifyOp)

/-- The calls. -/
def call (E : Ext) (kappa : Rat) (ok : Bool) (s : St) (i : Nat) : Call → Option (Result × St)
  | .simple c => add ok s i (itemsOf c)
  | .smoothQuadTo p => smoothQuadTo ok s i p
  | .smoothCubicTo p q => smoothCubicTo ok s i p q
  | .setVertexAt k c p => setVertexAt ok s i k c p
  | .addPath j r f => addPath ok s i j r f
  | .transform r f => transform ok s i r f
  | .removeRange r => removeRange ok s i r
  | .clear => clear s i
  | .reset => reset s i
  | .reserve n => reserve ok s i n
  | .shrink => shrink E ok s i
  | .assignDeep j => assignDeep ok s i j
  | .geometry g cw f => addGeometry kappa ok s i g cw f
  | .modify a g xs => modifyFill ok s i ⟨a, g⟩ xs

abbrev M (xs : List Item) : Cells := xs.map some

/-- All items are initialised. -/
abbrev RI (E : Ext) (s : St) (C : List (List Item)) : Prop := R E s (C.map M)

variable {E : Ext} {s : St} {C : List (List Item)} {i : Nat}

theorem getM (hi : i < C.length) : (C.map M)[i]'(by rw [List.length_map]; exact hi) = C[i].map some := by
  rw [List.getElem_map]

theorem setM (hi : i < C.length) (xs : List Item) : (C.map M).set i (xs.map some) = (C.set i xs).map M := by
  rw [List.map_set]

/-- Nothing happened, for lack of memory. -/
def Fail (ok : Bool) (n : Nat) (r : Result) (s s' : St) : Prop := r = .outOfMemory ∧ s' = s ∧ (ok = false ∨ 2 ^ 57 < n)

/-- The call returned `r` and the path is `xs`. -/
def Did (E : Ext) (C : List (List Item)) (i : Nat) (res : Result × List Item) (r : Result) (s' : St) : Prop :=
  r = res.1 ∧ RI E s' (C.set i res.2)

theorem len_bound (h : RI E s C) (hi : i < C.length) : 104 + C[i].length * 17 < 2 ^ 63 := by
  obtain ⟨x, m, h1, h2, _⟩ := view h (i := i) (by rw [List.length_map]; exact hi)
  have := h2.cap
  have h3 := h2.size
  rw [getM hi, List.length_map] at h3
  have := h2.fits
  unfold implMaxSize at *
  omega

theorem add_ok (h : RI E s C) (hi : i < C.length) (ok : Bool) (xs : List Item) (hn : xs.length ≤ 2 ^ 58) :
    ∃ r s', add ok s i xs = some (r, s') ∧ (Fail ok (C[i].length + xs.length) r s s' ∨ Did E C i (.success, C[i] ++ xs) r s') := by
  have hi' : i < (C.map M).length := by rw [List.length_map]; exact hi
  have hb := len_bound h hi
  obtain ⟨r, off, s1, e1, e2⟩ := prepareAdd_ok h hi' ok xs.length (by rw [getM hi, List.length_map]; omega)
  simp only [add, e1, Option.bind_eq_bind, Option.bind_some]
  rcases e2 with e2 | ⟨rfl, rfl, junk, e3, e4, e5⟩
  · rw [if_pos (by rw [e2.1]; decide)]
    exact ⟨_, _, rfl, .inl (by rw [getM hi, List.length_map] at e2; exact e2)⟩
  · rw [if_neg (by decide)]
    obtain ⟨s2, g1, g2, g3⟩ := poke_ok e4 (i := i) (by rw [List.length_set]; exact hi') e5 (C.map M)[i].length xs
      (by rw [List.getElem_set_self, List.length_append]; omega)
    rw [g1]
    refine ⟨_, _, rfl, .inr ⟨rfl, ?_⟩⟩
    rw [List.getElem_set_self, List.set_set, splice_end _ _ _ (by rw [List.length_map]; exact e3)] at g2
    have e : (C.map M)[i] ++ xs.map some = M (C[i] ++ xs) := by rw [List.getElem_map, M, M, List.map_append]
    rw [e, setM hi] at g2
    exact g2

/-! ### Reading items -/

theorem at?_ok {x : Impl} {xs : List Item} (h : okB E x (M xs)) (k : Nat) (hk : k < xs.length) : at? x k = some xs[k] := by
  have h1 : x.cells[k]? = some (some xs[k]) := by
    have := congrArg (fun l => l[k]?) h.val
    simp only [List.getElem?_take, List.getElem?_map, List.getElem?_eq_getElem hk, Option.map_some] at this
    have hs := h.size
    rw [List.length_map] at hs
    rw [if_pos (by omega)] at this
    exact this
  simp only [at?, h1, Option.bind_eq_bind, Option.bind_some]

/-- Items before some that are not initialised. -/
theorem at?_ok' {x : Impl} {xs : List Item} {junk : Cells} (h : okB E x (M xs ++ junk)) (k : Nat) (hk : k < xs.length) :
    at? x k = some xs[k] := by
  have h1 : x.cells[k]? = some (some xs[k]) := by
    have := congrArg (fun l => l[k]?) h.val
    rw [List.getElem?_take] at this
    rw [List.getElem?_append_left (by rw [List.length_map]; exact hk), List.getElem?_map, List.getElem?_eq_getElem hk] at this
    have hs := h.size
    rw [List.length_append, List.length_map] at hs
    rw [if_pos (by omega)] at this
    exact this
  simp only [at?, h1, Option.bind_eq_bind, Option.bind_some]

theorem reverse_cons {α : Type} (xs : List α) (h : 0 < xs.length) : ∃ t, xs.reverse = xs[xs.length - 1] :: t ∧ t = xs.dropLast.reverse := by
  have hne : xs ≠ [] := by intro e; simp [e] at h
  refine ⟨xs.dropLast.reverse, ?_, rfl⟩
  have h2 := List.dropLast_concat_getLast hne
  rw [List.getLast_eq_getElem] at h2
  have h3 := congrArg List.reverse h2
  rw [List.reverse_append] at h3
  exact h3.symm

theorem smoothCtrl_eq (cmd : Nat) (xs : List Item) (h : 0 < xs.length) :
    smoothCtrl cmd xs = if xs[xs.length - 1].cmd ≥ cClose then none
      else if h2 : 2 ≤ xs.length then
        (if xs[xs.length - 2].cmd = cmd then some (reflect xs[xs.length - 1].vtx xs[xs.length - 2].vtx) else some xs[xs.length - 1].vtx)
      else some xs[xs.length - 1].vtx := by
  obtain ⟨t, h1, h2⟩ := reverse_cons xs h
  unfold smoothCtrl
  rw [h1]
  simp only
  by_cases hc : xs[xs.length - 1].cmd ≥ cClose
  · rw [if_pos hc, if_pos]
    simp only [cClose, cWeight] at *; omega
  · rw [if_neg hc, if_neg (by simp only [cClose, cWeight] at *; omega)]
    subst h2
    by_cases hl : 2 ≤ xs.length
    · rw [dif_pos hl]
      have hl2 : 0 < xs.dropLast.length := by rw [List.length_dropLast]; omega
      obtain ⟨t2, h3, _⟩ := reverse_cons xs.dropLast hl2
      rw [h3]
      have e : xs.dropLast[xs.dropLast.length - 1] = xs[xs.length - 2] := by
        rw [List.getElem_dropLast]
        congr 1
        rw [List.length_dropLast]; omega
      simp only [e]
      rfl
    · rw [dif_neg hl]
      have : xs.dropLast = [] := List.length_eq_zero_iff.1 (by rw [List.length_dropLast]; omega)
      rw [this]; rfl

theorem smooth_ok (h : RI E s C) (hi : i < C.length) (ok : Bool) (cmd n : Nat) (items : Pt → List Item) (hn : n ≤ 3)
    (hit : ∀ p, (items p).length = n) :
    ∃ r s', smooth ok s i cmd n items = some (r, s') ∧ (Fail ok (C[i].length + 3) r s s' ∨
      Did E C i (match smoothCtrl cmd C[i] with
        | none => (.noMatchingVertex, C[i])
        | some p => (.success, C[i] ++ items p)) r s') := by
  have hi' : i < (C.map M).length := by rw [List.length_map]; exact hi
  have hb := len_bound h hi
  obtain ⟨x, m, h1, h2, _⟩ := view h hi'
  rw [getM hi] at h2
  have hsz := h2.size
  rw [List.length_map] at hsz
  have hkeep : RI E s (C.set i C[i]) := by rw [List.set_getElem_self]; exact h
  simp only [smooth, h1, Option.bind_eq_bind, Option.bind_some]
  by_cases h0 : x.size = 0
  · rw [if_pos h0]
    have : C[i] = [] := List.length_eq_zero_iff.1 (by omega)
    refine ⟨_, _, rfl, .inr ?_⟩
    have hc : smoothCtrl cmd C[i] = none := by rw [this]; rfl
    rw [hc]
    exact ⟨rfl, hkeep⟩
  · rw [if_neg h0]
    have hpos : 0 < C[i].length := by omega
    have ha := at?_ok h2 (C[i].length - 1) (by omega)
    rw [hsz, ha]
    simp only [Option.bind_some]
    have hs := smoothCtrl_eq cmd C[i] hpos
    by_cases hc : C[i][C[i].length - 1].cmd ≥ cClose
    · rw [if_pos hc] at hs ⊢
      rw [hs]
      exact ⟨_, _, rfl, .inr ⟨rfl, hkeep⟩⟩
    · rw [if_neg hc] at hs ⊢
      obtain ⟨r, off, s1, e1, e2⟩ := prepareAdd_ok h hi' ok n (by rw [getM hi, List.length_map]; omega)
      rw [e1]
      simp only [Option.bind_some]
      rcases e2 with e2 | ⟨rfl, rfl, junk, e3, e4, e5⟩
      · rw [if_pos (by rw [e2.1]; decide)]
        refine ⟨_, _, rfl, .inl ?_⟩
        rw [getM hi, List.length_map] at e2
        exact ⟨e2.1, e2.2.1, e2.2.2.imp id (fun g => by omega)⟩
      · rw [if_neg (by decide)]
        have hi2 : i < ((C.map M).set i ((C.map M)[i] ++ junk)).length := by rw [List.length_set]; exact hi'
        obtain ⟨y, my, k1, k2, _⟩ := view e4 hi2
        have k2' : okB E y (M C[i] ++ junk) := by
          rw [List.getElem_set_self] at k2
          rw [getM hi] at k2; exact k2
        simp only [k1, Option.bind_some]
        have hlen : (C.map M)[i].length = C[i].length := by rw [getM hi, List.length_map]
        have hp : smoothPoint y (C.map M)[i].length cmd = smoothCtrl cmd C[i] := by
          rw [hs, hlen]
          unfold smoothPoint
          rw [at?_ok' k2' (C[i].length - 1) (by omega)]
          simp only [Option.bind_eq_bind, Option.bind_some]
          by_cases hl : 2 ≤ C[i].length
          · rw [if_pos hl, dif_pos hl, at?_ok' k2' (C[i].length - 2) (by omega)]
            simp only [Option.bind_some]
            split <;> rfl
          · rw [if_neg hl, dif_neg hl]; rfl
        rw [hp]
        have hsome : ∃ p, smoothCtrl cmd C[i] = some p := by
          rw [hs]
          split
          · split <;> exact ⟨_, rfl⟩
          · exact ⟨_, rfl⟩
        obtain ⟨p, hp2⟩ := hsome
        rw [hp2]
        simp only [Option.bind_some]
        obtain ⟨s2, g1, g2, g3⟩ := poke_ok e4 hi2 e5 (C.map M)[i].length (items p)
          (by rw [List.getElem_set_self, List.length_append, hit]; omega)
        rw [g1]
        refine ⟨_, _, rfl, .inr ⟨rfl, ?_⟩⟩
        rw [List.getElem_set_self, List.set_set, splice_end _ _ _ (by rw [List.length_map, hit]; exact e3)] at g2
        have e : (C.map M)[i] ++ (items p).map some = M (C[i] ++ items p) := by rw [List.getElem_map, M, M, List.map_append]
        rw [e, setM hi] at g2
        exact g2

theorem setVertexAt_ok (h : RI E s C) (hi : i < C.length) (ok : Bool) (k : Nat) (cmd : Option Nat) (p : Pt) :
    ∃ r s', setVertexAt ok s i k cmd p = some (r, s') ∧ (Fail ok C[i].length r s s' ∨
      Did E C i (match C[i][k]? with
        | none => (.invalidValue, C[i])
        | some t => (.success, C[i].set k ⟨(cmd.getD t.cmd) % 256, p⟩)) r s') := by
  have hi' : i < (C.map M).length := by rw [List.length_map]; exact hi
  obtain ⟨x, m, h1, h2, _⟩ := view h hi'
  rw [getM hi] at h2
  have hsz := h2.size
  rw [List.length_map] at hsz
  have hkeep : RI E s (C.set i C[i]) := by rw [List.set_getElem_self]; exact h
  simp only [setVertexAt, h1, Option.bind_eq_bind, Option.bind_some]
  by_cases hk : k ≥ x.size
  · rw [if_pos hk, List.getElem?_eq_none (by omega)]
    exact ⟨_, _, rfl, .inr ⟨rfl, hkeep⟩⟩
  · rw [if_neg hk]
    have hk2 : k < C[i].length := by omega
    rw [List.getElem?_eq_getElem hk2]
    obtain ⟨r, s1, e1, e2⟩ := makeMutable_ok h hi' ok
    rw [e1]
    simp only [Option.bind_some]
    rcases e2 with e2 | ⟨rfl, e2, e3⟩
    · rw [if_pos (by rw [e2.1]; decide)]
      exact ⟨_, _, rfl, .inl (by rw [getM hi, List.length_map] at e2; exact e2)⟩
    · rw [if_neg (by decide)]
      obtain ⟨y, my, k1, k2, _⟩ := view e2 hi'
      rw [getM hi] at k2
      rw [k1]
      simp only [Option.bind_some, at?_ok k2 k hk2]
      obtain ⟨s2, g1, g2, g3⟩ := poke_ok e2 hi' e3 k [⟨(cmd.getD C[i][k].cmd) % 256, p⟩]
        (by rw [getM hi, List.length_map]; simp only [List.length_cons, List.length_nil]; omega)
      rw [g1]
      refine ⟨_, _, rfl, .inr ⟨rfl, ?_⟩⟩
      have e : splice (C.map M)[i] k (List.map some [⟨(cmd.getD C[i][k].cmd) % 256, p⟩]) = M (C[i].set k ⟨(cmd.getD C[i][k].cmd) % 256, p⟩) := by
        rw [getM hi, M, List.map_set, List.set_eq_take_append_cons_drop, if_pos (by rw [List.length_map]; exact hk2)]
        simp [splice]
      rw [e, setM hi] at g2
      exact g2

/-! ### Ranges -/

theorem checkRange_some {n start k : Nat} {r : Range} (h : checkRange n r = some (start, k)) :
    0 < k ∧ start + k ≤ n ∧ ∀ xs : List Item, xs.length = n → slice r xs = (xs.drop start).take k := by
  cases r with
  | none =>
    simp only [checkRange] at h
    split at h
    · simp only [Option.some.injEq, Prod.mk.injEq] at h
      obtain ⟨rfl, rfl⟩ := h
      refine ⟨by assumption, by omega, ?_⟩
      intro xs hx; simp [slice, ← hx]
    · simp at h
  | some q =>
    obtain ⟨a, b⟩ := q
    simp only [checkRange] at h
    split at h
    · rename_i hc
      simp only [Option.some.injEq, Prod.mk.injEq] at h
      obtain ⟨rfl, rfl⟩ := h
      refine ⟨by omega, by omega, ?_⟩
      intro xs hx
      simp only [slice, List.drop_take, ← hx]
      apply List.ext_getElem?
      intro k
      simp only [List.getElem?_take, List.getElem?_drop]
      by_cases h1 : k < min xs.length b - a
      · rw [if_pos h1, if_pos (by omega)]
      · rw [if_neg h1]
        split
        · exact List.getElem?_eq_none (by omega)
        · rfl
    · simp at h

theorem checkRange_none {n : Nat} {r : Range} (h : checkRange n r = none) (xs : List Item) (hx : xs.length = n) :
    slice r xs = [] ∧ without r xs = xs ∧ ∀ k < n, inRange r k = false := by
  cases r with
  | none =>
    simp only [checkRange] at h
    split at h
    · simp at h
    · have : xs = [] := List.length_eq_zero_iff.1 (by omega)
      exact ⟨by simp [slice, this], by simp [without, this], fun k hk => by omega⟩
  | some q =>
    obtain ⟨a, b⟩ := q
    simp only [checkRange] at h
    split at h
    · simp at h
    · rename_i hc
      refine ⟨?_, ?_, ?_⟩
      · simp only [slice]
        apply List.drop_of_length_le
        rw [List.length_take]; omega
      · simp only [without]
        split
        · rw [List.take_of_length_le (by omega), List.drop_of_length_le (by omega), List.append_nil]
        · rfl
      · intro k hk
        simp only [inRange, Bool.and_eq_false_iff, decide_eq_false_iff_not]
        omega

theorem checkRange_in {n start k : Nat} {r : Range} (h : checkRange n r = some (start, k)) (m : Nat) (hm : m < n) :
    inRange r m = (decide (start ≤ m) && decide (m < start + k)) := by
  cases r with
  | none =>
    simp only [checkRange] at h
    split at h
    · simp only [Option.some.injEq, Prod.mk.injEq] at h
      obtain ⟨rfl, rfl⟩ := h
      simp [inRange, hm]
    · simp at h
  | some q =>
    obtain ⟨a, b⟩ := q
    simp only [checkRange] at h
    split at h
    · simp only [Option.some.injEq, Prod.mk.injEq] at h
      obtain ⟨rfl, rfl⟩ := h
      simp only [inRange]
      congr 1
      apply decide_eq_decide.2
      omega
    · simp at h

theorem map_mapItem (f : Pt → Pt) (xs : List Item) : (M xs).map (mapItem f) = M (mapVtx f xs) := by
  simp [M, mapVtx, mapItem, Function.comp_def]

theorem addPath_ok (h : RI E s C) (hi : i < C.length) (j : Nat) (hj : j < C.length) (ok : Bool) (range : Range) (f : Pt → Pt) :
    ∃ r s', addPath ok s i j range f = some (r, s') ∧ (Fail ok (C[i].length + C[j].length) r s s' ∨
      Did E C i (.success, C[i] ++ mapVtx f (slice range C[j])) r s') := by
  have hi' : i < (C.map M).length := by rw [List.length_map]; exact hi
  have hj' : j < (C.map M).length := by rw [List.length_map]; exact hj
  obtain ⟨o, m, h1, h2, _⟩ := view h hj'
  rw [getM hj] at h2
  have hsz := h2.size
  rw [List.length_map] at hsz
  have hbi := len_bound h hi
  have hbj := len_bound h hj
  have hkeep : RI E s (C.set i C[i]) := by rw [List.set_getElem_self]; exact h
  simp only [addPath, h1, Option.bind_eq_bind, Option.bind_some]
  cases hr : checkRange o.size range with
  | none =>
    obtain ⟨c1, _, _⟩ := checkRange_none hr C[j] hsz.symm
    refine ⟨_, _, rfl, .inr ⟨rfl, ?_⟩⟩
    simp only [c1, mapVtx, List.map_nil, List.append_nil]
    exact hkeep
  | some q =>
    obtain ⟨start, n⟩ := q
    obtain ⟨c1, c2, c3⟩ := checkRange_some hr
    simp only
    obtain ⟨r, off, s1, e1, e2⟩ := prepareAdd_ok h hi' ok n (by rw [getM hi, List.length_map]; omega)
    rw [e1]
    simp only [Option.bind_some]
    rcases e2 with e2 | ⟨rfl, rfl, junk, e3, e4, e5⟩
    · rw [if_pos (by rw [e2.1]; decide)]
      refine ⟨_, _, rfl, .inl ?_⟩
      rw [getM hi, List.length_map] at e2
      exact ⟨e2.1, e2.2.1, e2.2.2.imp id (fun g => by omega)⟩
    · rw [if_neg (by decide)]
      have hi2 : i < ((C.map M).set i ((C.map M)[i] ++ junk)).length := by rw [List.length_set]; exact hi'
      have hj2 : j < ((C.map M).set i ((C.map M)[i] ++ junk)).length := by rw [List.length_set]; exact hj'
      obtain ⟨o2, m2, k1, k2, _⟩ := view e4 hj2
      rw [k1]
      simp only [Option.bind_some]
      -- the items of the other path are still there
      have hread : (o2.cells.drop start).take n = M ((C[j].drop start).take n) ∧ start + n ≤ o2.cells.length := by
        have hv : ∃ rest, o2.cells.take o2.size = M C[j] ++ rest := by
          by_cases hij : i = j
          · subst hij
            have := k2.val
            rw [List.getElem_set_self, getM hi] at this
            exact ⟨junk, this⟩
          · have := k2.val
            rw [List.getElem_set_ne hij, getM hj] at this
            exact ⟨[], by rw [this, List.append_nil]⟩
        obtain ⟨rest, hv⟩ := hv
        have hle : C[j].length ≤ o2.size := by
          have := congrArg List.length hv
          rw [List.length_take, List.length_append, List.length_map] at this
          omega
        have hf2 := k2.fits
        refine ⟨?_, by omega⟩
        apply List.ext_getElem?
        intro k
        rw [M, List.map_take, List.map_drop, List.getElem?_take, List.getElem?_take]
        split
        · rename_i hk
          rw [List.getElem?_drop, List.getElem?_drop]
          have := congrArg (fun l => l[start + k]?) hv
          simp only [List.getElem?_take] at this
          rw [if_pos (by omega), List.getElem?_append_left (by rw [List.length_map]; omega)] at this
          exact this
        · rfl
      rw [rd_eq _ _ _ hread.2, hread.1]
      simp only [Option.bind_some, map_mapItem, ← c3 C[j] hsz.symm]
      have hl : (slice range C[j]).length = n := by rw [c3 C[j] hsz.symm, List.length_take, List.length_drop]; omega
      obtain ⟨s2, g1, g2, g3⟩ := pokeCells_ok e4 hi2 e5 (C.map M)[i].length (M (mapVtx f (slice range C[j])))
        (by rw [List.getElem_set_self, List.length_append, List.length_map, mapVtx, List.length_map, hl]; omega)
      rw [g1]
      refine ⟨_, _, rfl, .inr ⟨rfl, ?_⟩⟩
      rw [List.getElem_set_self, List.set_set, splice_end _ _ _ (by rw [List.length_map, mapVtx, List.length_map, hl]; exact e3)] at g2
      have e : (C.map M)[i] ++ M (mapVtx f (slice range C[j])) = M (C[i] ++ mapVtx f (slice range C[j])) := by
        rw [List.getElem_map]; simp only [M, List.map_append]
      rw [e, setM hi] at g2
      exact g2

theorem splice_map (f : Pt → Pt) (xs : List Item) (r : Range) (start n : Nat) (hr : checkRange xs.length r = some (start, n)) :
    splice (M xs) start (M (mapVtx f ((xs.drop start).take n))) = M (mapIn r f xs) := by
  obtain ⟨_, c2, _⟩ := checkRange_some hr
  have hlen : (M (mapVtx f ((xs.drop start).take n))).length = n := by
    simp only [M, mapVtx, List.length_map, List.length_take, List.length_drop]; omega
  apply List.ext_getElem?
  intro k
  have hM : (M (mapIn r f xs))[k]? = (xs[k]?).map (fun t => some (if inRange r k then ⟨t.cmd, f t.vtx⟩ else t)) := by
    simp only [M, mapIn, List.getElem?_map, List.getElem?_mapIdx, Option.map_map, Function.comp_def]
  rw [hM]
  unfold splice
  rw [List.getElem?_append, List.length_append, hlen]
  have hts : ((M xs).take start).length = start := by rw [List.length_take, List.length_map]; omega
  rw [hts]
  by_cases h1 : k < start + n
  · rw [if_pos h1, List.getElem?_append, hts]
    have hk : k < xs.length := by omega
    have hin := checkRange_in hr k hk
    by_cases h2 : k < start
    · rw [if_pos h2, List.getElem?_take, if_pos h2, List.getElem?_map]
      rw [hin, decide_eq_false (by omega)]
      simp only [Bool.false_and, Bool.false_eq_true, if_false]
    · rw [if_neg h2]
      simp only [M, mapVtx, List.map_map, List.getElem?_map, List.getElem?_take, List.getElem?_drop]
      rw [if_pos (by omega), show start + (k - start) = k by omega]
      rw [hin, decide_eq_true (by omega), decide_eq_true (by omega)]
      rfl
  · rw [if_neg h1, List.getElem?_drop, show start + n + (k - (start + n)) = k by omega, List.getElem?_map]
    by_cases hk : k < xs.length
    · rw [checkRange_in hr k hk, decide_eq_false (show ¬ k < start + n by omega)]
      simp only [Bool.and_false, Bool.false_eq_true, if_false]
    · rw [List.getElem?_eq_none (by omega)]; rfl

theorem transform_ok (h : RI E s C) (hi : i < C.length) (ok : Bool) (range : Range) (f : Pt → Pt) :
    ∃ r s', transform ok s i range f = some (r, s') ∧ (Fail ok C[i].length r s s' ∨ Did E C i (.success, mapIn range f C[i]) r s') := by
  have hi' : i < (C.map M).length := by rw [List.length_map]; exact hi
  obtain ⟨x, m, h1, h2, _⟩ := view h hi'
  rw [getM hi] at h2
  have hsz := h2.size
  rw [List.length_map] at hsz
  have hkeep : RI E s (C.set i C[i]) := by rw [List.set_getElem_self]; exact h
  simp only [transform, h1, Option.bind_eq_bind, Option.bind_some]
  cases hr : checkRange x.size range with
  | none =>
    obtain ⟨_, _, c3⟩ := checkRange_none hr C[i] hsz.symm
    refine ⟨_, _, rfl, .inr ⟨rfl, ?_⟩⟩
    have : mapIn range f C[i] = C[i] := by
      apply List.ext_getElem?
      intro k
      simp only [mapIn, List.getElem?_mapIdx]
      by_cases hk : k < C[i].length
      · rw [List.getElem?_eq_getElem hk]
        simp only [Option.map_some, c3 k (by omega), Bool.false_eq_true, if_false]
      · rw [List.getElem?_eq_none (by omega)]; rfl
    simp only [this]
    exact hkeep
  | some q =>
    obtain ⟨start, n⟩ := q
    obtain ⟨c1, c2, c3⟩ := checkRange_some hr
    simp only
    obtain ⟨r, s1, e1, e2⟩ := makeMutable_ok h hi' ok
    rw [e1]
    simp only [Option.bind_some]
    rcases e2 with e2 | ⟨rfl, e2, e3⟩
    · rw [if_pos (by rw [e2.1]; decide)]
      exact ⟨_, _, rfl, .inl (by rw [getM hi, List.length_map] at e2; exact e2)⟩
    · rw [if_neg (by decide)]
      obtain ⟨y, my, k1, k2, _⟩ := view e2 hi'
      rw [getM hi] at k2
      rw [k1]
      have hys := k2.size
      rw [List.length_map] at hys
      have hyf := k2.fits
      have hread : (y.cells.drop start).take n = M ((C[i].drop start).take n) := by
        have := congrArg (fun l => (l.drop start).take n) k2.val
        rw [M, List.map_take, List.map_drop, ← this, List.drop_take, List.take_take]
        congr 1; omega
      simp only [Option.bind_some, rd_eq y.cells start n (by omega), hread, map_mapItem]
      obtain ⟨s2, g1, g2, g3⟩ := pokeCells_ok e2 hi' e3 start (M (mapVtx f ((C[i].drop start).take n)))
        (by rw [getM hi]; simp only [mapVtx, List.length_map, List.length_take, List.length_drop]; omega)
      rw [g1]
      refine ⟨_, _, rfl, .inr ⟨rfl, ?_⟩⟩
      have hr' : checkRange C[i].length range = some (start, n) := by rw [← hsz]; exact hr
      have e : splice (C.map M)[i] start (M (mapVtx f ((C[i].drop start).take n))) = M (mapIn range f C[i]) := by
        rw [getM hi]; exact splice_map f C[i] range start n hr'
      rw [e, setM hi] at g2
      exact g2

end Blend2D.Path
