import Verif.Path.Ops
/-! # What the functions do: size and capacity, ranges, geometries, info -/
namespace Blend2D.Path
open Cow Spec
open Blend2D.Arr (implMaxSize expand masked rd wr ModifyOp)

variable {E : Ext} {s : St} {C : List (List Item)} {i : Nat}

theorem reset_ok (h : RI E s C) (hi : i < C.length) : ∃ r s', reset s i = some (r, s') ∧ Did E C i (.success, []) r s' := by
  have hi' : i < (C.map M).length := by rw [List.length_map]; exact hi
  obtain ⟨w, h1, h2, _⟩ := rel_replace_sso h () i hi' [] rfl
  simp only [reset, h1, Option.bind_eq_bind, Option.bind_some]
  refine ⟨_, _, rfl, rfl, ?_⟩
  have e := setM (C := C) hi []
  rw [List.map_nil] at e
  rw [e] at h2; exact h2

theorem clear_ok (h : RI E s C) (hi : i < C.length) : ∃ r s', clear s i = some (r, s') ∧ Did E C i (.success, []) r s' := by
  have hi' : i < (C.map M).length := by rw [List.length_map]; exact hi
  obtain ⟨x, m, h1, h2, h3⟩ := view h hi'
  simp only [clear, h1, Option.bind_eq_bind, Option.bind_some]
  cases m with
  | false => exact reset_ok h hi
  | true =>
    obtain ⟨s', g1, g2, g3⟩ := store_ok h hi' h1 { x with size := 0, flags := {} } []
      ⟨Nat.zero_le _, rfl, h2.cap, fun _ => rfl, fun h0 => absurd rfl h0⟩
    simp only [Bool.not_true, Bool.false_eq_true, if_false, g1, Option.bind_some]
    refine ⟨_, _, rfl, rfl, ?_⟩
    have e := setM (C := C) hi []
    rw [List.map_nil] at e
    rw [e] at g2; exact g2

theorem keep (h : RI E s C) (hi : i < C.length) : RI E s (C.set i C[i]) := by rw [List.set_getElem_self]; exact h

theorem reserve_ok (h : RI E s C) (hi : i < C.length) (ok : Bool) (n : Nat) (hn : n ≤ 2 ^ 58) :
    ∃ r s', reserve ok s i n = some (r, s') ∧ (Fail ok (max n C[i].length) r s s' ∨ Did E C i (.success, C[i]) r s') := by
  have hi' : i < (C.map M).length := by rw [List.length_map]; exact hi
  obtain ⟨x, m, h1, h2, h3⟩ := view h hi'
  rw [getM hi] at h2
  have hsz := h2.size
  rw [List.length_map] at hsz
  have hb := len_bound h hi
  simp only [reserve, h1, Option.bind_eq_bind, Option.bind_some]
  split
  · obtain ⟨r, s', e1, e2⟩ := reallocPath_ok h hi' ok (max n x.size) (by omega) (by rw [getM hi, List.length_map]; omega)
    refine ⟨r, s', e1, ?_⟩
    rcases e2 with e2 | ⟨rfl, e2, _⟩
    · exact .inl (by rw [← hsz]; exact e2)
    · exact .inr ⟨rfl, keep e2 hi⟩
  · exact ⟨_, _, rfl, .inr ⟨rfl, keep h hi⟩⟩

/-! ### Info -/

theorem mapM_id {xs : List Item} : (xs.map some).mapM id = some xs := by
  induction xs with
  | nil => rfl
  | cons a t ih =>
    simp only [List.map_cons, List.mapM_cons, id, Option.bind_eq_bind, Option.bind_some]
    rw [ih]; rfl

theorem itemsIn_ok {x : Impl} {xs : List Item} (h : okB E x (M xs)) : itemsIn x = some xs := by
  have hf := h.fits
  simp only [itemsIn, rd_eq x.cells 0 x.size (by omega), Option.bind_eq_bind, Option.bind_some, List.drop_zero, h.val]
  exact mapM_id

/-- The vertex before is known if there should be one. -/
theorem quadStep_some (u : Upd) {prev : Option Pt} (h : prev.isSome) (c e : Pt) : ∃ v, quadStep u prev c e = some v := by
  obtain ⟨p, rfl⟩ := Option.isSome_iff_exists.1 h
  simp only [quadStep]
  split
  · exact ⟨_, rfl⟩
  · exact ⟨_, rfl⟩

theorem conicStep_some (u : Upd) {prev : Option Pt} (h : prev.isSome) (c w e : Pt) : ∃ v, conicStep E u prev c w e = some v := by
  obtain ⟨p, rfl⟩ := Option.isSome_iff_exists.1 h
  simp only [conicStep]
  split
  · exact ⟨_, rfl⟩
  · exact ⟨_, rfl⟩

theorem cubicStep_some (u : Upd) {prev : Option Pt} (h : prev.isSome) (c w e : Pt) : ∃ v, cubicStep E u prev c w e = some v := by
  obtain ⟨p, rfl⟩ := Option.isSome_iff_exists.1 h
  simp only [cubicStep]
  split
  · exact ⟨_, rfl⟩
  · exact ⟨_, rfl⟩

theorem update_some (n : Nat) : ∀ (xs : List Item), xs.length ≤ n → ∀ (hp : Bool) (prev : Option Pt) (u : Upd), (hp = true → prev.isSome) →
    ∃ r, update E hp prev u xs = some r := by
  induction n with
  | zero =>
    intro xs hl hp prev u _
    have : xs = [] := List.length_eq_zero_iff.1 (by omega)
    subst this
    exact ⟨_, by unfold update; rfl⟩
  | succ n ih =>
    intro xs hl hp prev u h
    cases xs with
    | nil => exact ⟨_, by unfold update; rfl⟩
    | cons i t =>
      have hlt : t.length ≤ n := by simpa using hl
      unfold update
      split
      · exact ih t hlt _ _ _ (fun _ => rfl)
      split
      · split
        · exact ⟨_, rfl⟩
        · exact ih t hlt _ _ _ (fun _ => rfl)
      split
      · cases t with
        | nil => exact ⟨_, rfl⟩
        | cons e t =>
          simp only
          cases hp with
          | false => exact ⟨_, rfl⟩
          | true =>
            obtain ⟨v, hv⟩ := quadStep_some u (h rfl) i.vtx e.vtx
            simp only [Bool.not_true, Bool.false_eq_true, if_false, hv, Option.bind_some]
            exact ih t (by simp at hlt; omega) _ _ _ (fun _ => rfl)
      split
      · match t, hlt with
        | [], _ => exact ⟨_, rfl⟩
        | [a], _ => exact ⟨_, rfl⟩
        | w :: e :: t, hlt =>
          simp only
          cases hp with
          | false => exact ⟨_, rfl⟩
          | true =>
            obtain ⟨v, hv⟩ := conicStep_some (E := E) u (h rfl) i.vtx w.vtx e.vtx
            simp only [Bool.not_true, Bool.false_eq_true, if_false, hv, Option.bind_some]
            exact ih t (by simp at hlt; omega) _ _ _ (fun _ => rfl)
      split
      · match t, hlt with
        | [], _ => exact ⟨_, rfl⟩
        | [a], _ => exact ⟨_, rfl⟩
        | w :: e :: t, hlt =>
          simp only
          cases hp with
          | false => exact ⟨_, rfl⟩
          | true =>
            obtain ⟨v, hv⟩ := cubicStep_some (E := E) u (h rfl) i.vtx w.vtx e.vtx
            simp only [Bool.not_true, Bool.false_eq_true, if_false, hv, Option.bind_some]
            exact ih t (by simp at hlt; omega) _ _ _ (fun _ => rfl)
      split
      · exact ih t hlt _ _ _ (by intro h; simp at h)
      · exact ⟨_, rfl⟩

theorem computeInfo_some (E : Ext) (xs : List Item) : ∃ n, computeInfo E xs = some n := by
  obtain ⟨⟨r, u⟩, h⟩ := update_some (E := E) xs.length xs (Nat.le_refl _) false none {} (by intro h; simp at h)
  simp only [computeInfo, h, Option.bind_eq_bind, Option.bind_some]
  split
  · exact ⟨_, rfl⟩
  · split <;> exact ⟨_, rfl⟩

theorem quadStep_dirty {u v : Upd} {prev : Option Pt} {c e : Pt} (h : quadStep u prev c e = some v) : v.flags.dirty = u.flags.dirty ∧ v.flags.invalid = u.flags.invalid ∧ v.flags.empty = u.flags.empty := by
  simp only [quadStep] at h
  split at h
  · simp only [Option.some.injEq] at h; subst h; exact ⟨rfl, rfl, rfl⟩
  · cases prev with
    | none => simp at h
    | some p =>
      simp only [Option.bind_eq_bind, Option.bind_some] at h
      cases h; exact ⟨rfl, rfl, rfl⟩

theorem conicStep_dirty {u v : Upd} {prev : Option Pt} {c w e : Pt} (h : conicStep E u prev c w e = some v) : v.flags.dirty = u.flags.dirty ∧ v.flags.invalid = u.flags.invalid ∧ v.flags.empty = u.flags.empty := by
  simp only [conicStep] at h
  split at h
  · simp only [Option.some.injEq] at h; subst h; exact ⟨rfl, rfl, rfl⟩
  · cases prev with
    | none => simp at h
    | some p =>
      simp only [Option.bind_eq_bind, Option.bind_some] at h
      cases h; exact ⟨rfl, rfl, rfl⟩

theorem cubicStep_dirty {u v : Upd} {prev : Option Pt} {c w e : Pt} (h : cubicStep E u prev c w e = some v) : v.flags.dirty = u.flags.dirty ∧ v.flags.invalid = u.flags.invalid ∧ v.flags.empty = u.flags.empty := by
  simp only [cubicStep] at h
  split at h
  · simp only [Option.some.injEq] at h; subst h; exact ⟨rfl, rfl, rfl⟩
  · cases prev with
    | none => simp at h
    | some p =>
      simp only [Option.bind_eq_bind, Option.bind_some] at h
      cases h; exact ⟨rfl, rfl, rfl⟩

theorem update_dirty (n : Nat) : ∀ (xs : List Item), xs.length ≤ n → ∀ (hp : Bool) (prev : Option Pt) (u : Upd) (r : Bool) (v : Upd),
    update E hp prev u xs = some (r, v) → v.flags.dirty = u.flags.dirty ∧ v.flags.invalid = u.flags.invalid ∧ v.flags.empty = u.flags.empty := by
  induction n with
  | zero =>
    intro xs hl hp prev u r v h
    have : xs = [] := List.length_eq_zero_iff.1 (by omega)
    subst this
    unfold update at h
    simp only [Option.some.injEq, Prod.mk.injEq] at h
    obtain ⟨_, rfl⟩ := h
    exact ⟨rfl, rfl, rfl⟩
  | succ n ih =>
    intro xs hl hp prev u r v h
    cases xs with
    | nil =>
      unfold update at h
      simp only [Option.some.injEq, Prod.mk.injEq] at h
      obtain ⟨_, rfl⟩ := h
      exact ⟨rfl, rfl, rfl⟩
    | cons i t =>
      have hlt : t.length ≤ n := by simpa using hl
      have fin : some (false, u) = some (r, v) → v.flags.dirty = u.flags.dirty ∧ v.flags.invalid = u.flags.invalid ∧ v.flags.empty = u.flags.empty := by
        intro h
        simp only [Option.some.injEq, Prod.mk.injEq] at h
        obtain ⟨_, rfl⟩ := h
        exact ⟨rfl, rfl, rfl⟩
      unfold update at h
      split at h
      · have := ih t hlt _ _ _ _ _ h; exact this
      split at h
      · split at h
        · exact fin h
        · have := ih t hlt _ _ _ _ _ h; exact this
      split at h
      · cases t with
        | nil => exact fin h
        | cons e t =>
          simp only at h
          split at h
          · exact fin h
          · obtain ⟨w, hw1, hw2⟩ := Option.bind_eq_some_iff.1 h
            obtain ⟨a1, a2, a3⟩ := quadStep_dirty hw1
            have := ih t (by simp at hlt; omega) _ _ _ _ _ hw2
            rw [a1, a2, a3] at this; exact this
      split at h
      · match t, hlt, h with
        | [], _, h => exact fin h
        | [a], _, h => exact fin h
        | w :: e :: t, hlt, h =>
          simp only at h
          split at h
          · exact fin h
          · obtain ⟨w, hw1, hw2⟩ := Option.bind_eq_some_iff.1 h
            obtain ⟨a1, a2, a3⟩ := conicStep_dirty hw1
            have := ih t (by simp at hlt; omega) _ _ _ _ _ hw2
            rw [a1, a2, a3] at this; exact this
      split at h
      · match t, hlt, h with
        | [], _, h => exact fin h
        | [a], _, h => exact fin h
        | w :: e :: t, hlt, h =>
          simp only at h
          split at h
          · exact fin h
          · obtain ⟨w, hw1, hw2⟩ := Option.bind_eq_some_iff.1 h
            obtain ⟨a1, a2, a3⟩ := cubicStep_dirty hw1
            have := ih t (by simp at hlt; omega) _ _ _ _ _ hw2
            rw [a1, a2, a3] at this; exact this
      split at h
      · exact ih t hlt _ _ _ _ _ h
      · exact fin h

theorem computeInfo_dirty {xs : List Item} {n : Info} (h : computeInfo E xs = some n) : n.flags.dirty = false := by
  simp only [computeInfo, Option.bind_eq_bind] at h
  obtain ⟨⟨r, u⟩, h1, h2⟩ := Option.bind_eq_some_iff.1 h
  have h3 := (update_dirty (E := E) xs.length xs (Nat.le_refl _) _ _ _ _ _ h1).1
  simp only at h2
  split at h2
  · cases h2; exact h3
  · split at h2
    · cases h2; exact h3
    · cases h2; exact h3

/-- `ensure_info`: nothing changes, and the info of a path that is not empty is the one of its items. -/
theorem ensureInfo_ok (h : RI E s C) (hi : i < C.length) :
    ∃ r s', ensureInfo E s i = some (r, s') ∧ RI E s' C ∧ ∃ x m, look s' i = some (x, m) ∧
      (C[i] ≠ [] → ∃ n, computeInfo E C[i] = some n ∧ x.flags = n.flags ∧ x.cbox = n.cbox ∧ x.bbox = n.bbox ∧
        r = if n.flags.invalid then .invalidGeometry else .success) := by
  have hi' : i < (C.map M).length := by rw [List.length_map]; exact hi
  obtain ⟨x, m, h1, h2, h3⟩ := view h hi'
  rw [getM hi] at h2
  have hsz := h2.size
  rw [List.length_map] at hsz
  have cached : x.flags.dirty = false → C[i] ≠ [] → computeInfo E C[i] = some ⟨x.flags, x.cbox, x.bbox⟩ := by
    intro hd hne
    obtain ⟨xs, e1, e2⟩ := h2.cache.2 (by intro h0; exact hne (List.length_eq_zero_iff.1 (by omega))) hd
    have : xs = C[i] := by
      have e3 := h2.val
      rw [e1] at e3
      exact (List.map_inj_right (fun a b hab => Option.some.inj hab)).1 e3
    rw [← this]; exact e2
  simp only [ensureInfo, h1, Option.bind_eq_bind, Option.bind_some]
  by_cases hd : x.flags.dirty = true
  · by_cases hv : x.flags.invalid = true
    · rw [h2.cache.1 hd] at hv
      simp at hv
    · rw [if_neg hv, if_pos hd, itemsIn_ok h2]
      obtain ⟨n, hn⟩ := computeInfo_some E C[i]
      simp only [Option.bind_some, hn]
      have hc : ∃ a b, s.vars[i]? = some (.dyn a) ∧ s.block? a = some b ∧ b.val = x := by
        have hl : i < s.vars.length := by rw [h.len]; exact hi'
        have hvar : s.vars[i]? = some s.vars[i] := List.getElem?_eq_getElem hl
        cases hc : s.vars[i] with
        | sso u =>
          rw [hc] at hvar
          simp only [look, hvar, Option.bind_eq_bind, Option.bind_some, Option.some.injEq, Prod.mk.injEq] at h1
          rw [← h1.1] at hd; simp [defImpl] at hd
        | dyn a =>
          rw [hc] at hvar
          simp only [look, hvar, Option.bind_eq_bind, Option.bind_some] at h1
          cases hb : s.block? a with
          | none => rw [hb] at h1; simp at h1
          | some b =>
            rw [hb] at h1
            simp only [Option.map_some, Option.some.injEq, Prod.mk.injEq] at h1
            exact ⟨a, b, hvar, hb, h1.1⟩
      obtain ⟨a, b, hvar, hb, hbv⟩ := hc
      obtain ⟨t1, t2, t3⟩ := rel_touch h a b hb { x with flags := n.flags, cbox := n.cbox, bbox := n.bbox } (by
        intro v hok
        rw [hbv] at hok
        refine ⟨hok.fits, hok.val, hok.cap, ?_, ?_⟩
        · intro hh
          rw [show ({ x with flags := n.flags, cbox := n.cbox, bbox := n.bbox } : Impl).flags = n.flags from rfl, computeInfo_dirty hn] at hh
          simp at hh
        intro _ _
        exact ⟨C[i], by rw [h2.val], hn⟩)
      have hst : store s i { x with flags := n.flags, cbox := n.cbox, bbox := n.bbox } = some (s.setVal a { x with flags := n.flags, cbox := n.cbox, bbox := n.bbox }) := by
        simp only [store, hvar, Option.bind_eq_bind, Option.bind_some, hb]; rfl
      rw [hst]
      refine ⟨_, _, rfl, t1, { x with flags := n.flags, cbox := n.cbox, bbox := n.bbox }, b.rc == 1, ?_, ?_⟩
      · simp only [look, t2, hvar, Option.bind_eq_bind, Option.bind_some, t3, Option.map_some]
      · intro _
        refine ⟨n, ?_, rfl, rfl, rfl, rfl⟩
        first | exact hn | rfl
  · have hd : x.flags.dirty = false := by simpa using hd
    by_cases hv : x.flags.invalid = true
    · rw [if_pos hv]
      refine ⟨_, _, rfl, h, x, m, h1, ?_⟩
      intro hne
      exact ⟨_, cached hd hne, rfl, rfl, rfl, by simp only [hv, if_true]⟩
    · rw [if_neg hv, if_neg (by rw [hd]; decide)]
      refine ⟨_, _, rfl, h, x, m, h1, ?_⟩
      intro hne
      refine ⟨_, cached hd hne, rfl, rfl, rfl, by simp only [hv]; rfl⟩

end Blend2D.Path
