import Verif.Path.Bounds
/-! # Programs that use paths -/
namespace Blend2D.Path
open Cow Spec
open Blend2D.Arr (implMaxSize expand masked rd wr ModifyOp)

/-- `n` default constructed paths (`bl_path_init`, `path.cpp:266-271`). -/
def initial (n : Nat) : St := ⟨List.replicate n (.sso ()), []⟩

/-- An action.  `bl_path_assign_weak` and `bl_path_assign_move` are `path.cpp:443-460`. -/
def step (E : Ext) (kappa : Rat) (ok : Bool) (s : St) : Act → Option (Result × St)
  | .call i c => call E kappa ok s i c
  | .copy i j => (s.assignWeak i j).map (fun s => (.success, s))
  | .move i j => (s.assignMove i j ()).map (fun s => (.success, s))
  | .info i => (getInfo E s i).map (fun r => (r.1, r.2.2))

/-- The actions that are right: arrays that exist fit into memory, and some geometries are not read backwards.  What happens
otherwise is shown by counterexamples in `Props.lean`. -/
def Right : Act → Prop
  | .call _ (.geometry g cw _) => SafeGeo g cw ∧ g.len ≤ 2 ^ 55
  | .call _ (.reserve n) => n ≤ 2 ^ 58
  | .call _ (.simple (.polyTo ps)) => ps.length ≤ 2 ^ 58
  | .call _ (.modify _ _ ys) => ys.length ≤ 2 ^ 58
  | _ => True

/-- Paths a program can have, and what they should be. -/
inductive Reach (E : Ext) (kappa : Rat) : St → List (List Item) → Prop where
  | init (n : Nat) : Reach E kappa (initial n) (List.replicate n [])
  | act {s : St} {L : List (List Item)} (a : Act) (ok : Bool) (r : Result) (s' : St) : Reach E kappa s L → a.Pre L → Right a →
      step E kappa ok s a = some (r, s') → Reach E kappa s' (if r = .outOfMemory then L else after kappa L a)

variable {E : Ext} {kappa : Rat} {s : St} {L : List (List Item)}

/-- What an action did. -/
def Good (E : Ext) (kappa : Rat) (ok : Bool) (s : St) (L : List (List Item)) (a : Act) (r : Result) (s' : St) : Prop :=
  (r = .outOfMemory ∧ s' = s ∧ (ok = false ∨ 2 ^ 57 < demand L a)) ∨
  (r ≠ .outOfMemory ∧ (∀ q, answer kappa L a = some q → r = q) ∧ RI E s' (after kappa L a))

theorem get_eq {i : Nat} (h : i < L.length) : get L i = L[i] := by simp [Spec.get, List.getElem?_eq_getElem h]

theorem answer_ne (kappa : Rat) (f : Nat → Option (List Item)) (xs : List Item) (c : Call) : (apply kappa f xs c).1 ≠ .outOfMemory := by
  cases c with
  | simple c => cases c <;> simp [apply]
  | smoothQuadTo p => simp only [apply]; split <;> simp
  | smoothCubicTo p q => simp only [apply]; split <;> simp
  | setVertexAt k c p => simp only [apply]; split <;> simp
  | shrink => simp only [apply]; split <;> simp
  | _ => simp [apply]

theorem good_of {ok : Bool} {i n : Nat} (hi : i < L.length) (c : Call) (p : Option (Result × St))
    (hn : n ≤ demand L (.call i c) ∨ n ≤ 2 ^ 57) (res : Result × List Item) (hres : apply kappa (fun j => L[j]?) L[i] c = res)
    (h : ∃ r s', p = some (r, s') ∧ (Fail ok n r s s' ∨ Did E L i res r s')) :
    ∃ r s', p = some (r, s') ∧ Good E kappa ok s L (.call i c) r s' := by
  obtain ⟨r, s', h1, h2⟩ := h
  refine ⟨r, s', h1, ?_⟩
  rcases h2 with ⟨a1, a2, a3⟩ | ⟨a1, a2⟩
  · refine .inl ⟨a1, a2, a3.imp id (fun g => ?_)⟩
    rcases hn with hn | hn
    · omega
    · omega
  · subst hres
    refine .inr ⟨by rw [a1]; exact answer_ne _ _ _ _, ?_, ?_⟩
    · intro q hq
      simp only [answer, get_eq hi, Option.some.injEq] at hq
      rw [a1, hq]
    · simp only [after, get_eq hi]; exact a2

theorem did_some {i : Nat} {p : Option (Result × St)} {res : Result × List Item} (ok : Bool) (n : Nat)
    (h : ∃ r s', p = some (r, s') ∧ Did E L i res r s') : ∃ r s', p = some (r, s') ∧ (Fail ok n r s s' ∨ Did E L i res r s') := by
  obtain ⟨r, s', h1, h2⟩ := h
  exact ⟨r, s', h1, .inr h2⟩

theorem items_simple (c : Simple) (kappa : Rat) (f : Nat → Option (List Item)) (xs : List Item) :
    apply kappa f xs (.simple c) = (.success, xs ++ itemsOf c) := by
  cases c with
  | box x0 y0 x1 y1 cw => cases cw <;> rfl
  | rect x y w h cw => cases cw <;> rfl
  | _ => rfl

theorem step_ok (ok : Bool) (h : RI E s L) (a : Act) (hp : a.Pre L) (hr : Right a) :
    ∃ r s', step E kappa ok s a = some (r, s') ∧ Good E kappa ok s L a r s' := by
  cases a with
  | call i c =>
    have hi : i < L.length := by cases c <;> first | exact hp | exact hp.1
    have hd : (get L i).length = L[i].length := by rw [get_eq hi]
    cases c with
    | simple c =>
      have hn : (itemsOf c).length ≤ 2 ^ 58 := by
        cases c with
        | polyTo ps => simp only [itemsOf, List.length_map]; exact hr
        | box x0 y0 x1 y1 cw => cases cw <;> simp [itemsOf, boxItems]
        | rect x y w h cw => cases cw <;> simp [itemsOf, boxItems]
        | _ => simp [itemsOf]
      refine good_of (n := L[i].length + (itemsOf c).length) hi _ _ ?_ _ (items_simple ..) (add_ok h hi ok _ hn)
      left
      cases c with
      | polyTo ps => simp only [demand, hd, itemsOf, List.length_map]; omega
      | box x0 y0 x1 y1 cw => cases cw <;> (simp [demand, hd, itemsOf, boxItems] ; omega)
      | rect x y w h cw => cases cw <;> (simp [demand, hd, itemsOf, boxItems] ; omega)
      | _ => simp [demand, hd, itemsOf] ; omega
    | smoothQuadTo p =>
      exact good_of (n := L[i].length + 3) hi _ _ (.inl (by simp only [demand, hd]; omega)) _ rfl
        (by have := smooth_ok h hi ok cQuad 2 (fun q => [⟨cQuad, q⟩, ⟨cOn, p⟩]) (by omega) (fun _ => rfl); exact this)
    | smoothCubicTo p q =>
      exact good_of (n := L[i].length + 3) hi _ _ (.inl (by simp only [demand, hd]; omega)) _ rfl
        (by have := smooth_ok h hi ok cCubic 3 (fun x => [⟨cCubic, x⟩, ⟨cCubic, p⟩, ⟨cOn, q⟩]) (by omega) (fun _ => rfl); exact this)
    | setVertexAt k c p => exact good_of hi _ _ (.inl (by simp only [demand, hd]; omega)) _ rfl (setVertexAt_ok h hi ok k c p)
    | addPath j r f =>
      have hj : j < L.length := hp.2
      refine good_of hi _ _ (.inl (by simp only [demand, hd, get_eq hj]; omega)) _ ?_ (addPath_ok h hi j hj ok r f)
      simp only [apply, List.getElem?_eq_getElem hj, Option.getD_some]
    | transform r f => exact good_of hi _ _ (.inl (by simp only [demand, hd]; omega)) _ rfl (transform_ok h hi ok r f)
    | removeRange r => exact good_of hi _ _ (.inl (by simp only [demand, hd]; omega)) _ rfl (removeRange_ok h hi ok r)
    | clear => exact good_of hi _ _ (.inr (Nat.zero_le _)) _ rfl (did_some ok 0 (clear_ok h hi))
    | reset => exact good_of hi _ _ (.inr (Nat.zero_le _)) _ rfl (did_some ok 0 (reset_ok h hi))
    | reserve n => exact good_of hi _ _ (.inl (by simp only [demand, hd]; omega)) _ rfl (reserve_ok h hi ok n hr)
    | shrink => exact good_of hi _ _ (.inl (by simp only [demand, hd]; omega)) _ rfl (shrink_ok h hi ok)
    | assignDeep j =>
      have hj : j < L.length := hp.2
      refine good_of hi _ _ (.inl (by simp only [demand, get_eq hj]; omega)) _ ?_ (assignDeep_ok h hi j hj ok)
      simp only [apply, List.getElem?_eq_getElem hj, Option.getD_some]
    | geometry g cw f =>
      refine good_of hi _ _ (.inl ?_) _ rfl (addGeometry_ok h hi kappa ok g cw f hr.1 hr.2)
      cases g <;> simp only [demand, hd, Geo.count] <;> first | omega | (split <;> omega)
    | modify a g xs => exact good_of hi _ _ (.inl (by simp only [demand, hd]; omega)) _ rfl (modifyFill_ok h hi ok ⟨a, g⟩ xs hr)
  | copy i j =>
    have hi : i < (L.map M).length := by rw [List.length_map]; exact hp.1
    obtain ⟨w, h1, h2⟩ := rel_assignWeak h i j hi (M (get L j)) (by rw [List.getElem?_map, List.getElem?_eq_getElem hp.2, get_eq hp.2]; rfl)
    refine ⟨.success, w, by simp only [step, h1]; rfl, .inr ⟨by simp, by intro q hq; cases hq; rfl, ?_⟩⟩
    rw [M, setM hp.1] at h2; exact h2
  | move i j =>
    have hi : i < (L.map M).length := by rw [List.length_map]; exact hp.1
    obtain ⟨w, h1, h2⟩ := rel_assignMove h i j hi (M (get L j)) (by rw [List.getElem?_map, List.getElem?_eq_getElem hp.2, get_eq hp.2]; rfl) () [] rfl
    refine ⟨.success, w, by simp only [step, h1]; rfl, .inr ⟨by simp, by intro q hq; cases hq; rfl, ?_⟩⟩
    have e : ((L.map M).set j []).set i (M (get L j)) = ((L.set j []).set i (get L j)).map M := by
      rw [List.map_set, List.map_set]; rfl
    rw [e] at h2; exact h2
  | info i =>
    obtain ⟨r, s', e1, e2, x, m, e3, e4⟩ := ensureInfo_ok h hp
    have hg : getInfo E s i = some (r, ⟨x.flags, x.cbox, x.bbox⟩, s') := by
      simp only [getInfo, e1, e3, Option.bind_eq_bind, Option.bind_some]; rfl
    refine ⟨r, s', by simp only [step, hg]; rfl, .inr ⟨?_, by intro q hq; simp [answer] at hq, e2⟩⟩
    have hl : look s i ≠ none := by
      obtain ⟨x, m, h1, _⟩ := view h (i := i) (by rw [List.length_map]; exact hp)
      rw [h1]; simp
    intro hro
    subst hro
    simp only [ensureInfo, Option.bind_eq_bind] at e1
    obtain ⟨⟨x0, m0⟩, _, f1⟩ := Option.bind_eq_some_iff.1 e1
    simp only at f1
    split at f1
    · simp at f1
    · split at f1
      · obtain ⟨xs, _, f1⟩ := Option.bind_eq_some_iff.1 f1
        obtain ⟨n, _, f1⟩ := Option.bind_eq_some_iff.1 f1
        obtain ⟨z, _, f1⟩ := Option.bind_eq_some_iff.1 f1
        simp only [Option.pure_def, Option.some.injEq, Prod.mk.injEq] at f1
        have := f1.1
        split at this <;> simp at this
      · simp at f1

theorem reach_rel (h : Reach E kappa s L) : RI E s L := by
  induction h with
  | init n =>
    refine ⟨by simp [initial], ?_, ?_, ?_⟩
    · intro i v x h1 h2
      simp only [initial, List.getElem?_replicate] at h1
      simp only [List.map_replicate, List.map_nil, List.getElem?_replicate] at h2
      split at h1
      · simp only [Option.some.injEq] at h1
        rw [if_pos ‹_›] at h2
        simp only [Option.some.injEq] at h2
        subst h1; subst h2
        rfl
      · simp at h1
    · intro a hr
      exfalso
      have : refs ((initial n).vars ++ []) a = 0 := by
        rw [List.append_nil]
        exact List.countP_eq_zero.2 (by intro x hx; rw [List.eq_of_mem_replicate hx]; simp)
      omega
    · intro a b hb
      exact absurd (block_some_lt _ _ _ hb).1 (by simp [initial])
  | act a ok r s' h0 hp hr hst ih =>
    obtain ⟨r2, s2, h1, h2⟩ := step_ok ok ih a hp hr
    rw [hst] at h1
    simp only [Option.some.injEq, Prod.mk.injEq] at h1
    obtain ⟨rfl, rfl⟩ := h1
    rcases h2 with ⟨a1, a2, _⟩ | ⟨a1, a2, a3⟩
    · rw [if_pos a1, a2]; exact ih
    · rw [if_neg a1]; exact a3

theorem content_eq (h : RI E s L) (i : Nat) : content s i = L[i]? := by
  by_cases hi : i < L.length
  · obtain ⟨x, m, h1, h2, _⟩ := view h (i := i) (by rw [List.length_map]; exact hi)
    rw [getM hi] at h2
    simp only [content, h1, Option.bind_eq_bind, Option.bind_some]
    rw [itemsIn_ok h2, List.getElem?_eq_getElem hi]
  · rw [List.getElem?_eq_none (by omega)]
    have hv : s.vars[i]? = none := List.getElem?_eq_none (by have := h.len; rw [List.length_map] at this; omega)
    simp only [content, look, hv, Option.bind_eq_bind, Option.bind_none]

end Blend2D.Path
