import Verif.Path.Step
import Mathlib.Tactic.NormNum
/-! # C46: paths -/
namespace Blend2D.Path
open Cow Spec
open Blend2D.Arr (implMaxSize expand masked rd wr ModifyOp)

variable {E : Ext} {kappa : Rat} {s : St} {L : List (List Item)}

/-- C46 (partial: some geometries added counter-clockwise and reserving more than `2^58` items are excluded, see the
counterexamples): after any program, every path consists of exactly the commands and vertices the calls should have put
there. -/
theorem C46_history_partial (h : Reach E kappa s L) (i : Nat) : content s i = L[i]? := content_eq (reach_rel h) i

/-- C46 (partial, as above): in every state, every call returns without touching memory that is not its own.  Either it
reports that memory is exhausted, which happens only if an allocation fails or more than `2^57` items are asked for, and
nothing changed; or it returns what it should, its path is what it should be, and all other paths are what they were. -/
theorem C46_calls_partial (h : Reach E kappa s L) (ok : Bool) (i : Nat) (c : Call) (xs : List Item) (hx : content s i = some xs)
    (hp : Act.Pre L (.call i c)) (hr : Right (.call i c)) :
    ∃ r s', call E kappa ok s i c = some (r, s') ∧
      ((r = .outOfMemory ∧ s' = s ∧ (ok = false ∨ 2 ^ 57 < demand L (.call i c))) ∨
       (r = (apply kappa (content s) xs c).1 ∧ content s' i = some (apply kappa (content s) xs c).2 ∧
        ∀ j, j ≠ i → content s' j = content s j)) := by
  have hR := reach_rel h
  obtain ⟨r, s', h1, h2⟩ := step_ok (kappa := kappa) ok hR (.call i c) hp hr
  have hi : i < L.length := by cases c <;> first | exact hp | exact hp.1
  have hf : (fun j => L[j]?) = content s := funext fun j => (content_eq hR j).symm
  have hg : get L i = xs := by rw [content_eq hR, List.getElem?_eq_getElem hi] at hx; rw [get_eq hi]; exact Option.some.inj hx
  refine ⟨r, s', h1, ?_⟩
  rcases h2 with h2 | ⟨_, h2, h3⟩
  · exact .inl h2
  · right
    simp only [answer, after, hf, hg] at h2 h3
    refine ⟨h2 _ rfl, ?_, ?_⟩
    · rw [content_eq h3, List.getElem?_set_self hi]
    · intro j hj
      rw [content_eq h3, content_eq hR, List.getElem?_set_ne (Ne.symm hj)]

/-- C46: a copy is independent of the original.  Copying (moving) a path always succeeds, and whatever is done with one of the
two afterwards leaves the other one as it was (`C46_calls_partial`). -/
theorem C46_copy (h : Reach E kappa s L) (i j : Nat) (hi : i < L.length) (hj : j < L.length) :
    (∃ s', s.assignWeak i j = some s' ∧ content s' i = content s j ∧ ∀ k, k ≠ i → content s' k = content s k) ∧
    (∃ s', s.assignMove i j () = some s' ∧ content s' i = content s j ∧ (i ≠ j → content s' j = some []) ∧
      ∀ k, k ≠ i → k ≠ j → content s' k = content s k) := by
  have hR := reach_rel h
  constructor
  · obtain ⟨r, s', h1, h2⟩ := step_ok (kappa := kappa) true hR (.copy i j) ⟨hi, hj⟩ trivial
    simp only [step, Option.map_eq_some_iff] at h1
    obtain ⟨s1, e1, e2⟩ := h1
    cases e2
    rcases h2 with h2 | ⟨_, _, h3⟩
    · simp at h2
    · refine ⟨_, e1, ?_, ?_⟩
      · rw [content_eq h3, content_eq hR, after, List.getElem?_set_self hi, get_eq hj, List.getElem?_eq_getElem hj]
      · intro k hk
        rw [content_eq h3, content_eq hR, after, List.getElem?_set_ne (Ne.symm hk)]
  · obtain ⟨r, s', h1, h2⟩ := step_ok (kappa := kappa) true hR (.move i j) ⟨hi, hj⟩ trivial
    simp only [step, Option.map_eq_some_iff] at h1
    obtain ⟨s1, e1, e2⟩ := h1
    cases e2
    rcases h2 with h2 | ⟨_, _, h3⟩
    · simp at h2
    · refine ⟨_, e1, ?_, ?_, ?_⟩
      · rw [content_eq h3, content_eq hR, after, List.getElem?_set_self (by rw [List.length_set]; exact hi), get_eq hj, List.getElem?_eq_getElem hj]
      · intro hij
        rw [content_eq h3, after, List.getElem?_set_ne hij, List.getElem?_set_self hj]
      · intro k hk hk2
        rw [content_eq h3, content_eq hR, after, List.getElem?_set_ne (Ne.symm hk), List.getElem?_set_ne (Ne.symm hk2)]

/-! ### Info -/

theorem info_eq (h : Reach E kappa s L) (i : Nat) (xs : List Item) (hx : content s i = some xs) (hne : xs ≠ []) :
    ∃ r n s', getInfo E s i = some (r, n, s') ∧ computeInfo E xs = some n ∧ (r = if n.flags.invalid then .invalidGeometry else .success) ∧
      (∀ j, content s' j = content s j) := by
  have hR := reach_rel h
  have hi : i < L.length := by
    rcases Nat.lt_or_ge i L.length with h | h
    · exact h
    · rw [content_eq hR, List.getElem?_eq_none h] at hx; simp at hx
  have hg : L[i] = xs := by rw [content_eq hR, List.getElem?_eq_getElem hi] at hx; exact Option.some.inj hx
  obtain ⟨r, s', e1, e2, x, m, e3, e4⟩ := ensureInfo_ok hR hi
  obtain ⟨n, n1, n2, n3, n4, n5⟩ := e4 (by rw [hg]; exact hne)
  refine ⟨r, n, s', ?_, by rw [← hg]; exact n1, n5, fun j => by rw [content_eq e2, content_eq hR]⟩
  simp only [getInfo, e1, e3, Option.bind_eq_bind, Option.bind_some, n2, n3, n4]
  rfl

/-- C46 (partial: not for a path that is empty): after any program, the query of flags and boxes succeeds exactly if the commands
make sense (every figure starts with MOVE and every curve is complete), and it changes no path. -/
theorem C46_valid_partial (h : Reach E kappa s L) (i : Nat) (xs : List Item) (hx : content s i = some xs) (hne : xs ≠ []) :
    ∃ r n s', getInfo E s i = some (r, n, s') ∧ (∀ j, content s' j = content s j) ∧
      (r = .success ↔ Valid false (xs.map (·.cmd))) ∧ (r ≠ .success → r = .invalidGeometry) := by
  obtain ⟨r, n, s', h1, h2, h3, h4⟩ := info_eq h i xs hx hne
  refine ⟨r, n, s', h1, h4, ?_, ?_⟩
  · rw [← computeInfo_invalid h2, h3]
    cases n.flags.invalid <;> simp
  · rw [h3]; cases n.flags.invalid <;> simp

/-- The update succeeded. -/
theorem update_of_valid {xs : List Item} {n : Info} (h : computeInfo E xs = some n) (hv : Valid false (xs.map (·.cmd))) :
    ∃ u, update E false none {} xs = some (true, u) ∧
      ((∃ b c, toBox u.bounding = some b ∧ toBox u.control = some c ∧ n = ⟨u.flags, c, b⟩) ∨
       (toBox u.bounding = none ∨ toBox u.control = none) ∧ n = ⟨{ u.flags with empty := true }, Box.zero, Box.zero⟩) := by
  simp only [computeInfo, Option.bind_eq_bind] at h
  obtain ⟨⟨r, u⟩, h1, h2⟩ := Option.bind_eq_some_iff.1 h
  have hr : r = true := (update_valid (E := E) xs.length xs (Nat.le_refl _) _ _ _ _ _ h1).2 hv
  subst hr
  refine ⟨u, h1, ?_⟩
  simp only [Bool.true_eq_false, if_false] at h2
  cases hb : toBox u.bounding with
  | none => rw [hb] at h2; cases h2; exact .inr ⟨.inl rfl, rfl⟩
  | some b =>
    cases hc : toBox u.control with
    | none => rw [hb, hc] at h2; cases h2; exact .inr ⟨.inr rfl, rfl⟩
    | some c => rw [hb, hc] at h2; cases h2; exact .inl ⟨b, c, rfl, rfl, rfl⟩

theorem toBox_some {r : Rng} {x y : Rat} (hx : In r.x x) (hy : In r.y y) : ∃ b, toBox r = some b ∧ Box.Has b x y := by
  obtain ⟨a, b, e1, h1, h2⟩ := hx
  obtain ⟨c, d, e2, h3, h4⟩ := hy
  obtain ⟨rx, ry⟩ := r
  simp only at e1 e2
  subst e1 e2
  exact ⟨_, rfl, h1, h2, h3, h4⟩

theorem has_of {r : Rng} {b : Box} {x y : Rat} (hb : toBox r = some b) (hx : In r.x x) (hy : In r.y y) : Box.Has b x y := by
  obtain ⟨b', e, h⟩ := toBox_some hx hy
  rw [hb] at e; cases e; exact h

/-- C46 (partial: exact arithmetic; curves of degree three and conics by their end vertices only): the bounding box
contains the end of every segment, and every point of every line and every quadratic curve. -/
theorem C46_bounding_box_partial (h : Reach E kappa s L) (i : Nat) (xs : List Item) (hx : content s i = some xs)
    (hv : Valid false (xs.map (·.cmd))) (g : Seg) (hg : g ∈ segs none xs) (x y : Rat)
    (ht : g.stop = ⟨some x, some y⟩ ∨ (g.Basic ∧ g.Through x y)) :
    ∃ r n s', getInfo E s i = some (r, n, s') ∧ r = .success ∧ n.flags.empty = false ∧ Box.Has n.bbox x y := by
  have hne : xs ≠ [] := by intro e; subst e; simp [segs] at hg
  obtain ⟨r, n, s', h1, h2, h3, _⟩ := info_eq h i xs hx hne
  obtain ⟨u, u1, u2⟩ := update_of_valid h2 hv
  obtain ⟨_, _, r3, r4⟩ := update_segs xs.length xs (Nat.le_refl _) false none {} u (fun h => by simp at h) u1
  have hs := r4 g hg
  have hin : In u.bounding.x x ∧ In u.bounding.y y := by
    rcases ht with ht | ⟨hb, ht⟩
    · have := hs.stop
      rw [ht] at this
      exact ⟨this.1 x rfl, this.2 y rfl⟩
    · exact hs.basic hb x y ht
  obtain ⟨b, hb1, hb2⟩ := toBox_some hin.1 hin.2
  obtain ⟨c, hc1, hc2⟩ := toBox_some (r3.1 _ hin.1) (r3.2 _ hin.2)
  have hinv : n.flags.invalid = false := (computeInfo_invalid h2).2 hv
  have hfl := update_dirty (E := E) xs.length xs (Nat.le_refl _) _ _ _ _ _ u1
  refine ⟨r, n, s', h1, by rw [h3, hinv]; rfl, ?_, ?_⟩
  · rcases u2 with ⟨b', c', _, _, rfl⟩ | ⟨u2, _⟩
    · exact hfl.2.2
    · rw [hb1, hc1] at u2; simp at u2
  · rcases u2 with ⟨b', c', e1, _, rfl⟩ | ⟨u2, _⟩
    · rw [hb1] at e1; cases e1; exact hb2
    · rw [hb1, hc1] at u2; simp at u2

/-- C46 (partial: exact arithmetic): for a path of lines and quadratic curves without NaNs, which has at least one vertex, the
bounding box is the smallest box that contains all points of the path. -/
theorem C46_smallest_box_partial (h : Reach E kappa s L) (i : Nat) (xs : List Item) (hx : content s i = some xs)
    (hv : Valid false (xs.map (·.cmd))) (hseg : ∀ g ∈ segs none xs, g.Basic ∧ g.Finite) (hne : segs none xs ≠ []) :
    ∃ r n s', getInfo E s i = some (r, n, s') ∧ r = .success ∧ IsBounds n.bbox (fun x y => ∃ g ∈ segs none xs, g.Through x y) := by
  have hxs : xs ≠ [] := by intro e; subst e; simp [segs] at hne
  obtain ⟨r, n, s', h1, h2, h3, _⟩ := info_eq h i xs hx hxs
  obtain ⟨u, u1, u2⟩ := update_of_valid h2 hv
  obtain ⟨_, _, r3, r4⟩ := update_segs xs.length xs (Nat.le_refl _) false none {} u (fun h => by simp at h) u1
  have hatt := update_att (S := segs none xs) xs.length xs (Nat.le_refl _) false none {} u (fun h => by simp at h)
    (fun g hg => ⟨hg, hseg g hg⟩) ⟨fun a b e => by simp at e, fun a b e => by simp at e⟩ u1
  have hinv : n.flags.invalid = false := (computeInfo_invalid h2).2 hv
  obtain ⟨g0, hg0⟩ := List.exists_mem_of_ne_nil _ hne
  have hstop : Fin g0.stop := by
    have := (hseg g0 hg0).2
    cases g0 with
    | move p => exact this
    | line a b => exact this.2
    | quad a c b => exact this.2.2
    | conic a c w b => exact this.2.2.2
    | cubic a c d b => exact this.2.2.2
  obtain ⟨x0, y0, hst⟩ := hstop
  have hs0 := (r4 g0 hg0).stop
  rw [hst] at hs0
  obtain ⟨b, hb1, _⟩ := toBox_some (hs0.1 x0 rfl) (hs0.2 y0 rfl)
  obtain ⟨c, hc1, _⟩ := toBox_some (r3.1 _ (hs0.1 x0 rfl)) (r3.2 _ (hs0.2 y0 rfl))
  refine ⟨r, n, s', h1, by rw [h3, hinv]; rfl, ?_⟩
  rcases u2 with ⟨b', c', e1, _, rfl⟩ | ⟨u2, _⟩
  · rw [hb1] at e1; cases e1
    obtain ⟨⟨rx, ry⟩, hbu⟩ : ∃ q, u.bounding = q := ⟨_, rfl⟩
    rw [hbu] at hb1 hatt
    cases rx with
    | none => simp [toBox] at hb1
    | some p =>
      cases ry with
      | none => simp [toBox] at hb1
      | some q =>
        obtain ⟨a1, b1⟩ := p
        obtain ⟨c1, d1⟩ := q
        simp only [toBox, Option.some.injEq] at hb1
        subst hb1
        obtain ⟨t1, t2⟩ := hatt.1 a1 b1 rfl
        obtain ⟨t3, t4⟩ := hatt.2 c1 d1 rfl
        refine ⟨?_, t1, t2, t3, t4⟩
        intro x y ⟨g, hg, ht⟩
        obtain ⟨i1, i2⟩ := (r4 g hg).basic (hseg g hg).1 x y ht
        rw [hbu] at i1 i2
        exact has_of (r := ⟨some (a1, b1), some (c1, d1)⟩) rfl i1 i2
  · rw [hb1, hc1] at u2; simp at u2

/-- C46 (partial: exact arithmetic, not for conics): the control box contains the bounding box, every point of every line,
quadratic and cubic curve, and their control points. -/
theorem C46_control_box_partial (h : Reach E kappa s L) (i : Nat) (xs : List Item) (hx : content s i = some xs)
    (hv : Valid false (xs.map (·.cmd))) (g : Seg) (hg : g ∈ segs none xs) (hfin : Fin g.stop) :
    ∃ r n s', getInfo E s i = some (r, n, s') ∧ r = .success ∧
      (∀ x y, g.Through x y → Box.Has n.cbox x y) ∧
      (∀ x y, Box.Has n.bbox x y → Box.Has n.cbox x y) ∧
      (match g with
        | .quad _ c _ => ∀ x y, c = ⟨some x, some y⟩ → Box.Has n.cbox x y
        | .cubic _ c d _ => ∀ x y, c = ⟨some x, some y⟩ ∨ d = ⟨some x, some y⟩ → Box.Has n.cbox x y
        | _ => True) := by
  have hxs : xs ≠ [] := by intro e; subst e; simp [segs] at hg
  obtain ⟨r, n, s', h1, h2, h3, _⟩ := info_eq h i xs hx hxs
  obtain ⟨u, u1, u2⟩ := update_of_valid h2 hv
  obtain ⟨_, _, r3, r4⟩ := update_segs xs.length xs (Nat.le_refl _) false none {} u (fun h => by simp at h) u1
  have hinv : n.flags.invalid = false := (computeInfo_invalid h2).2 hv
  obtain ⟨x0, y0, hst⟩ := hfin
  have hs := r4 g hg
  have hs0 := hs.stop
  rw [hst] at hs0
  obtain ⟨b, hb1, _⟩ := toBox_some (hs0.1 x0 rfl) (hs0.2 y0 rfl)
  obtain ⟨c, hc1, _⟩ := toBox_some (r3.1 _ (hs0.1 x0 rfl)) (r3.2 _ (hs0.2 y0 rfl))
  refine ⟨r, n, s', h1, by rw [h3, hinv]; rfl, ?_⟩
  rcases u2 with ⟨b', c', e1, e2, rfl⟩ | ⟨u2, _⟩
  · rw [hb1] at e1; cases e1
    rw [hc1] at e2; cases e2
    refine ⟨fun x y ht => ?_, ?_, ?_⟩
    · obtain ⟨i1, i2⟩ := hs.all x y ht
      exact has_of hc1 i1 i2
    · intro x y ⟨p1, p2, p3, p4⟩
      have hbx : In u.bounding.x x ∧ In u.bounding.y y := by
        obtain ⟨⟨rx, ry⟩, hbu⟩ : ∃ q, u.bounding = q := ⟨_, rfl⟩
        rw [hbu] at hb1 ⊢
        cases rx with
        | none => simp [toBox] at hb1
        | some p =>
          cases ry with
          | none => simp [toBox] at hb1
          | some q =>
            obtain ⟨a1, b1⟩ := p
            obtain ⟨c1, d1⟩ := q
            simp only [toBox, Option.some.injEq] at hb1
            subst hb1
            exact ⟨⟨_, _, rfl, p1, p2⟩, ⟨_, _, rfl, p3, p4⟩⟩
      exact has_of hc1 (r3.1 _ hbx.1) (r3.2 _ hbx.2)
    · have hc := hs.ctrl
      cases g with
      | quad a p b => intro x y e; subst e; exact has_of hc1 (hc.1 _ rfl) (hc.2 _ rfl)
      | cubic a p q b =>
        intro x y e
        rcases e with e | e
        · subst e; exact has_of hc1 (hc.1.1 _ rfl) (hc.1.2 _ rfl)
        · subst e; exact has_of hc1 (hc.2.1 _ rfl) (hc.2.2 _ rfl)
      | _ => trivial
  · rw [hb1, hc1] at u2; simp at u2

/-! ### Figures and vertices -/

theorem figureEnd_spec (cs : List Nat) : ∀ (n : Nat) (l : List Nat), l = cs.drop n → n ≤ cs.length →
    n ≤ figureEnd n l ∧ figureEnd n l ≤ cs.length ∧
    (figureEnd n l = cs.length ∨ cs[figureEnd n l]? = some cMove ∨ (n < figureEnd n l ∧ cs[figureEnd n l - 1]? = some cClose)) ∧
    (∀ m, n ≤ m → m < figureEnd n l → cs[m]? ≠ some cMove ∧ (m + 1 < figureEnd n l → cs[m]? ≠ some cClose)) := by
  intro n l
  induction l generalizing n with
  | nil =>
    intro hl hn
    have : n = cs.length := by
      have := congrArg List.length hl
      simp at this; omega
    refine ⟨Nat.le_refl _, hn, .inl this, ?_⟩
    intro m h1 h2; simp only [figureEnd] at h2; omega
  | cons c l ih =>
    intro hl hn
    have hlt : n < cs.length := by
      have := congrArg List.length hl
      simp at this; omega
    have hc : cs[n]? = some c := by
      have := congrArg (fun l => l[0]?) hl
      simp only [List.getElem?_cons_zero, List.getElem?_drop, Nat.add_zero] at this
      exact this.symm
    have hl2 : l = cs.drop (n + 1) := by
      have := congrArg List.tail hl
      simp only [List.tail_cons, List.tail_drop] at this
      exact this
    unfold figureEnd
    by_cases h1 : c = cMove
    · rw [if_pos h1]
      refine ⟨Nat.le_refl _, hn, .inr (.inl (by rw [hc, h1])), ?_⟩
      intro m g1 g2; omega
    · rw [if_neg h1]
      by_cases h2 : c = cClose
      · rw [if_pos h2]
        refine ⟨by omega, by omega, .inr (.inr ⟨by omega, by rw [Nat.add_sub_cancel, hc, h2]⟩), ?_⟩
        intro m g1 g2
        have : m = n := by omega
        subst this
        exact ⟨by rw [hc]; simpa using h1, fun g => by omega⟩
      · rw [if_neg h2]
        obtain ⟨r1, r2, r3, r4⟩ := ih (n + 1) hl2 (by omega)
        refine ⟨by omega, r2, r3.imp id (fun g => g.imp id (fun g => ⟨by omega, g.2⟩)), ?_⟩
        intro m g1 g2
        by_cases hm : m = n
        · subst hm
          exact ⟨by rw [hc]; simpa using h1, fun _ => by rw [hc]; simpa using h2⟩
        · exact r4 m (by omega) g2

theorem figureStart_spec (cs : List Nat) : ∀ (n : Nat) (l : List Nat), l = (cs.take n).reverse → n ≤ cs.length →
    figureStart n l ≤ n ∧
    (figureStart n l = 0 ∨ cs[figureStart n l - 1]? = some cClose ∨ (figureStart n l < n ∧ cs[figureStart n l]? = some cMove)) ∧
    (∀ m, figureStart n l < m → m < n → cs[m]? ≠ some cMove) ∧ (∀ m, figureStart n l ≤ m → m < n → cs[m]? ≠ some cClose) := by
  intro n l
  induction l generalizing n with
  | nil =>
    intro hl hn
    have : n = 0 := by
      have := congrArg List.length hl
      rw [List.length_reverse, List.length_take, List.length_nil] at this
      omega
    subst this
    exact ⟨Nat.le_refl _, .inl rfl, by intro m _ h; omega, by intro m _ h; omega⟩
  | cons c l ih =>
    intro hl hn
    have hpos : 0 < n := by
      rcases Nat.eq_zero_or_pos n with h | h
      · subst h; simp at hl
      · exact h
    have hsplit : cs.take n = cs.take (n - 1) ++ [cs[n - 1]'(by omega)] := by
      conv => lhs; rw [show n = n - 1 + 1 by omega]
      rw [List.take_succ_eq_append_getElem (by omega)]
    rw [hsplit, List.reverse_append] at hl
    simp only [List.reverse_cons, List.reverse_nil, List.nil_append, List.cons_append, List.cons.injEq] at hl
    obtain ⟨hc, hl2⟩ := hl
    have hc : cs[n - 1]? = some c := by rw [hc, List.getElem?_eq_getElem (by omega)]
    unfold figureStart
    by_cases h2 : c = cClose
    · rw [if_pos h2]
      exact ⟨Nat.le_refl _, .inr (.inl (by rw [hc, h2])), by intro m g1 g2; omega, by intro m g1 g2; omega⟩
    · rw [if_neg h2]
      by_cases h1 : c = cMove
      · rw [if_pos h1]
        refine ⟨by omega, .inr (.inr ⟨by omega, by rw [hc, h1]⟩), by intro m g1 g2; omega, ?_⟩
        intro m g1 g2
        have : m = n - 1 := by omega
        rw [this, hc]; simpa using h2
      · rw [if_neg h1]
        obtain ⟨r1, r2, r3, r4⟩ := ih (n - 1) hl2 (by omega)
        refine ⟨by omega, r2.imp id (fun g => g.imp id (fun g => ⟨by omega, g.2⟩)), ?_, ?_⟩
        · intro m g1 g2
          by_cases hm : m = n - 1
          · rw [hm, hc]; simpa using h1
          · exact r3 m g1 (by omega)
        · intro m g1 g2
          by_cases hm : m = n - 1
          · rw [hm, hc]; simpa using h2
          · exact r4 m g1 (by omega)

/-- C46 (partial: not for a CLOSE that something else than MOVE follows): the figure range of an index is the figure that
contains it: the maximal part that starts at the begin of the path, at a MOVE or after a CLOSE, and with no further start. -/
theorem C46_figure_range_partial (cs : List Nat) (k : Nat) (hk : k < cs.length)
    (hc : cs[k]? = some cClose → k + 1 = cs.length ∨ cs[k + 1]? = some cMove) :
    ∃ a b, figureRange cs k = (.success, a, b) ∧ IsFigure cs k a b := by
  obtain ⟨e1, e2, e3, e4⟩ := figureEnd_spec cs (k + 1) (cs.drop (k + 1)) rfl (by omega)
  obtain ⟨s1, s2, s3, s4⟩ := figureStart_spec cs k (cs.take k).reverse rfl (by omega)
  simp only [figureRange, if_neg (show ¬ k ≥ cs.length by omega)]
  generalize figureEnd (k + 1) (cs.drop (k + 1)) = stop at *
  refine ⟨_, _, rfl, ?_⟩
  have hends : stop = cs.length ∨ Starts cs stop := by
    rcases e3 with h | h | h
    · exact .inl h
    · exact .inr (.inr (.inl h))
    · exact .inr (.inr (.inr h.2))
  -- starts inside, after the index
  have hafter : ∀ m, k < m → m < stop → ¬ Starts cs m := by
    intro m h1 h2 hs
    rcases hs with hs | hs | hs
    · omega
    · exact (e4 m (by omega) h2).1 hs
    · by_cases hm : m = k + 1
      · subst hm
        rw [Nat.add_sub_cancel] at hs
        rcases hc hs with h | h
        · omega
        · exact (e4 (k + 1) (by omega) h2).1 h
      · exact (e4 (m - 1) (by omega) (by omega)).2 (by omega) hs
  by_cases hm : cs[k]? ≠ some cMove
  · rw [if_pos hm]
    generalize figureStart k (cs.take k).reverse = start at *
    refine ⟨⟨s1, by omega, e2⟩, ?_, hends, ?_⟩
    · rcases s2 with h | h | h
      · exact .inl h
      · exact .inr (.inr h)
      · exact .inr (.inl h.2)
    · intro m h1 h2 hs
      by_cases hmk : k < m
      · exact hafter m hmk h2 hs
      · rcases hs with hs | hs | hs
        · omega
        · by_cases h : m = k
          · subst h; exact hm hs
          · exact s3 m h1 (by omega) hs
        · exact s4 (m - 1) (by omega) (by omega) hs
  · rw [if_neg hm]
    have hm : cs[k]? = some cMove := by simpa using hm
    refine ⟨⟨Nat.le_refl _, by omega, e2⟩, .inr (.inl hm), hends, ?_⟩
    intro m h1 h2
    exact hafter m h1 h2

theorem lastMove_spec (l : List Item) (p : Pt) : lastMove l = some p ↔
    ∃ zs ys, l = zs ++ ⟨cMove, p⟩ :: ys ∧ ∀ z ∈ zs, z.cmd ≠ cMove ∧ z.cmd ≠ cClose := by
  induction l with
  | nil => simp [lastMove]
  | cons c l ih =>
    unfold lastMove
    by_cases h1 : c.cmd = cClose
    · rw [if_pos h1]
      constructor
      · simp
      · rintro ⟨zs, ys, e, h⟩
        cases zs with
        | nil =>
          simp only [List.nil_append, List.cons.injEq] at e
          rw [e.1] at h1; simp [cMove, cClose] at h1
        | cons z zs =>
          simp only [List.cons_append, List.cons.injEq] at e
          exact absurd (e.1 ▸ h1) (h z (by simp)).2
    · rw [if_neg h1]
      by_cases h2 : c.cmd = cMove
      · rw [if_pos h2]
        constructor
        · intro h
          simp only [Option.some.injEq] at h
          refine ⟨[], l, ?_, by simp⟩
          obtain ⟨cm, v⟩ := c
          simp only at h h2
          rw [h, h2]; rfl
        · rintro ⟨zs, ys, e, h⟩
          cases zs with
          | nil =>
            simp only [List.nil_append, List.cons.injEq] at e
            rw [e.1]
          | cons z zs =>
            simp only [List.cons_append, List.cons.injEq] at e
            exact absurd (e.1 ▸ h2) (h z (by simp)).1
      · rw [if_neg h2, ih]
        constructor
        · rintro ⟨zs, ys, rfl, h⟩
          exact ⟨c :: zs, ys, rfl, by
            intro z hz
            rcases List.mem_cons.1 hz with rfl | hz
            · exact ⟨h2, h1⟩
            · exact h z hz⟩
        · rintro ⟨zs, ys, e, h⟩
          cases zs with
          | nil =>
            simp only [List.nil_append, List.cons.injEq] at e
            rw [e.1] at h2; simp at h2
          | cons z zs =>
            simp only [List.cons_append, List.cons.injEq] at e
            exact ⟨zs, ys, e.2, fun z' hz' => h z' (by simp [hz'])⟩

/-- C46: the last vertex is that of the last command; if that is CLOSE, it is the vertex the last figure started at (with MOVE). -/
theorem C46_last_vertex (xs : List Item) (p : Pt) : lastVertex xs = some p ↔
    (∃ ys c, xs = ys ++ [⟨c, p⟩] ∧ c ≠ cClose) ∨
    (∃ ys zs q, xs = ys ++ ⟨cMove, p⟩ :: zs ++ [⟨cClose, q⟩] ∧ ∀ z ∈ zs, z.cmd ≠ cMove ∧ z.cmd ≠ cClose) := by
  unfold lastVertex
  rcases List.eq_nil_or_concat xs with rfl | ⟨ys, c, rfl⟩
  · simp
  · rw [List.concat_eq_append, List.reverse_append]
    simp only [List.reverse_cons, List.reverse_nil, List.nil_append, List.cons_append]
    by_cases h1 : c.cmd ≠ cClose
    · rw [if_pos h1]
      constructor
      · intro h
        simp only [Option.some.injEq] at h
        obtain ⟨cm, v⟩ := c
        simp only at h h1
        subst h
        exact .inl ⟨ys, cm, rfl, h1⟩
      · rintro (⟨zs, cm, e, h⟩ | ⟨a, b, q, e, h⟩)
        · have := (List.append_inj' e rfl).2
          simp only [List.cons.injEq, and_true] at this
          rw [this]
        · rw [List.append_assoc] at e
          have e' : ys ++ [c] = (a ++ ⟨cMove, p⟩ :: b) ++ [⟨cClose, q⟩] := by rw [List.append_assoc]; exact e
          have := (List.append_inj' e' rfl).2
          simp only [List.cons.injEq, and_true] at this
          rw [this] at h1; simp at h1
    · rw [if_neg h1]
      have h1 : c.cmd = cClose := by simpa using h1
      rw [lastMove_spec]
      constructor
      · rintro ⟨zs, as, e, h⟩
        right
        have e2 := congrArg List.reverse e
        rw [List.reverse_reverse, List.reverse_append, List.reverse_cons, List.append_assoc] at e2
        refine ⟨as.reverse, zs.reverse, c.vtx, ?_, fun z hz => h z (List.mem_reverse.1 hz)⟩
        obtain ⟨cm, v⟩ := c
        simp only at h1
        subst h1
        rw [e2]; simp
      · rintro (⟨zs, cm, e, h⟩ | ⟨a, b, q, e, h⟩)
        · have := (List.append_inj' e rfl).2
          simp only [List.cons.injEq, and_true] at this
          rw [this] at h1; exact absurd h1 h
        · have := (List.append_inj' e rfl).1
          exact ⟨b.reverse, a.reverse, by rw [this]; simp, fun z hz => h z (List.mem_reverse.1 hz)⟩

/-! ### Geometries make valid paths -/

theorem valid_append {b : Bool} {cs ds : List Nat} (h : Valid b cs) (hd : Valid false ds) : Valid b (cs ++ ds) := by
  have up : ∀ {ds : List Nat}, Valid false ds → ∀ b, Valid b ds := by
    intro ds h b
    cases h with
    | nil => exact .nil _
    | move _ cs h => exact .move _ _ h
    | close _ cs h => exact .close _ _ h
  induction h with
  | nil b => exact up hd b
  | move b cs _ ih => exact .move _ _ ih
  | line cs _ ih => exact .line _ ih
  | quad c cs _ ih => exact .quad _ _ ih
  | conic c d cs _ ih => exact .conic _ _ _ ih
  | cubic c d cs _ ih => exact .cubic _ _ _ ih
  | close b cs _ ih => exact .close _ _ ih

theorem valid_flat {α : Type} (bs : List α) (f : α → List Item) (h : ∀ b ∈ bs, Valid false ((f b).map (·.cmd))) :
    Valid false ((bs.flatMap f).map (·.cmd)) := by
  induction bs with
  | nil => exact .nil _
  | cons b t ih =>
    rw [List.flatMap_cons, List.map_append]
    exact valid_append (h b (by simp)) (ih (fun b hb => h b (by simp [hb])))

theorem valid_box (x0 y0 x1 y1 : F) (cw : Bool) : Valid false ((boxItems x0 y0 x1 y1 cw).map (·.cmd)) := by
  cases cw <;> exact .move _ _ (.line _ (.line _ (.line _ (.close _ _ (.nil _)))))

theorem valid_poly (ps : List Pt) (ds : List Nat) (hd : ∀ b, Valid b ds) : Valid false ((polyItems ps).map (·.cmd) ++ ds) := by
  cases ps with
  | nil => exact hd _
  | cons p t =>
    simp only [polyItems, List.map_cons, List.map_map, List.cons_append]
    apply Valid.move
    induction t with
    | nil => exact hd _
    | cons q t ih => exact .line _ ih

/-- C46: adding a geometry to a path whose commands make sense gives such a path, whatever the geometry is. -/
theorem C46_geometry_valid (xs : List Item) (kappa : Rat) (cw : Bool) (g : Geo) (h : Valid false (xs.map (·.cmd))) :
    Valid false ((xs ++ outline kappa cw g).map (·.cmd)) := by
  rw [List.map_append]
  apply valid_append h
  cases g with
  | box x0 y0 x1 y1 => exact valid_box ..
  | ellipse cx cy rx ry =>
    exact .move _ _ (.cubic _ _ _ (.cubic _ _ _ (.cubic _ _ _ (.cubic _ _ _ (.close _ _ (.nil _))))))
  | circle cx cy r =>
    exact .move _ _ (.cubic _ _ _ (.cubic _ _ _ (.cubic _ _ _ (.cubic _ _ _ (.close _ _ (.nil _))))))
  | roundRect x y w h rx ry =>
    simp only [outline, Geo.items, Option.getD_some, roundRectItems]
    split
    · exact valid_box ..
    · split
      · exact .move _ _ (.line _ (.cubic _ _ _ (.line _ (.cubic _ _ _ (.line _ (.cubic _ _ _ (.line _ (.cubic _ _ _ (.close _ _ (.nil _))))))))))
      · exact .move _ _ (.cubic _ _ _ (.line _ (.cubic _ _ _ (.line _ (.cubic _ _ _ (.line _ (.cubic _ _ _ (.close _ _ (.nil _)))))))))
  | line p0 p1 => cases cw <;> exact .move _ _ (.line _ (.nil _))
  | triangle p0 p1 p2 => cases cw <;> exact .move _ _ (.line _ (.line _ (.close _ _ (.nil _))))
  | polyline ps =>
    simp only [outline]
    have := valid_poly (if cw then ps else ps.reverse) [] (fun b => .nil b)
    rw [List.append_nil] at this; exact this
  | polygon ps =>
    cases ps with
    | nil => exact .nil _
    | cons p t =>
      simp only [outline, List.map_append]
      exact valid_poly _ _ (fun b => .close _ _ (.nil _))
  | boxes bs => exact valid_flat _ _ (fun b _ => valid_box ..)

/-! ### Examples and counterexamples -/

/-- A point. -/
abbrev pt (x y : Rat) : Pt := ⟨some x, some y⟩

/-- Some functions for extrema. -/
def noExt : Ext := ⟨fun _ _ _ b => (b, b), fun _ _ _ b => (b, b)⟩

/-- Running a program; all allocations succeed. -/
def run (s : St) : List Act → Option St
  | [] => some s
  | a :: as => (step noExt (1 / 2) true s a).bind (fun r => run r.2 as)

theorem run_reach {s s' : St} {L : List (List Item)} (as : List Act) : Reach noExt (1 / 2) s L →
    (∀ a ∈ as, a.Pre L ∧ Right a) → (∀ L', L'.length = L.length → ∀ a ∈ as, a.Pre L → a.Pre L') → run s as = some s' →
    ∃ L', Reach noExt (1 / 2) s' L' ∧ L'.length = L.length := by
  induction as generalizing s L with
  | nil => intro h _ _ hr; simp only [run, Option.some.injEq] at hr; subst hr; exact ⟨L, h, rfl⟩
  | cons a as ih =>
    intro h h1 h2 hr
    simp only [run] at hr
    obtain ⟨⟨r, s1⟩, e1, e2⟩ := Option.bind_eq_some_iff.1 hr
    have hn := Reach.act a true r s1 h (h1 a (by simp)).1 (h1 a (by simp)).2 e1
    have hl : (if r = .outOfMemory then L else after (1 / 2) L a).length = L.length := by
      split
      · rfl
      · cases a <;> simp [after]
    obtain ⟨L', k1, k2⟩ := ih hn (fun b hb => ⟨h2 _ hl b (by simp [hb]) (h1 b (by simp [hb])).1, (h1 b (by simp [hb])).2⟩)
      (fun L' hL' b hb hp => h2 L' (by rw [hL', hl]) b (by simp [hb]) (h1 b (by simp [hb])).1) e2
    exact ⟨L', k1, by rw [k2, hl]⟩

/-- A program: two figures with a quadratic curve, a copy that is changed, and a part that is removed. -/
def prog : List Act :=
  [.call 0 (.simple (.moveTo (pt 0 0))), .call 0 (.simple (.quadTo (pt 1 4) (pt 2 0))), .call 0 (.simple .close), .copy 1 0,
   .call 1 (.simple (.box (some 5) (some 6) (some 7) (some 8) true)), .info 0, .call 1 (.removeRange (some (0, 4))),
   .call 0 (.transform none (fun p => ⟨F.add p.x (some 10), p.y⟩)), .call 2 (.geometry (.polyline [pt 1 1, pt 2 2]) false none)]

/-- The paths after the program. -/
def final : Option (Option (List Item) × Option (List Item) × Option (List Item)) :=
  (run (initial 3) prog).map (fun s => (content s 0, content s 1, content s 2))

example : final = some
    (some [⟨0, pt 10 0⟩, ⟨2, pt 11 4⟩, ⟨1, pt 12 0⟩, ⟨5, nanPt⟩],
     some [⟨0, pt 5 6⟩, ⟨1, pt 7 6⟩, ⟨1, pt 7 8⟩, ⟨1, pt 5 8⟩, ⟨5, nanPt⟩],
     some [⟨0, pt 2 2⟩, ⟨1, pt 1 1⟩]) := by decide +kernel

/-- The program is one of those the theorems are about. -/
example : ∃ s L, run (initial 3) prog = some s ∧ Reach noExt (1 / 2) s L ∧ L.length = 3 := by
  have h : ∃ s, run (initial 3) prog = some s := by
    have : (run (initial 3) prog).isSome = true := by decide +kernel
    exact Option.isSome_iff_exists.1 this
  obtain ⟨s, hs⟩ := h
  obtain ⟨L, h1, h2⟩ := run_reach prog (.init 3) (by
    intro a ha
    simp only [prog, List.mem_cons, List.not_mem_nil, or_false] at ha
    rcases ha with rfl | rfl | rfl | rfl | rfl | rfl | rfl | rfl | rfl <;>
      simp [Act.Pre, Right, SafeGeo, Geo.len]) (by
    intro L' hL' a ha
    simp only [List.length_replicate] at hL'
    simp only [prog, List.mem_cons, List.not_mem_nil, or_false] at ha
    rcases ha with rfl | rfl | rfl | rfl | rfl | rfl | rfl | rfl | rfl <;>
      simp [Act.Pre, hL']) hs
  exact ⟨s, L, hs, h1, by simpa using h2⟩

/-- The boxes of a path with a quadratic curve. -/
example : (computeInfo noExt [⟨0, pt 0 0⟩, ⟨2, pt 1 4⟩, ⟨1, pt 2 0⟩]).map (fun n => (n.bbox, n.cbox)) =
    some (⟨0, 0, 2, 2⟩, ⟨0, 0, 2, 4⟩) := by decide +kernel

example : figureRange [0, 1, 5, 0, 1, 1] 4 = (.success, 3, 6) ∧ figureRange [0, 1, 5, 0, 1, 1] 2 = (.success, 0, 3) := by decide
example : lastVertex [⟨0, pt 1 2⟩, ⟨1, pt 3 4⟩, ⟨5, nanPt⟩] = some (pt 1 2) := by decide +kernel

/-- Counterexample: a polygon that is added counter-clockwise is read from behind its end, and the first point is never read
(`path.cpp:1617-1640`): undefined behaviour. -/
theorem C46_counterexample_polygon_ccw :
    call noExt (1 / 2) true (initial 1) 0 (.geometry (.polygon [pt 0 0, pt 1 0, pt 1 1]) false none) = none := by decide +kernel

/-- Counterexample: an array of boxes that is added counter-clockwise is read far behind its end (`path.cpp:1655-1700`). -/
theorem C46_counterexample_boxes_ccw :
    call noExt (1 / 2) true (initial 1) 0 (.geometry (.boxes [(some 0, some 0, some 1, some 1)]) false none) = none := by decide +kernel

/-- Counterexample: reserving a huge number of items overflows `impl_size_from_capacity`, and the content is copied to a buffer
without room for it (`path.cpp:387-398`). -/
theorem C46_counterexample_reserve :
    ((call noExt (1 / 2) true (initial 1) 0 (.simple (.moveTo (pt 0 0)))).bind
      (fun r => call noExt (1 / 2) true r.2 0 (.reserve 0xF0F0F0F0F0F0F0F1))) = none := by decide +kernel

/-- Counterexample: after `clear`, a path that was not shared still reports its old bounding box, and is not marked as
empty (`path.cpp:350-361`). -/
theorem C46_counterexample_clear :
    (run (initial 1) [.call 0 (.simple (.box (some 1) (some 2) (some 3) (some 4) true)), .info 0, .call 0 .clear]).bind
      (fun s => (getInfo noExt s 0).map (fun r => (r.1, r.2.1.flags.empty, r.2.1.bbox, content s 0))) =
    some (.success, false, ⟨1, 2, 3, 4⟩, some []) := by decide +kernel

/-- Counterexample: the control box of a path with a conic contains its weight instead of its control point
(`path.cpp:638-662`). -/
theorem C46_counterexample_conic_control_box :
    (computeInfo noExt [⟨0, pt 0 0⟩, ⟨3, pt 1 50⟩, ⟨6, ⟨some 100, none⟩⟩, ⟨1, pt 2 0⟩]).map (·.cbox) = some ⟨0, 0, 100, 0⟩ := by
  decide +kernel

/-- Counterexample: the figure of a CLOSE after which no MOVE follows is reported together with the next one. -/
theorem C46_counterexample_figure_range : figureRange [0, 1, 5, 5] 2 = (.success, 0, 4) ∧ Starts [0, 1, 5, 5] 3 := by
  exact ⟨by decide, .inr (.inr rfl)⟩

/-- Counterexample: `fit_to` scans a range as if there were a vertex before it; if the path starts with a curve, it reads the
vertex before the first one (`path.cpp:2139-2152`). -/
theorem C46_counterexample_fit_to : fitScan noExt [⟨2, pt 1 4⟩, ⟨1, pt 2 0⟩] 0 2 = none := by decide +kernel

/-- Counterexample: moving a path also changes the weights of its conics (`path.cpp:2093-2112`). -/
theorem C46_counterexample_translate_conic :
    (run (initial 1) [.call 0 (.simple (.moveTo (pt 0 0))), .call 0 (.simple (.conicTo (pt 1 1) (pt 2 0) (some 1))),
      .call 0 (.transform none (fun p => ⟨F.add p.x (some 10), p.y⟩))]).bind (fun s => content s 0) =
    some [⟨0, pt 10 0⟩, ⟨3, pt 11 1⟩, ⟨6, ⟨some 11, none⟩⟩, ⟨1, pt 12 0⟩] := by decide +kernel

/-- Counterexample: the command after a QUAD is not checked. -/
theorem C46_counterexample_quad_end : Valid false [0, 2, 77] := .move _ _ (.quad _ _ (.nil _))

end Blend2D.Path
