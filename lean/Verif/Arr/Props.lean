import Verif.Arr.Ops4
import Verif.Arr.Step
/-!
# Arrays are lists, and copies are independent (C15, C16)
-/
namespace Blend2D.Arr
open Cow Spec

variable {α : Type}

/-- The relation for arrays whose items are all initialised. -/
abbrev RL (c : Cfg α) (w : Wld α) (L : List (List α)) : Prop := R c w (L.map (List.map some))

theorem lift_get (L : List (List α)) (i : Nat) (hi : i < L.length) :
    (L.map (List.map some))[i]'(by simpa using hi) = (get L i).map some := by
  rw [List.getElem_map, Spec.get, List.getElem?_eq_getElem hi]; rfl

theorem lift_set (L : List (List α)) (i : Nat) (l : List α) :
    (L.map (List.map some)).set i (l.map some) = (L.set i l).map (List.map some) := by
  rw [List.map_set]

theorem lift_val (l : List α) (s : Src α) : s.val (l.map some) = (items l s).map some := by
  cases s with
  | ext x b => rfl
  | own off n => simp [Src.val, items, List.map_take, List.map_drop]

theorem lift_ok (l : List α) (s : Src α) (h : SrcOk l s) : s.Ok (l.map some) := by
  cases s with
  | ext x b => trivial
  | own off n => have : off + n ≤ l.length := h; simpa [Src.Ok] using this

theorem viewL (c : Cfg α) {w : Wld α} {L : List (List α)} (h : RL c w L) (i : Nat) (hi : i < L.length) :
    Nonempty (View c w i ((get L i).map some)) := by
  have := view c h i (by simpa using hi)
  rwa [lift_get L i hi] at this

/-- What a call may do. -/
def Outcome (c : Cfg α) (ok : Bool) (w : Wld α) (L : List (List α)) (op : Op α) (r : Result) (w' : Wld α) : Prop :=
  (r = .success ∧ RL c w' (apply c.zero L op) ∧ ¬ Invalid L op) ∨
  (r = .outOfMemory ∧ w' = w ∧ (ok = false ∨ implMaxSize < 2 * (25 + need L op * c.itemSize))) ∨
  (r = .invalidValue ∧ w' = w ∧ Invalid L op)

theorem mapM_some (x : List α) : (x.map some).mapM id = some x := by
  induction x with
  | nil => rfl
  | cons a t ih => simp [List.mapM_cons, ih]

theorem good_lift (c : Cfg α) (ok : Bool) (w : Wld α) (L : List (List α)) (i : Nat) (op : Op α) (l : List (Option α))
    (hl : l = (result c.zero L op).map some) (ht : op.target = i) (happ : apply c.zero L op = L.set i (result c.zero L op))
    (n : Nat) (hn : n = need L op) (x : Option (Result × Wld α)) (hinv : ¬ Invalid L op)
    (hg : Good c w (L.map (List.map some)) i l ok n x) : ∃ r w', x = some (r, w') ∧ Outcome c ok w L op r w' := by
  obtain ⟨r, w', h1, h2⟩ := hg
  refine ⟨r, w', h1, ?_⟩
  rcases h2 with ⟨e1, e2⟩ | ⟨e1, e2, e3⟩
  · left
    refine ⟨e1, ?_, hinv⟩
    rw [hl, lift_set] at e2
    rw [happ]; exact e2
  · right; left
    rw [← hn]; exact ⟨e1, e2, e3⟩

/-- Every call with valid arguments is memory safe and does what it should, or fails without an effect. -/
theorem step_ok (c : Cfg α) (hp : 0 < c.itemSize) (ok : Bool) (w : Wld α) (L : List (List α)) (hR : RL c w L) (op : Op α)
    (hpre : Pre c.itemSize L op) (hright : Right L op) : ∃ r w', step c ok w op = some (r, w') ∧ Outcome c ok w L op r w' := by
  have hlen : ∀ i, i < L.length → i < (L.map (List.map (some : α → Option α))).length := by intro i hi; simpa using hi
  cases op with
  | reset i =>
    have hi : i < L.length := hpre.1
    obtain ⟨w', h1, h2⟩ := reset_ok c hR (hlen i hi)
    exact ⟨_, w', h1, .inl ⟨rfl, by have := lift_set L i []; simp only [List.map_nil] at this; rw [this] at h2; exact h2, id⟩⟩
  | clear i =>
    have hi : i < L.length := hpre.1
    obtain ⟨w', h1, h2⟩ := clear_ok c hR (hlen i hi)
    exact ⟨_, w', h1, .inl ⟨rfl, by have := lift_set L i []; simp only [List.map_nil] at this; rw [this] at h2; exact h2, id⟩⟩
  | shrink i =>
    have hi : i < L.length := hpre.1
    exact good_lift c ok w L i _ _ (lift_get L i hi) rfl rfl _ (by rw [lift_get L i hi]; simp [need, Op.target]) _ id
      (shrink_ok c hp ok hR (hlen i hi))
  | reserve i n =>
    have hi : i < L.length := hpre.1
    obtain ⟨r, w', h1, h2⟩ := reserve_ok c hp ok hR (hlen i hi) n
    refine ⟨r, w', h1, ?_⟩
    rcases h2 with ⟨e1, e2, _⟩ | ⟨e1, e2, e3⟩
    · refine .inl ⟨e1, ?_, id⟩
      have : apply c.zero L (.reserve i n) = L := by
        show L.set i (get L i) = L
        rw [Spec.get, List.getElem?_eq_getElem hi]; simp
      rw [this]; exact e2
    · refine .inr (.inl ⟨e1, e2, ?_⟩)
      rw [lift_get L i hi, List.length_map] at e3
      exact e3
  | write i idx x =>
    have hi : i < L.length := hpre.1
    have hidx : idx < (get L i).length := hpre.2
    obtain ⟨r, w', h1, h2⟩ := makeMutable_ok c hp ok hR (hlen i hi)
    simp only [step, h1, Option.bind_eq_bind, Option.bind_some]
    rcases h2 with ⟨e1, e2, v, u, e3, e4, e5, e6⟩ | ⟨e1, e2, e3⟩
    · subst e1
      simp only [if_true]
      have hsplit : (L.map (List.map some))[i]'(hlen i hi) =
          ((get L i).take idx).map some ++ ((((get L i).drop idx).take 1).map some ++ ((get L i).drop (idx + 1)).map some) := by
        rw [lift_get L i hi, ← List.map_append, ← List.map_append]
        congr 1
        have : (get L i).drop (idx + 1) = ((get L i).drop idx).drop 1 := by rw [List.drop_drop]
        rw [this, List.take_append_drop, List.take_append_drop]
      obtain ⟨w2, q1, q2⟩ := fillAt_ok c e2 (hlen i hi) ⟨v, e3, e5⟩ _ _ [some x] _ idx hsplit
        (by simp only [List.length_map, List.length_take, List.length_drop, List.length_cons, List.length_nil]; omega)
        (by rw [List.length_map, List.length_take]; omega)
      simp only [q1, Option.bind_some]
      refine ⟨_, _, rfl, .inl ⟨rfl, ?_, id⟩⟩
      have hres : ((get L i).take idx).map some ++ ([some x] ++ ((get L i).drop (idx + 1)).map some) = ((get L i).set idx x).map some := by
        rw [List.set_eq_take_append_cons_drop, if_pos hidx]; simp
      rw [hres, lift_set] at q2
      exact q2
    · subst e1; subst e2
      simp only [reduceCtorEq, if_false]
      rw [lift_get L i hi, List.length_map] at e3
      exact ⟨_, _, rfl, .inr (.inl ⟨rfl, rfl, e3⟩)⟩
  | resize i n f =>
    have hi : i < L.length := hpre.1
    refine good_lift c ok w L i _ _ ?_ rfl rfl _ ?_ _ id (resize_ok c hp ok hR (hlen i hi) n f hpre.2)
    · rw [lift_get L i hi]; simp [result, Op.target, List.map_take]
    · rfl
  | modify i op xs =>
    have hi : i < L.length := hpre.1
    have hk : (if op.assign then xs.length else (get L i).length + xs.length) * c.itemSize ≤ 2 ^ 63 := hpre.2
    obtain ⟨r, start, w', h1, h2⟩ := modifyOp_ok c hp ok hR (hlen i hi) op xs.length
      (by rw [lift_get L i hi, List.length_map]; exact hk)
    simp only [step, h1, Option.bind_eq_bind, Option.bind_some]
    rw [lift_get L i hi, List.length_map] at h2
    rcases h2 with ⟨e1, e2, e3, g, e4, e5⟩ | ⟨e1, e2, e3⟩
    · subst e1; subst e2
      simp only [if_true]
      obtain ⟨p, hpd⟩ : ∃ p, p = (if op.assign then [] else get L i) := ⟨_, rfl⟩
      have hp1 : (if op.assign then [] else (get L i).map some) = p.map some := by rw [hpd]; split <;> simp
      have hp2 : (if op.assign = true then 0 else (get L i).length) = p.length := by rw [hpd]; split <;> simp
      rw [hp1] at e5
      rw [hp2]
      have hi' : i < ((L.map (List.map some)).set i (p.map some ++ g)).length := by rw [List.length_set]; exact hlen i hi
      have hget : ((L.map (List.map some)).set i (p.map some ++ g))[i] = p.map some ++ (g ++ []) := by
        rw [List.getElem_set_self, List.append_nil]
      obtain ⟨w2, q1, q2⟩ := fillAt_ok c e5 hi' e3 (p.map some) g (xs.map some) [] p.length hget (by simp [e4]) (by simp)
      simp only [q1, Option.bind_some]
      refine ⟨_, _, rfl, .inl ⟨rfl, ?_, id⟩⟩
      rw [List.set_set, List.append_nil, ← List.map_append, lift_set] at q2
      have : apply c.zero L (.modify i op xs) = L.set i (p ++ xs) := by
        show L.set i (if op.assign then xs else get L i ++ xs) = _
        rw [hpd]; split <;> simp
      rw [this]; exact q2
    · subst e1; subst e2
      simp only [reduceCtorEq, if_false]
      exact ⟨_, _, rfl, .inr (.inl ⟨rfl, rfl, e3⟩)⟩
  | append i x =>
    have hi : i < L.length := hpre.1
    refine good_lift c ok w L i _ _ ?_ rfl rfl _ ?_ _ id (appendItem_ok c hp ok hR (hlen i hi) x)
    · rw [lift_get L i hi]; simp [result, Op.target]
    · rw [lift_get L i hi]; simp [need, Op.target]
  | appendData i s =>
    have hi : i < L.length := hpre.1
    refine good_lift c ok w L i _ _ ?_ rfl rfl _ ?_ _ id (appendData_ok c hp ok hR (hlen i hi) s (by rw [lift_get L i hi]; exact lift_ok _ _ hpre.2))
    · rw [lift_get L i hi, lift_val]; simp [result, Op.target]
    · rw [lift_get L i hi]; simp [need, Op.target]
  | insert i idx x =>
    have hi : i < L.length := hpre.1
    have hidx : idx ≤ (get L i).length := hpre.2
    obtain ⟨r, w', h1, h2⟩ := insertOp_ok c hp ok hR (hlen i hi) idx 1 (by rw [lift_get L i hi, List.length_map]; exact hidx)
    simp only [step, h1, Option.bind_eq_bind, Option.bind_some]
    rw [lift_get L i hi, List.length_map] at h2
    rcases h2 with ⟨e1, e3, g, e4, e5⟩ | ⟨e1, e2, e3⟩
    · subst e1
      simp only [if_true]
      have hi' : i < ((L.map (List.map some)).set i (((get L i).map some).take idx ++ (g ++ ((get L i).map some).drop idx))).length := by
        rw [List.length_set]; exact hlen i hi
      obtain ⟨w2, q1, q2⟩ := fillAt_ok c e5 hi' e3 (((get L i).map some).take idx) g [some x] (((get L i).map some).drop idx) idx
        (by rw [List.getElem_set_self]) (by simp [e4]) (by simp; omega)
      simp only [q1, Option.bind_some]
      refine ⟨_, _, rfl, .inl ⟨rfl, ?_, id⟩⟩
      have hres : ((get L i).map some).take idx ++ ([some x] ++ ((get L i).map some).drop idx) =
          ((get L i).take idx ++ x :: (get L i).drop idx).map some := by simp [List.map_take, List.map_drop]
      rw [List.set_set, hres, lift_set] at q2
      exact q2
    · subst e1; subst e2
      simp only [reduceCtorEq, if_false]
      exact ⟨_, _, rfl, .inr (.inl ⟨rfl, rfl, e3⟩)⟩
  | insertData i idx s =>
    have hi : i < L.length := hpre.1
    have hidx : idx ≤ (get L i).length := hpre.2.1
    refine good_lift c ok w L i _ _ ?_ rfl rfl _ ?_ _ id (insertData_ok c hp ok hR (hlen i hi) idx (by rw [lift_get L i hi, List.length_map]; exact hidx)
      s (by rw [lift_get L i hi]; exact lift_ok _ _ hpre.2.2))
    · rw [lift_get L i hi, lift_val]; simp [result, Op.target, List.map_take, List.map_drop]
    · rw [lift_get L i hi]; simp [need, Op.target]
  | replace i idx x =>
    have hi : i < L.length := hpre.1
    rcases replaceItem_ok c hp ok hR (hlen i hi) idx x with ⟨h1, h2⟩ | ⟨h1, h2⟩
    · rw [lift_get L i hi, List.length_map] at h1
      exact ⟨_, _, h2, .inr (.inr ⟨rfl, rfl, h1⟩)⟩
    · rw [lift_get L i hi, List.length_map] at h1
      refine good_lift c ok w L i _ _ ?_ rfl rfl _ ?_ _ ?_ h2
      · rw [lift_get L i hi]; simp [result, Op.target]
      · rw [lift_get L i hi]; simp [need, Op.target]
      · intro hinv; have : (get L i).length ≤ idx := hinv; omega
  | replaceData i a b s gap =>
    have hi : i < L.length := hpre.1
    have h2 : SrcOk (get L i) s ∧ ((get L i).length + s.len) * c.itemSize ≤ 2 ^ 63 := hpre.2
    have h3 : (min a (min b (get L i).length) = min b (get L i).length ∨
        (s.len = min b (get L i).length - min a (min b (get L i).length) ∧
          s.Apart (min a (min b (get L i).length)) (min b (get L i).length))) := by
      cases s <;> exact hright
    refine good_lift c ok w L i _ _ ?_ rfl rfl _ ?_ _ id (replaceData_ok c hp ok hR (hlen i hi) a b s gap
      (by rw [lift_get L i hi]; exact lift_ok _ _ h2.1) (by rw [lift_get L i hi, List.length_map]; exact h2.2)
      (min a (min b (get L i).length)) (min b (get L i).length) (by rw [lift_get L i hi, List.length_map]) rfl
      (h3.imp id (fun hh => .inr hh)))
    · rw [lift_get L i hi, lift_val]; simp [result, Op.target, List.map_take, List.map_drop]
    · rw [lift_get L i hi]; simp [need, Op.target]
  | removeIndex i idx =>
    have hi : i < L.length := hpre.1
    have hidx : idx < 2 ^ 64 := hpre.2
    have hb : (get L i).length < 2 ^ 64 := by
      obtain ⟨V⟩ := viewL c hR i hi
      have h1 := V.len
      rw [List.length_map] at h1
      have := V.hb
      have := Nat.le_mul_of_pos_right V.u.cells.length hp
      omega
    refine good_lift c ok w L i _ _ ?_ rfl rfl _ ?_ _ id (removeRange_ok c hp ok hR (hlen i hi) idx ((idx + 1) % 2 ^ 64))
    · rw [lift_get L i hi, List.length_map, ← List.map_take, ← List.map_drop, ← List.map_append]
      congr 1
      show _ = (get L i).eraseIdx idx
      rw [List.eraseIdx_eq_take_drop_succ]
      by_cases hc : idx < (get L i).length
      · have e1 : min ((idx + 1) % 2 ^ 64) (get L i).length = idx + 1 := by omega
        have e2 : min idx (idx + 1) = idx := by omega
        rw [e1, e2]
      · rw [List.take_of_length_le (i := idx) (by omega), List.drop_eq_nil_of_le (i := idx + 1) (by omega), List.append_nil]
        by_cases hw : idx + 1 = 2 ^ 64
        · have e1 : min ((idx + 1) % 2 ^ 64) (get L i).length = 0 := by rw [hw]; simp
          rw [e1]; simp
        · have e1 : min ((idx + 1) % 2 ^ 64) (get L i).length = (get L i).length := by omega
          have e2 : min idx (get L i).length = (get L i).length := by omega
          rw [e1, e2, List.take_append_drop]
    · rw [lift_get L i hi]; simp [need, Op.target]
  | removeRange i a b =>
    have hi : i < L.length := hpre.1
    refine good_lift c ok w L i _ _ ?_ rfl rfl _ ?_ _ id (removeRange_ok c hp ok hR (hlen i hi) a b)
    · rw [lift_get L i hi]; simp [result, Op.target, List.map_take, List.map_drop]
    · rw [lift_get L i hi]; simp [need, Op.target]
  | assignWeak i j =>
    have hi : i < L.length := hpre.1
    have hj : j < L.length := hpre.2
    obtain ⟨w', h1, h2⟩ := rel_assignWeak hR i j (hlen i hi) ((get L j).map some)
      (by rw [List.getElem?_eq_getElem (hlen j hj), lift_get L j hj])
    exact ⟨_, w', by simp only [step, h1]; rfl, .inl ⟨rfl, by rw [lift_set] at h2; exact h2, id⟩⟩
  | assignMove i j =>
    have hi : i < L.length := hpre.1
    have hj : j < L.length := hpre.2
    obtain ⟨w', h1, h2⟩ := rel_assignMove hR i j (hlen i hi) ((get L j).map some)
      (by rw [List.getElem?_eq_getElem (hlen j hj), lift_get L j hj]) (c.static 0) [] ⟨by simp [Cfg.static], rfl, _, rfl⟩
    refine ⟨_, w', by simp only [step, h1]; rfl, .inl ⟨rfl, ?_, id⟩⟩
    have := lift_set L j []
    simp only [List.map_nil] at this
    rw [this, lift_set] at h2
    exact h2
  | assignDeep i j =>
    have hi : i < L.length := hpre.1
    have hj : j < L.length := hpre.2
    have hle : (get L j).length ≤ (get L i).length := hright
    obtain ⟨V⟩ := viewL c hR j hj
    obtain ⟨t, ht⟩ : ∃ t, V.u.cells = (get L j).map some ++ t := ⟨V.t, V.hc⟩
    have hs : V.u.size = (get L j).length := V.hs.trans (by rw [List.length_map])
    simp only [step, assignDeep, V.hv, V.hu, Option.bind_eq_bind, Option.bind_some]
    by_cases hij : i = j
    · subst hij
      rw [if_pos rfl, hs]
      refine good_lift c ok w L i (.assignDeep i i) _ ?_ rfl rfl _ ?_ _ id (assignData_ok c hp ok hR (hlen i hi) (.own 0 (get L i).length)
        (by rw [lift_get L i hi]; simp [Src.Ok]) (by rw [lift_get L i hi]; simp [Src.len]))
      · rw [lift_get L i hi, lift_val]; simp [result, items]
      · rw [lift_get L i hi]; simp [need, Op.target]
    · rw [if_neg hij]
      have r1 := rd_all ((get L j).map some) t
      rw [List.length_map] at r1
      rw [hs, ht, r1]
      simp only [Option.bind_some, mapM_some]
      refine good_lift c ok w L i (.assignDeep i j) _ ?_ rfl rfl _ ?_ _ id (assignData_ok c hp ok hR (hlen i hi) (.ext (get L j) true)
        trivial (by rw [lift_get L i hi, List.length_map]; exact hle))
      · simp [result, Src.val]
      · rw [lift_get L i hi]; simp [need, Op.target]
  | assignData i s =>
    have hi : i < L.length := hpre.1
    have hle : s.len ≤ (get L i).length := hright
    refine good_lift c ok w L i _ _ ?_ rfl rfl _ ?_ _ id (assignData_ok c hp ok hR (hlen i hi) s (by rw [lift_get L i hi]; exact lift_ok _ _ hpre.2)
      (by rw [lift_get L i hi, List.length_map]; exact hle))
    · rw [lift_get L i hi, lift_val]; simp [result, Op.target]
    · rw [lift_get L i hi]; simp [need, Op.target]
  | assignExternal i buf size wr =>
    have hi : i < L.length := hpre.1
    have hb : buf.length * c.itemSize ≤ 2 ^ 63 := hpre.2
    rcases assignExternal_ok c ok hR (hlen i hi) (buf.map some) size wr (by rw [List.length_map]; exact hb) with ⟨h1, h2⟩ | ⟨h1, r, w', h2, h3⟩
    · rw [List.length_map] at h1
      exact ⟨_, _, h2, .inr (.inr ⟨rfl, rfl, h1⟩)⟩
    · rw [List.length_map] at h1
      refine ⟨r, w', h2, ?_⟩
      rcases h3 with ⟨e1, e2⟩ | ⟨e1, e2, e3⟩
      · rw [← List.map_take, lift_set] at e2
        exact .inl ⟨e1, e2, h1⟩
      · exact .inr (.inl ⟨e1, e2, .inl e3⟩)

theorem reach_rel (c : Cfg α) (hp : 0 < c.itemSize) {w : Wld α} {L : List (List α)} (h : Reach c w L) : RL c w L := by
  induction h with
  | init n =>
    refine ⟨by simp [initial], ?_, ?_, ?_⟩
    · intro i v x h1 h2
      simp only [initial, List.getElem?_replicate] at h1
      simp only [List.map_replicate, List.map_nil, List.getElem?_replicate] at h2
      split at h1
      · simp only [Option.some.injEq] at h1
        rw [if_pos ‹_›] at h2
        simp only [Option.some.injEq] at h2
        subst h1; subst h2
        exact ⟨by simp [Cfg.static], rfl, _, rfl⟩
      · simp at h1
    · intro a hr
      exfalso
      have : refs ((initial c n).vars ++ []) a = 0 := by
        rw [List.append_nil]
        exact List.countP_eq_zero.2 (by intro x hx; rw [List.eq_of_mem_replicate hx]; simp)
      omega
    · intro a b hb
      exact absurd (block_some_lt _ _ _ hb).1 (by simp [initial])
  | call op ok r w' h0 hpre hright hst ih =>
    obtain ⟨r2, w2, h1, h2⟩ := step_ok c hp ok _ _ ih op hpre hright
    rw [hst] at h1
    simp only [Option.some.injEq, Prod.mk.injEq] at h1
    obtain ⟨rfl, rfl⟩ := h1
    rcases h2 with ⟨e1, e2, _⟩ | ⟨e1, e2, _⟩ | ⟨e1, e2, _⟩
    · rw [if_pos e1]; exact e2
    · rw [if_neg (by rw [e1]; decide), e2]; exact ih
    · rw [if_neg (by rw [e1]; decide), e2]; exact ih

theorem rel_content (c : Cfg α) {w : Wld α} {L : List (List α)} (h : RL c w L) (i : Nat) : content w i = L[i]? := by
  by_cases hi : i < L.length
  · have hi' : i < (L.map (List.map (some : α → Option α))).length := by simpa using hi
    obtain ⟨V⟩ := viewL c h i hi
    obtain ⟨t, ht⟩ : ∃ t, V.u.cells = (get L i).map some ++ t := ⟨V.t, V.hc⟩
    have hs : V.u.size = (get L i).length := V.hs.trans (by rw [List.length_map])
    have r1 := rd_all ((get L i).map some) t
    rw [List.length_map] at r1
    simp only [content, V.hv, V.hu, ht, hs, r1, Option.bind_eq_bind, Option.bind_some, mapM_some]
    rw [Spec.get, List.getElem?_eq_getElem hi]; rfl
  · have : w.vars[i]? = none := List.getElem?_eq_none (by rw [h.len]; simpa using hi)
    simp only [content, this]
    rw [List.getElem?_eq_none (by omega)]; rfl

/-! ## C15: an array behaves like a list -/

/-- C15 (partial): whatever a program did before, every array reads as the list it should be. `Reach` excludes calls of
`assign_data` and `assign_deep` that make an array longer and calls of `replace_data` that change its length or whose
items overlap the replaced range, for which this is false: see `C15_assign_data_overflows` and
`C15_replace_data_wrong`. -/
theorem C15_arrays_are_lists_partial (c : Cfg α) (hp : 0 < c.itemSize) (w : Wld α) (L : List (List α)) (h : Reach c w L)
    (i : Nat) : content w i = L[i]? := rel_content c (reach_rel c hp h) i

/-- C15 (partial, as above): no call leaves the buffers, uses an impl that was freed, reads an uninitialised item or
copies between overlapping ranges; it fails only for the reason it reports, and then nothing changes. -/
theorem C15_calls_are_safe_partial (c : Cfg α) (hp : 0 < c.itemSize) (w : Wld α) (L : List (List α)) (h : Reach c w L) (op : Op α)
    (hpre : Pre c.itemSize L op) (hright : Right L op) (ok : Bool) :
    ∃ r w', step c ok w op = some (r, w') ∧
      (r = .outOfMemory → w' = w ∧ (ok = false ∨ implMaxSize < 2 * (25 + need L op * c.itemSize))) ∧
      (r = .invalidValue ↔ Invalid L op ∧ r ≠ .outOfMemory) ∧ (r = .invalidValue → w' = w) := by
  obtain ⟨r, w', h1, h2⟩ := step_ok c hp ok w L (reach_rel c hp h) op hpre hright
  refine ⟨r, w', h1, ?_⟩
  rcases h2 with ⟨e1, e2, e3⟩ | ⟨e1, e2, e3⟩ | ⟨e1, e2, e3⟩ <;> subst e1
  · exact ⟨by simp, by simp [e3], by simp⟩
  · exact ⟨fun _ => ⟨e2, e3⟩, by simp, by simp⟩
  · exact ⟨by simp, by simp [e3], fun _ => e2⟩

/-- C15: comparing arrays compares their content. -/
theorem C15_equals [DecidableEq α] (c : Cfg α) (hp : 0 < c.itemSize) (w : Wld α) (L : List (List α)) (h : Reach c w L)
    (i j : Nat) (x y : List α) (hi : L[i]? = some x) (hj : L[j]? = some y) : equals w i j = some (decide (x = y)) := by
  have hil := (List.getElem?_eq_some_iff.1 hi).1
  have hjl := (List.getElem?_eq_some_iff.1 hj).1
  exact equals_ok c (reach_rel c hp h) (by simpa using hil) x y (by simpa using hjl)
    (by rw [lift_get L i hil, Spec.get, hi]; rfl) (by rw [lift_get L j hjl, Spec.get, hj]; rfl)

/-- C15: after `reserve(n)` returned success the array is mutable and has room for `n` items. -/
theorem C15_reserve (c : Cfg α) (hp : 0 < c.itemSize) (w : Wld α) (L : List (List α)) (h : Reach c w L) (ok : Bool) (i n : Nat)
    (hi : i < L.length) (w' : Wld α) (hs : reserve c ok w i n = some (.success, w')) : Room w' i n := by
  obtain ⟨r, w2, h1, h2⟩ := reserve_ok c hp ok (reach_rel c hp h) (i := i) (by simpa using hi) n
  rw [hs] at h1
  simp only [Option.some.injEq, Prod.mk.injEq] at h1
  obtain ⟨rfl, rfl⟩ := h1
  rcases h2 with ⟨_, _, e⟩ | ⟨e, _⟩
  · exact e
  · exact absurd e (by decide)

/-! ## C16: copies are independent and nothing leaks -/

/-- C16 (partial, as C15): a call on one array never changes what another one contains, however their storage was shared (except for the
array a move takes its content from). -/
theorem C16_independent_partial (c : Cfg α) (hp : 0 < c.itemSize) (w : Wld α) (L : List (List α)) (h : Reach c w L) (op : Op α)
    (hpre : Pre c.itemSize L op) (hright : Right L op) (ok : Bool) (r : Result) (w' : Wld α)
    (hst : step c ok w op = some (r, w')) (j : Nat) (hj : j ≠ op.target) (hj2 : some j ≠ op.other) :
    content w' j = content w j := by
  have hr := Reach.call op ok r w' h hpre hright hst
  rw [rel_content c (reach_rel c hp hr) j, rel_content c (reach_rel c hp h) j]
  split
  · have key : ∀ x : List α, (L.set op.target x)[j]? = L[j]? := by
      intro x; rw [List.getElem?_set_ne (fun hc => hj hc.symm)]
    cases op with
    | assignMove i k =>
      have hk : j ≠ k := fun hc => hj2 (by rw [hc]; rfl)
      show ((L.set k []).set i (get L k))[j]? = L[j]?
      have hj' : i ≠ j := fun hc => hj hc.symm
      rw [List.getElem?_set_ne hj', List.getElem?_set_ne (fun hc => hk hc.symm)]
    | _ => exact key _
  · rfl

/-- C16 (partial, as C15): the counter of every impl that was not freed is exact and positive: it is freed exactly when the last array
that uses it goes away (nothing leaks), and an impl an array uses was not freed. -/
theorem C16_no_leak_no_dangling_partial (c : Cfg α) (hp : 0 < c.itemSize) (w : Wld α) (L : List (List α)) (h : Reach c w L) (a : Nat) :
    ((∃ i : Nat, w.vars[i]? = some (Core.dyn a)) ↔ ∃ b, w.block? a = some b) ∧
    (∀ b, w.block? a = some b → b.rc + 1 = b.base + refs w.vars a) := by
  have hr := reach_rel c hp h
  refine ⟨⟨?_, ?_⟩, ?_⟩
  · rintro ⟨i, hi⟩
    exact hr.live a (by rw [List.append_nil]; exact refs_mem w.vars i a hi)
  · rintro ⟨b, hb⟩
    have := (hr.cnt a b hb).2.1
    rw [List.append_nil] at this
    obtain ⟨x, hx1, hx2⟩ := List.countP_pos_iff.1 this
    obtain ⟨i, hi⟩ := List.mem_iff_getElem?.1 hx1
    cases x with
    | sso s => simp at hx2
    | dyn b' =>
      simp only [is_dyn, beq_iff_eq] at hx2
      exact ⟨i, by rw [hi, hx2]⟩
  · intro b hb
    have := (hr.cnt a b hb).2.2
    rwa [List.append_nil] at this

/-! ## Concrete programs -/

/-- 32-bit items. -/
def cfg32 : Cfg Nat := ⟨4, 0⟩
def cfg64 : Cfg Nat := ⟨8, 0⟩

/-- Running a program. -/
def run (c : Cfg α) : Wld α → List (Op α) → Option (Wld α)
  | w, [] => some w
  | w, op :: ops => do
    let (_, w) ← step c true w op
    run c w ops

/-- Three arrays, of which two share an impl, are changed, self-insertion included. -/
example : (run cfg32 (initial cfg32 3) [.append 0 1, .append 0 2, .append 0 3, .append 0 4, .assignWeak 1 0, .append 1 5,
    .insertData 0 1 (.own 0 4), .assignMove 2 1, .removeRange 2 1 3, .resize 0 3 none]).map
      (fun w => [content w 0, content w 1, content w 2]) =
    some [some [1, 1, 2], some [], some [1, 4, 5]] := by decide +kernel

/-- The state after this program is one the theorems speak about. -/
example : ∃ w, Reach cfg32 w [[7], [7]] := by
  have h1 := Reach.init (c := cfg32) 2
  have h2 := Reach.call (.append 0 7) true .success ⟨[.sso ⟨1, [some 7, some 0, some 0]⟩, .sso (cfg32.static 0)], []⟩ h1 ⟨by decide, trivial⟩ trivial
    (by decide +kernel)
  have h3 := Reach.call (.assignWeak 1 0) true .success _ h2 ⟨by decide, by decide⟩ trivial rfl
  exact ⟨_, h3⟩

/-- Counterexample: `assign_data` allocates room for the items the array had, not for those it gets: a default
constructed array of 64-bit items overflows when two items are assigned. -/
theorem C15_assign_data_overflows :
    Pre cfg64.itemSize [[]] (.assignData 0 (.ext [1, 2] true)) ∧
    step cfg64 true (initial cfg64 1) (.assignData 0 (.ext [1, 2] true)) = none := by
  refine ⟨⟨by decide, trivial⟩, by decide +kernel⟩

/-- Counterexample: `replace_data` in place does not move the items behind the range: replacing two of `[1, 2, 3, 4]` by
one yields `[1, 9, 3]` where it should yield `[1, 9, 4]`, replacing one by two leaves the last item uninitialised. -/
theorem C15_replace_data_wrong :
    Pre cfg64.itemSize [[1, 2, 3, 4]] (.replaceData 0 1 3 (.ext [9] true) 0) ∧
    apply 0 [[1, 2, 3, 4]] (.replaceData 0 1 3 (.ext [9] true) 0) = [[1, 9, 4]] ∧
    (run cfg64 (initial cfg64 1) [.append 0 1, .append 0 2, .append 0 3, .append 0 4, .replaceData 0 1 3 (.ext [9] true) 0]).bind
      (fun w => content w 0) = some [1, 9, 3] ∧
    (run cfg64 (initial cfg64 1) [.append 0 1, .append 0 2, .append 0 3, .append 0 4, .replaceData 0 0 1 (.ext [9, 8] true) 0]).isSome ∧
    (run cfg64 (initial cfg64 1) [.append 0 1, .append 0 2, .append 0 3, .append 0 4, .replaceData 0 0 1 (.ext [9, 8] true) 0]).bind
      (fun w => content w 0) = none := by
  refine ⟨⟨by decide, trivial, by decide⟩, ?_⟩
  decide +kernel

/-- Counterexample: the overlap test of `replace_data` lets overlapping items pass, which are then copied by `memcpy`. -/
theorem C15_replace_data_overlap :
    run cfg64 (initial cfg64 1) [.append 0 1, .append 0 2, .append 0 3, .append 0 4, .replaceData 0 2 4 (.own 1 2) 0] = none := by
  decide +kernel

/-- Counterexample: `resize` to 2^61 items of 8 bytes wraps the impl's size: it returns success for an impl without
room for a single item (in the model, filling it is then undefined). -/
theorem C15_resize_overflow :
    (modifyOp cfg64 true (initial cfg64 1) 0 { assign := false, grow := false } (2 ^ 61)).map (fun x => (x.1, x.2.2.heap.map (fun b => (b.val.d.size, b.val.d.cells.length)))) =
      some (.success, [(2 ^ 61, 0)]) := by decide +kernel

end Blend2D.Arr
