import Verif.Str.Ops4
/-!
# Strings are lists of bytes (C18)
-/
namespace Blend2D.Str
open Cow Spec
open Blend2D.Arr (Result Src ModifyOp rd wr move copy masked uaddSat expand implMaxSize implMaxSize_eq le_expand expand_le)

/-- The relation for strings whose characters are all initialised. -/
abbrev RL (w : Wld) (L : List (List UInt8)) : Prop := R w (L.map (List.map some))

theorem lift_get (L : List (List UInt8)) (i : Nat) (hi : i < L.length) :
    (L.map (List.map some))[i]'(by simpa using hi) = (get L i).map some := by
  rw [List.getElem_map, Spec.get, List.getElem?_eq_getElem hi]; rfl

theorem lift_len (L : List (List UInt8)) (i : Nat) (hi : i < L.length) :
    List.length ((L.map (List.map (some : UInt8 → Option UInt8)))[i]'(by simpa using hi)) = (get L i).length := by
  rw [lift_get L i hi, List.length_map]

theorem lift_set (L : List (List UInt8)) (i : Nat) (l : List UInt8) :
    (L.map (List.map some)).set i (l.map some) = (L.set i l).map (List.map some) := by
  rw [List.map_set]

theorem lift_val (l : List UInt8) (s : Src UInt8) : s.val (l.map some) = (chars l s).map some := by
  cases s with
  | ext x b => rfl
  | own off n => simp [Src.val, chars, List.map_take, List.map_drop]

theorem lift_ok (l : List UInt8) (s : Src UInt8) (h : SrcOk l s) : s.Ok (l.map some) := by
  cases s with
  | ext x b => trivial
  | own off n => have : off + n ≤ l.length := h; simpa [Src.Ok] using this

theorem viewL {w : Wld} {L : List (List UInt8)} (h : RL w L) (i : Nat) (hi : i < L.length) :
    Nonempty (View w i ((get L i).map some)) := by
  have := view h i (by simpa using hi)
  rwa [lift_get L i hi] at this

/-- What a call may do. -/
def Outcome (ok : Bool) (w : Wld) (L : List (List UInt8)) (op : Op) (r : Result) (w' : Wld) : Prop :=
  (r = .success ∧ RL w' (apply L op) ∧ ¬ Invalid op) ∨
  (r = .outOfMemory ∧ RL w' (failed L op) ∧ ((∀ i s, op ≠ .create i s) → w' = w) ∧ (ok = false ∨ implMaxSize < 2 * (18 + need L op))) ∨
  (r = .invalidValue ∧ w' = w ∧ Invalid op)

theorem failed_eq (L : List (List UInt8)) (op : Op) (h : ∀ i s, op ≠ .create i s) : failed L op = L := by
  cases op <;> first | rfl | exact absurd rfl (h _ _)

theorem oom {ok : Bool} {w : Wld} {L : List (List UInt8)} {op : Op} (hR : RL w L) (h : ∀ i s, op ≠ .create i s)
    (hb : ok = false ∨ implMaxSize < 2 * (18 + need L op)) : Outcome ok w L op .outOfMemory w :=
  .inr (.inl ⟨rfl, by rw [failed_eq L op h]; exact hR, fun _ => rfl, hb⟩)

theorem good_lift (ok : Bool) (w : Wld) (L : List (List UInt8)) (hR : RL w L) (i : Nat) (op : Op) (l : Cells)
    (hl : l = (result L op).map some) (happ : apply L op = L.set i (result L op)) (hc : ∀ i s, op ≠ .create i s)
    (n : Nat) (hn : n = need L op) (x : Option (Result × Wld)) (hinv : ¬ Invalid op)
    (hg : Good w (L.map (List.map some)) i l ok n x) : ∃ r w', x = some (r, w') ∧ Outcome ok w L op r w' := by
  obtain ⟨r, w', h1, h2⟩ := hg
  refine ⟨r, w', h1, ?_⟩
  rcases h2 with ⟨e1, e2⟩ | ⟨e1, e2, e3⟩
  · left
    refine ⟨e1, ?_, hinv⟩
    rw [hl, lift_set] at e2
    rw [happ]; exact e2
  · subst e1; subst e2
    rw [hn] at e3
    exact oom hR hc e3

/-- Storing to a string that is mutable. -/
theorem fill_lift {w : Wld} {L : List (List UInt8)} {i : Nat} (l y : Cells) (xs p s : List UInt8) (g : Cells) (hi : i < L.length)
    (h : R w ((L.map (List.map some)).set i l)) (hm : Mut w i) (hl : l = p.map some ++ (g ++ s.map some)) (hg : g.length = xs.length)
    (hy : y = (p ++ (xs ++ s)).map some) : ∃ w', fillAt w i p.length xs = some w' ∧ RL w' (L.set i (p ++ (xs ++ s))) := by
  have hi' : i < ((L.map (List.map some)).set i l).length := by simpa using hi
  have hget : ((L.map (List.map some)).set i l)[i] = l := List.getElem_set_self hi'
  have hll : l.length = p.length + (xs.length + s.length) := by rw [hl]; simp [hg]
  obtain ⟨w2, y1, y2⟩ := fillAt_ok h hi' hm p.length xs (by rw [hget]; omega) y (by rw [hget, hy, hll]; simp) (by
    intro k hk
    rw [hget, hy, hl, List.map_append, List.map_append, List.getElem?_append, List.getElem?_append, List.getElem?_append, List.getElem?_append]
    simp only [List.length_map, hg]
    by_cases h1 : k < p.length
    · rw [if_pos h1, if_neg (by omega), if_pos h1]
    · rw [if_neg h1]
      by_cases h2 : k - p.length < xs.length
      · rw [if_pos h2, if_pos (by omega)]
      · rw [if_neg h2, if_neg (by omega), if_neg h1, if_neg h2])
  rw [List.set_set, hy, lift_set] at y2
  exact ⟨w2, y1, y2⟩

/-- `modify_op()` and the stores of its client. -/
theorem modify_fill (ok : Bool) {w : Wld} {L : List (List UInt8)} (hR : RL w L) {i : Nat} (hi : i < L.length) (op : ModifyOp) (xs : List UInt8) :
    (∃ start w1 w2, modifyOp ok w i op xs.length = some (.success, start, w1) ∧ fillAt w1 i start xs = some w2 ∧ RL w2 (L.set i (put op (get L i) xs))) ∨
    (∃ start, modifyOp ok w i op xs.length = some (.outOfMemory, start, w) ∧ (ok = false ∨ implMaxSize < 2 * (18 + sizeAfter L i op xs.length))) := by
  have hi' : i < (L.map (List.map (some : UInt8 → Option UInt8))).length := by simpa using hi
  obtain ⟨r, start, w', h1, h2⟩ := modifyOp_ok ok hR hi' op xs.length
  rw [lift_get L i hi] at h2
  rcases h2 with ⟨e1, e2, e3, g, e4, e5⟩ | ⟨e1, e2, e3⟩
  · subst e1; subst e2
    left
    obtain ⟨p, hpd⟩ : ∃ p, p = (if op.assign then [] else get L i) := ⟨_, rfl⟩
    have hp1 : (if op.assign = true then [] else (get L i).map some) = p.map some := by rw [hpd]; split <;> simp
    have hp2 : (if op.assign = true then 0 else ((get L i).map (some : UInt8 → Option UInt8)).length) = p.length := by rw [hpd]; split <;> simp
    have hput : put op (get L i) xs = p ++ (xs ++ []) := by rw [hpd, put]; split <;> simp
    rw [hp1] at e5
    obtain ⟨w2, q1, q2⟩ := fill_lift (p.map some ++ g) _ xs p [] g hi e5 e3 (by simp) e4 rfl
    rw [hp2] at h1
    exact ⟨_, _, _, h1, q1, by rw [hput]; exact q2⟩
  · subst e1; subst e2
    rw [List.length_map] at e3
    exact .inr ⟨_, h1, e3⟩

/-- `insert_op()` and the stores of its client. -/
theorem insert_fill (ok : Bool) {w : Wld} {L : List (List UInt8)} (hR : RL w L) {i : Nat} (hi : i < L.length) (idx : Nat) (hidx : idx ≤ (get L i).length)
    (xs : List UInt8) :
    (∃ w1 w2, insertOp ok w i idx xs.length = some (.success, w1) ∧ fillAt w1 i idx xs = some w2 ∧ RL w2 (L.set i (ins (get L i) idx xs))) ∨
    (insertOp ok w i idx xs.length = some (.outOfMemory, w) ∧ (ok = false ∨ implMaxSize < 2 * (18 + ((get L i).length + xs.length)))) := by
  have hi' : i < (L.map (List.map (some : UInt8 → Option UInt8))).length := by simpa using hi
  obtain ⟨r, w', h1, h2⟩ := insertOp_ok ok hR hi' idx xs.length (by rw [lift_len L i hi]; exact hidx)
  rw [lift_get L i hi] at h2
  rcases h2 with ⟨e1, e3, g, e4, e5⟩ | ⟨e1, e2, e3⟩
  · subst e1
    left
    have hpl : ((get L i).take idx).length = idx := by rw [List.length_take]; omega
    obtain ⟨w2, q1, q2⟩ := fill_lift _ _ xs ((get L i).take idx) ((get L i).drop idx) g hi e5 e3 (by rw [List.map_take, List.map_drop]) e4 rfl
    rw [hpl] at q1
    exact ⟨_, _, h1, q1, by rw [ins, List.append_assoc]; exact q2⟩
  · subst e1; subst e2
    rw [List.length_map] at e3
    exact .inr ⟨h1, e3⟩

theorem put_lift (op : ModifyOp) (l xs : List UInt8) :
    (if op.assign = true then [] else l.map some) ++ xs.map some = (put op l xs).map some := by
  unfold put; split <;> simp

theorem size_lift (op : ModifyOp) (l : List UInt8) (n : Nat) :
    (if op.assign = true then 0 else (l.map (some : UInt8 → Option UInt8)).length) + n = (if op.assign = true then 0 else l.length) + n := by
  rw [List.length_map]

/-- Every call with valid arguments that is right is memory safe and does what it should, or fails without an effect. -/
theorem step_ok (ok : Bool) (w : Wld) (L : List (List UInt8)) (hR : RL w L) (op : Op)
    (hpre : Pre L op) (hright : Right ok w L op) : ∃ r w', step ok w op = some (r, w') ∧ Outcome ok w L op r w' := by
  have hlen : ∀ i, i < L.length → i < (L.map (List.map (some : UInt8 → Option UInt8))).length := by intro i hi; simpa using hi
  cases op with
  | reset i =>
    have hi : i < L.length := hpre.1
    obtain ⟨w', h1, h2⟩ := reset_ok hR (hlen i hi)
    exact ⟨_, w', h1, .inl ⟨rfl, by have := lift_set L i []; simp only [List.map_nil] at this; rw [this] at h2; exact h2, id⟩⟩
  | create i s =>
    have hi : i < L.length := hpre.1
    obtain ⟨r, w', h1, h2⟩ := create_ok ok hR (hlen i hi) s hpre.2
    refine ⟨r, w', h1, ?_⟩
    rcases h2 with ⟨e1, e2⟩ | ⟨e1, e2, e3⟩
    · rw [lift_set] at e2; exact .inl ⟨e1, e2, id⟩
    · have := lift_set L i []
      simp only [List.map_nil] at this
      rw [this] at e2
      exact .inr (.inl ⟨e1, e2, fun hc => absurd rfl (hc i s), e3⟩)
  | clear i =>
    have hi : i < L.length := hpre.1
    obtain ⟨w', h1, h2⟩ := clear_ok hR (hlen i hi)
    exact ⟨_, w', h1, .inl ⟨rfl, by have := lift_set L i []; simp only [List.map_nil] at this; rw [this] at h2; exact h2, id⟩⟩
  | shrink i =>
    have hi : i < L.length := hpre.1
    exact good_lift ok w L hR i _ _ (lift_get L i hi) rfl (by simp) _ (lift_len L i hi) _ id (shrink_ok ok hR (hlen i hi))
  | reserve i n =>
    have hi : i < L.length := hpre.1
    obtain ⟨r, w', h1, h2⟩ := reserve_ok ok hR (hlen i hi) n hright
    refine ⟨r, w', h1, ?_⟩
    rcases h2 with ⟨e1, e2, _⟩ | ⟨e1, e2, e3⟩
    · refine .inl ⟨e1, ?_, id⟩
      have : apply L (.reserve i n) = L := by
        show L.set i (get L i) = L
        rw [Spec.get, List.getElem?_eq_getElem hi]; simp
      rw [this]; exact e2
    · subst e1; subst e2
      rw [lift_len L i hi] at e3
      exact oom hR (by simp) e3
  | write i idx x =>
    have hi : i < L.length := hpre.1
    have hidx : idx < (get L i).length := hpre.2
    obtain ⟨r, w', h1, h2⟩ := makeMutable_ok ok hR (hlen i hi)
    simp only [step, h1, Option.bind_eq_bind, Option.bind_some]
    rcases h2 with ⟨e1, e2, e3⟩ | ⟨e1, e2, e3⟩
    · subst e1
      simp only [if_true]
      have hsplit : (get L i) = (get L i).take idx ++ (((get L i).drop idx).take 1 ++ (get L i).drop (idx + 1)) := by
        have : (get L i).drop (idx + 1) = ((get L i).drop idx).drop 1 := by rw [List.drop_drop]
        rw [this, List.take_append_drop, List.take_append_drop]
      have hpl : ((get L i).take idx).length = idx := by rw [List.length_take]; omega
      have e2' : R w' ((L.map (List.map some)).set i ((get L i).map some)) := by
        rw [← lift_get L i hi, set_same]; exact e2
      obtain ⟨w2, q1, q2⟩ := fill_lift ((get L i).map some) _ [x] ((get L i).take idx) ((get L i).drop (idx + 1)) ((((get L i).drop idx).take 1).map some)
        hi e2' e3 (by rw [← List.map_append, ← List.map_append, ← hsplit]) (by simp; omega) rfl
      rw [hpl] at q1
      simp only [q1, Option.bind_some]
      refine ⟨_, _, rfl, .inl ⟨rfl, ?_, id⟩⟩
      have hres : (get L i).take idx ++ ([x] ++ (get L i).drop (idx + 1)) = (get L i).set idx x := by
        rw [List.set_eq_take_append_cons_drop, if_pos hidx]; simp
      rw [hres] at q2
      exact q2
    · subst e1; subst e2
      simp only [reduceCtorEq, if_false]
      rw [lift_len L i hi] at e3
      exact ⟨_, _, rfl, oom hR (by simp) e3⟩
  | resize i n f =>
    have hi : i < L.length := hpre.1
    refine good_lift ok w L hR i _ _ ?_ rfl (by simp) _ rfl _ id (resize_ok ok hR (hlen i hi) n f)
    rw [lift_get L i hi]; simp [result, Op.target, List.map_take]
  | modify i op xs =>
    have hi : i < L.length := hpre.1
    simp only [step, Option.bind_eq_bind]
    rcases modify_fill ok hR hi op xs with ⟨s, w1, w2, h1, h2, h3⟩ | ⟨s, h1, h2⟩
    · simp only [h1, Option.bind_some, if_true, h2]
      exact ⟨_, _, rfl, .inl ⟨rfl, h3, id⟩⟩
    · simp only [h1, Option.bind_some, reduceCtorEq, if_false]
      exact ⟨_, _, rfl, oom hR (by simp) h2⟩
  | applyChar i op c n =>
    have hi : i < L.length := hpre.1
    simp only [step, applyChar, Option.bind_eq_bind]
    have := modify_fill ok hR hi op (List.replicate n c)
    rw [List.length_replicate] at this
    rcases this with ⟨s, w1, w2, h1, h2, h3⟩ | ⟨s, h1, h2⟩
    · simp only [h1, Option.bind_some, ne_eq, not_true_eq_false, if_false, h2]
      exact ⟨_, _, rfl, .inl ⟨rfl, h3, id⟩⟩
    · simp only [h1, Option.bind_some, ne_eq, reduceCtorEq, not_false_eq_true, if_true]
      exact ⟨_, _, rfl, oom hR (by simp) h2⟩
  | insertOp i idx xs =>
    have hi : i < L.length := hpre.1
    simp only [step, Option.bind_eq_bind]
    rcases insert_fill ok hR hi idx hpre.2 xs with ⟨w1, w2, h1, h2, h3⟩ | ⟨h1, h2⟩
    · simp only [h1, Option.bind_some, if_true, h2]
      exact ⟨_, _, rfl, .inl ⟨rfl, h3, id⟩⟩
    · simp only [h1, Option.bind_some, reduceCtorEq, if_false]
      exact ⟨_, _, rfl, oom hR (by simp) h2⟩
  | insertChar i idx c n =>
    have hi : i < L.length := hpre.1
    simp only [step, insertChar, Option.bind_eq_bind]
    have := insert_fill ok hR hi idx hpre.2 (List.replicate n c)
    rw [List.length_replicate] at this
    rcases this with ⟨w1, w2, h1, h2, h3⟩ | ⟨h1, h2⟩
    · simp only [h1, Option.bind_some, ne_eq, not_true_eq_false, if_false, h2]
      exact ⟨_, _, rfl, .inl ⟨rfl, h3, id⟩⟩
    · simp only [h1, Option.bind_some, ne_eq, reduceCtorEq, not_false_eq_true, if_true]
      exact ⟨_, _, rfl, oom hR (by simp) h2⟩
  | assignWeak i j =>
    have hi : i < L.length := hpre.1
    have hj : j < L.length := hpre.2
    obtain ⟨w', h1, h2⟩ := rel_assignWeak hR i j (hlen i hi) ((get L j).map some)
      (by rw [List.getElem?_eq_getElem (hlen j hj), lift_get L j hj])
    exact ⟨_, w', by simp only [step, h1]; rfl, .inl ⟨rfl, by rw [lift_set] at h2; exact h2, id⟩⟩
  | assignMove i j =>
    have hi : i < L.length := hpre.1
    have hj : j < L.length := hpre.2
    obtain ⟨w', h1, h2⟩ := rel_assignMove hR i j (hlen i hi) ((get L j).map some)
      (by rw [List.getElem?_eq_getElem (hlen j hj), lift_get L j hj]) (initSso 0) [] ⟨rfl, initSso_shape 0 (by omega), by simp⟩
    refine ⟨_, w', by simp only [step, h1]; rfl, .inl ⟨rfl, ?_, id⟩⟩
    have := lift_set L j []
    simp only [List.map_nil] at this
    rw [this, lift_set] at h2
    exact h2
  | assignDeep i j =>
    have hi : i < L.length := hpre.1
    have hj : j < L.length := hpre.2
    obtain ⟨str, s1, s2, s3, s4⟩ := source_ok hR (hlen i hi) (hlen j hj) (get L j) (lift_get L j hj)
    simp only [step, assignDeep, s1, Option.bind_eq_bind, Option.bind_some]
    refine good_lift ok w L hR i (.assignDeep i j) _ ?_ rfl (by simp) _ ?_ _ id
      (modifyAndCopy_ok ok hR (hlen i hi) { assign := true, grow := false } str s2 (.inr (by simpa [s3, Right] using hright)))
    · rw [s4]; simp [result]
    · rw [s3]; simp [need]
  | assignData i s =>
    have hi : i < L.length := hpre.1
    refine good_lift ok w L hR i (.assignData i s) _ ?_ rfl (by simp) _ ?_ _ id
      (modifyAndCopy_ok ok hR (hlen i hi) { assign := true, grow := false } s (by rw [lift_get L i hi]; exact lift_ok _ _ hpre.2)
        (.inr (by simpa [Right] using hright)))
    · rw [lift_get L i hi, lift_val]; simp [result, Op.target]
    · simp [need]
  | applyData i op s =>
    have hi : i < L.length := hpre.1
    refine good_lift ok w L hR i (.applyData i op s) _ ?_ rfl (by simp) _ ?_ _ id
      (modifyAndCopy_ok ok hR (hlen i hi) op s (by rw [lift_get L i hi]; exact lift_ok _ _ hpre.2)
        (by rw [lift_len L i hi]; exact hright))
    · rw [lift_get L i hi, lift_val]; exact put_lift op _ _
    · rw [lift_len L i hi]; rfl
  | applyString i op j =>
    have hi : i < L.length := hpre.1
    have hj : j < L.length := hpre.2
    obtain ⟨str, s1, s2, s3, s4⟩ := source_ok hR (hlen i hi) (hlen j hj) (get L j) (lift_get L j hj)
    simp only [step, applyString, s1, Option.bind_eq_bind, Option.bind_some]
    refine good_lift ok w L hR i (.applyString i op j) _ ?_ rfl (by simp) _ ?_ _ id
      (modifyAndCopy_ok ok hR (hlen i hi) op str s2 (by rw [s3, lift_len L i hi]; exact hright))
    · rw [s4, lift_get L i hi]; exact put_lift op _ _
    · rw [s3, lift_len L i hi]; rfl
  | applyFormat i op out =>
    have hi : i < L.length := hpre.1
    cases out with
    | none => exact ⟨_, _, applyFormat_none ok hR (hlen i hi) op, .inr (.inr ⟨rfl, rfl, trivial⟩)⟩
    | some o =>
      obtain ⟨g1, g2⟩ := hright
      refine good_lift ok w L hR i (.applyFormat i op (some o)) _ ?_ rfl (by simp) _ ?_ _ id
        (applyFormat_ok ok hR (hlen i hi) op o (by rw [lift_len L i hi]; exact g1) (by rw [lift_len L i hi]; exact g2))
      · rw [lift_get L i hi]; exact put_lift op _ _
      · rw [lift_len L i hi]; rfl
  | insertData i idx s =>
    have hi : i < L.length := hpre.1
    refine good_lift ok w L hR i (.insertData i idx s) _ ?_ rfl (by simp) _ ?_ _ id
      (insertAndCopy_ok ok hR (hlen i hi) idx s (by rw [lift_get L i hi]; exact lift_ok _ _ hpre.2.2) (by rw [lift_len L i hi]; exact hpre.2.1))
    · rw [lift_get L i hi, lift_val]; simp [result, Op.target, ins, List.map_take, List.map_drop]
    · rw [lift_len L i hi]; rfl
  | insertString i idx j =>
    have hi : i < L.length := hpre.1
    have hj : j < L.length := hpre.2.2
    refine good_lift ok w L hR i (.insertString i idx j) _ ?_ rfl (by simp) _ ?_ _ id
      (insertString_ok ok hR (hlen i hi) (hlen j hj) (get L j) (lift_get L j hj) idx (by rw [lift_len L i hi]; exact hpre.2.1))
    · rw [lift_get L i hi]; simp [result, Op.target, ins, List.map_take, List.map_drop]
    · rw [lift_len L i hi]; rfl
  | removeIndex i idx =>
    have hi : i < L.length := hpre.1
    have hidx : idx < 2 ^ 64 := hpre.2
    have hb : (get L i).length < 2 ^ 64 := by
      obtain ⟨V⟩ := viewL hR i hi
      have h1 := V.len
      rw [List.length_map] at h1
      omega
    refine good_lift ok w L hR i (.removeIndex i idx) _ ?_ rfl (by simp) _ (lift_len L i hi) _ id (removeRange_ok ok hR (hlen i hi) idx ((idx + 1) % 2 ^ 64))
    rw [lift_get L i hi, List.length_map, ← List.map_take, ← List.map_drop, ← List.map_append]
    congr 1
    show _ = (get L i).eraseIdx idx
    rw [List.eraseIdx_eq_take_drop_succ]
    by_cases hc : idx < (get L i).length
    · have e1 : min ((idx + 1) % 2 ^ 64) (get L i).length = idx + 1 := by omega
      have e2 : min idx (idx + 1) = idx := by omega
      rw [e1, e2]
    · rw [List.take_of_length_le (i := idx) (by omega), List.drop_eq_nil_of_le (i := idx + 1) (by omega), List.append_nil]
      by_cases hw : idx + 1 = 2 ^ 64
      · have e1 : min ((idx + 1) % 2 ^ 64) (get L i).length = 0 := by rw [hw]; simp
        rw [e1]; simp
      · have e1 : min ((idx + 1) % 2 ^ 64) (get L i).length = (get L i).length := by omega
        have e2 : min idx (get L i).length = (get L i).length := by omega
        rw [e1, e2, List.take_append_drop]
  | removeRange i a b =>
    have hi : i < L.length := hpre.1
    refine good_lift ok w L hR i (.removeRange i a b) _ ?_ rfl (by simp) _ (lift_len L i hi) _ id (removeRange_ok ok hR (hlen i hi) a b)
    rw [lift_get L i hi]; simp [result, Op.target, List.map_take, List.map_drop]

theorem reach_rel {w : Wld} {L : List (List UInt8)} (h : Reach w L) : RL w L := by
  induction h with
  | init n =>
    refine ⟨by simp [initial], ?_, ?_, ?_⟩
    · intro i v x h1 h2
      simp only [initial, List.getElem?_replicate] at h1
      simp only [List.map_replicate, List.map_nil, List.getElem?_replicate] at h2
      split at h1
      · simp only [Option.some.injEq] at h1
        rw [if_pos ‹_›] at h2
        simp only [Option.some.injEq] at h2
        subst h1; subst h2
        exact ⟨rfl, initSso_shape 0 (by omega), by simp⟩
      · simp at h1
    · intro a hr
      exfalso
      have : refs ((initial n).vars ++ []) a = 0 := by
        rw [List.append_nil]
        exact List.countP_eq_zero.2 (by intro x hx; rw [List.eq_of_mem_replicate hx]; simp)
      omega
    · intro a b hb
      exact absurd (block_some_lt _ _ _ hb).1 (by simp [initial])
  | call op ok r w' h0 hpre hright hst ih =>
    obtain ⟨r2, w2, h1, h2⟩ := step_ok ok _ _ ih op hpre hright
    rw [hst] at h1
    simp only [Option.some.injEq, Prod.mk.injEq] at h1
    obtain ⟨rfl, rfl⟩ := h1
    rcases h2 with ⟨e1, e2, _⟩ | ⟨e1, e2, _⟩ | ⟨e1, e2, e3⟩
    · rw [if_pos e1]; exact e2
    · rw [if_neg (by rw [e1]; decide)]; exact e2
    · rw [if_neg (by rw [e1]; decide), failed_eq _ _ (by rintro i s rfl; exact e3), e2]; exact ih

theorem rel_content {w : Wld} {L : List (List UInt8)} (h : RL w L) (i : Nat) : content w i = L[i]? := by
  by_cases hi : i < L.length
  · obtain ⟨V⟩ := viewL h i hi
    have hl := V.len
    obtain ⟨r, r1, r2, r3⟩ := rd_spec V.u.cells 0 ((get L i).map (some : UInt8 → Option UInt8)).length (by omega)
    have hr : r = (get L i).map some := by
      apply List.ext_getElem?
      intro k
      rw [r3]
      by_cases hk : k < ((get L i).map (some : UInt8 → Option UInt8)).length
      · rw [if_pos hk, Nat.zero_add, V.hok.val k hk]
      · rw [if_neg hk, List.getElem?_eq_none (by omega)]
    simp only [content, V.hv, V.hu, V.hok.size, r1, hr, Option.bind_eq_bind, Option.bind_some, mapM_some]
    rw [Spec.get, List.getElem?_eq_getElem hi]; rfl
  · have : w.vars[i]? = none := List.getElem?_eq_none (by rw [h.len]; simpa using hi)
    simp only [content, this]
    rw [List.getElem?_eq_none (by omega)]; rfl

/-! ## C18: a string behaves like a list of bytes -/

/-- C18 (partial): whatever a program did before, every string reads as the list it should be.  `Reach` excludes calls
that are not `Right`, for which this is false: see the counterexamples below. -/
theorem C18_strings_are_lists_partial (w : Wld) (L : List (List UInt8)) (h : Reach w L) (i : Nat) : content w i = L[i]? :=
  rel_content (reach_rel h) i

/-- C18 (partial, as above): there is always a NUL behind the characters. -/
theorem C18_terminated_partial (w : Wld) (L : List (List UInt8)) (h : Reach w L) (i : Nat) (hi : i < L.length) : terminator w i = some 0 := by
  obtain ⟨V⟩ := viewL (reach_rel h) i hi
  have := V.hok.shape.1
  simp only [terminator, V.hv, V.hu, V.hok.size, this, Option.bind_eq_bind, Option.bind_some]

/-- C18 (partial, as above): no call leaves the buffers, uses an impl that was freed, reads an uninitialised character or
copies between overlapping ranges; it fails only for the reason it reports, and then nothing changes (but a failed
constructor leaves an empty string). -/
theorem C18_calls_are_safe_partial (w : Wld) (L : List (List UInt8)) (h : Reach w L) (op : Op)
    (ok : Bool) (hpre : Pre L op) (hright : Right ok w L op) :
    ∃ r w', step ok w op = some (r, w') ∧
      (r = .outOfMemory → ((∀ i s, op ≠ .create i s) → w' = w) ∧ (ok = false ∨ implMaxSize < 2 * (18 + need L op))) ∧
      (r = .invalidValue ↔ Invalid op ∧ r ≠ .outOfMemory) ∧ (r = .invalidValue → w' = w) := by
  obtain ⟨r, w', h1, h2⟩ := step_ok ok w L (reach_rel h) op hpre hright
  refine ⟨r, w', h1, ?_⟩
  rcases h2 with ⟨e1, e2, e3⟩ | ⟨e1, e2, e3⟩ | ⟨e1, e2, e3⟩ <;> subst e1
  · exact ⟨by simp, by simp [e3], by simp⟩
  · exact ⟨fun _ => e3, by simp, by simp⟩
  · exact ⟨by simp, by simp [e3], fun _ => e2⟩

/-- C18 (partial, as above): a call on one string never changes another one, however their storage was shared (except for
the string a move takes its content from). -/
theorem C18_independent_partial (w : Wld) (L : List (List UInt8)) (h : Reach w L) (op : Op)
    (ok : Bool) (hpre : Pre L op) (hright : Right ok w L op) (r : Result) (w' : Wld)
    (hst : step ok w op = some (r, w')) (j : Nat) (hj : j ≠ op.target) (hj2 : some j ≠ op.other) :
    content w' j = content w j := by
  have hr := Reach.call op ok r w' h hpre hright hst
  rw [rel_content (reach_rel hr) j, rel_content (reach_rel h) j]
  have key : ∀ x : List UInt8, (L.set op.target x)[j]? = L[j]? := by
    intro x; rw [List.getElem?_set_ne (fun hc => hj hc.symm)]
  split
  · cases op with
    | assignMove i k =>
      have hk : j ≠ k := fun hc => hj2 (by rw [hc]; rfl)
      show ((L.set k []).set i (get L k))[j]? = L[j]?
      have hj' : i ≠ j := fun hc => hj hc.symm
      rw [List.getElem?_set_ne hj', List.getElem?_set_ne (fun hc => hk hc.symm)]
    | _ => exact key _
  · cases op with
    | create i s => exact key _
    | _ => rfl

/-- C18 (partial, as above): the counter of every impl that was not freed is exact and positive: it is freed exactly when
the last string that uses it goes away (nothing leaks), and an impl a string uses was not freed. -/
theorem C18_no_leak_no_dangling_partial (w : Wld) (L : List (List UInt8)) (h : Reach w L) (a : Nat) :
    ((∃ i : Nat, w.vars[i]? = some (Core.dyn a)) ↔ ∃ b, w.block? a = some b) ∧
    (∀ b, w.block? a = some b → b.rc + 1 = b.base + refs w.vars a) := by
  have hr := reach_rel h
  refine ⟨⟨?_, ?_⟩, ?_⟩
  · rintro ⟨i, hi⟩
    exact hr.live a (by rw [List.append_nil]; exact refs_mem w.vars i a hi)
  · rintro ⟨b, hb⟩
    have := (hr.cnt a b hb).2.1
    rw [List.append_nil] at this
    obtain ⟨x, hx1, hx2⟩ := List.countP_pos_iff.1 this
    obtain ⟨i, hi⟩ := List.mem_iff_getElem?.1 hx1
    cases x with
    | sso s => simp at hx2
    | dyn b' =>
      simp only [is_dyn, beq_iff_eq] at hx2
      exact ⟨i, by rw [hi, hx2]⟩
  · intro b hb
    have := (hr.cnt a b hb).2.2
    rwa [List.append_nil] at this

/-- C18 (partial, as above): after `reserve(n)` returned success the string is mutable and has room for `n` characters. -/
theorem C18_reserve_partial (w : Wld) (L : List (List UInt8)) (h : Reach w L) (ok : Bool) (i n : Nat) (hn : n < 2 ^ 64 - 17)
    (hi : i < L.length) (w' : Wld) (hs : reserve ok w i n = some (.success, w')) : Room w' i n := by
  obtain ⟨r, w2, h1, h2⟩ := reserve_ok ok (reach_rel h) (i := i) (by simpa using hi) n hn
  rw [hs] at h1
  simp only [Option.some.injEq, Prod.mk.injEq] at h1
  obtain ⟨rfl, rfl⟩ := h1
  rcases h2 with ⟨_, _, e⟩ | ⟨e, _⟩
  · exact e
  · exact absurd e (by decide)

/-! ### Comparisons -/

theorem memcmp_self (x : List UInt8) : memcmp x x = 0 := by
  induction x with
  | nil => rfl
  | cons a t ih => rw [memcmp, if_pos rfl, ih]

theorem memcmp_eq (x y : List UInt8) (hl : x.length = y.length) : memcmp x y = 0 ↔ x = y := by
  induction x generalizing y with
  | nil => cases y <;> simp_all [memcmp]
  | cons a t ih =>
    cases y with
    | nil => simp at hl
    | cons b u =>
      simp only [List.length_cons, Nat.add_right_cancel_iff] at hl
      rw [memcmp]
      by_cases hab : a = b
      · rw [if_pos hab, ih u hl]; simp [hab]
      · rw [if_neg hab]
        have : a.toNat ≠ b.toNat := fun hc => hab (UInt8.toNat_inj.1 hc)
        simp only [List.cons.injEq, hab, false_and, iff_false]; omega

/-- `compareLists` peels equal heads. -/
theorem compareLists_cons (a b : UInt8) (x y : List UInt8) :
    compareLists (a :: x) (b :: y) = if a = b then compareLists x y else (a.toNat : Int) - b.toNat := by
  unfold compareLists
  simp only [List.length_cons]
  rw [show min (x.length + 1) (y.length + 1) = min x.length y.length + 1 by omega, List.take_succ_cons, List.take_succ_cons, memcmp]
  by_cases hab : a = b
  · simp only [if_pos hab]
    by_cases hc : memcmp (x.take (min x.length y.length)) (y.take (min x.length y.length)) ≠ 0
    · rw [if_pos hc, if_pos hc]
    · rw [if_neg hc, if_neg hc]
      simp only [gt_iff_lt, Nat.add_lt_add_iff_right]
  · simp only [if_neg hab]
    have : a.toNat ≠ b.toNat := fun hc => hab (UInt8.toNat_inj.1 hc)
    rw [if_pos (by omega)]

/-- The sign of a comparison: `x < y` is the lexicographic order of lists, bytes being unsigned. -/
def SignOk (c : Int) (x y : List UInt8) : Prop := (c < 0 ↔ x < y) ∧ (c = 0 ↔ x = y) ∧ (0 < c ↔ y < x)

theorem sign_head (a b : UInt8) (x y : List UInt8) (hab : a ≠ b) : SignOk ((a.toNat : Int) - b.toNat) (a :: x) (b :: y) := by
  have hne : a.toNat ≠ b.toNat := fun hc => hab (UInt8.toNat_inj.1 hc)
  have hba : ¬ b = a := fun hc => hab hc.symm
  refine ⟨?_, ?_, ?_⟩
  · rw [List.cons_lt_cons_iff]; simp only [hab, false_and, or_false, UInt8.lt_iff_toNat_lt]; omega
  · simp only [List.cons.injEq, hab, false_and, iff_false]; omega
  · rw [List.cons_lt_cons_iff]; simp only [hba, false_and, or_false, UInt8.lt_iff_toNat_lt]; omega

theorem sign_tail (c : Int) (a : UInt8) (x y : List UInt8) (h : SignOk c x y) : SignOk c (a :: x) (a :: y) := by
  obtain ⟨h1, h2, h3⟩ := h
  refine ⟨?_, ?_, ?_⟩
  · rw [List.cons_lt_cons_iff, h1]; simp
  · rw [h2]; simp
  · rw [List.cons_lt_cons_iff, h3]; simp

theorem compareLists_sign (x y : List UInt8) : SignOk (compareLists x y) x y := by
  induction x generalizing y with
  | nil =>
    cases y with
    | nil => simp [compareLists, memcmp, SignOk]
    | cons b u => simp [compareLists, memcmp, SignOk]
  | cons a t ih =>
    cases y with
    | nil => simp [compareLists, memcmp, SignOk]
    | cons b u =>
      rw [compareLists_cons]
      by_cases hab : a = b
      · rw [if_pos hab]; subst hab; exact sign_tail _ a t u (ih u)
      · rw [if_neg hab]; exact sign_head a b t u hab

/-- C18 (partial, as above): `equals()` compares content. -/
theorem C18_equals_partial (w : Wld) (L : List (List UInt8)) (h : Reach w L) (i j : Nat) (x y : List UInt8) (hi : L[i]? = some x) (hj : L[j]? = some y) :
    equals w i j = some (decide (x = y)) := by
  simp only [equals, rel_content (reach_rel h), hi, hj, Option.bind_eq_bind, Option.bind_some]
  by_cases hl : x.length = y.length
  · rw [if_neg (by simpa using hl)]
    simp only [Option.pure_def, Option.some.injEq]
    have := memcmp_eq x y hl
    by_cases hxy : x = y
    · simp [hxy, memcmp_self]
    · simp [hxy, this]
  · rw [if_pos hl]
    have : x ≠ y := fun hc => hl (by rw [hc])
    simp [this]

theorem equalsZ_ok (x z rest : List UInt8) (hz : (0 : UInt8) ∉ z) : equalsZ x (z ++ 0 :: rest) = some (decide (x = z)) := by
  induction x generalizing z with
  | nil =>
    cases z with
    | nil => simp [equalsZ]
    | cons b u =>
      have : b ≠ 0 := fun hc => hz (by rw [hc]; simp)
      simp [equalsZ, this]
  | cons a t ih =>
    cases z with
    | nil => simp [equalsZ]
    | cons b u =>
      have hb : b ≠ 0 := fun hc => hz (by rw [hc]; simp)
      have hu : (0 : UInt8) ∉ u := fun hc => hz (List.mem_cons_of_mem _ hc)
      simp only [List.cons_append, equalsZ, hb, or_false, ih u hu]
      by_cases hab : a = b
      · simp [hab]
      · simp [hab]

theorem compareZ_ok (x z rest : List UInt8) (hz : (0 : UInt8) ∉ z) : ∃ c, compareZ x (z ++ 0 :: rest) = some c ∧ SignOk c x z := by
  induction x generalizing z with
  | nil =>
    cases z with
    | nil => exact ⟨0, by simp [compareZ], by simp [SignOk]⟩
    | cons b u =>
      have : b ≠ 0 := fun hc => hz (by rw [hc]; simp)
      exact ⟨-1, by simp [compareZ, this], by simp [SignOk]⟩
  | cons a t ih =>
    cases z with
    | nil => exact ⟨1, by simp [compareZ], by simp [SignOk]⟩
    | cons b u =>
      have hb : b ≠ 0 := fun hc => hz (by rw [hc]; simp)
      have hu : (0 : UInt8) ∉ u := fun hc => hz (List.mem_cons_of_mem _ hc)
      simp only [List.cons_append, compareZ, hb, if_false]
      by_cases hab : a = b
      · subst hab
        rw [if_neg (by omega)]
        obtain ⟨c, h1, h2⟩ := ih u hu
        exact ⟨c, h1, sign_tail _ _ _ _ h2⟩
      · have hne : a.toNat ≠ b.toNat := fun hc => hab (UInt8.toNat_inj.1 hc)
        rw [if_pos (by omega)]
        exact ⟨_, rfl, sign_head a b t u hab⟩

/-- C18 (partial, as above): comparing with characters in memory.  The ones of a NUL terminated string are those before
the first NUL, and nothing behind it is read. -/
theorem C18_equals_data_partial (w : Wld) (L : List (List UInt8)) (h : Reach w L) (i : Nat) (x : List UInt8) (hi : L[i]? = some x) :
    (∀ y rest, equalsData w i (y ++ rest) (some y.length) = some (decide (x = y))) ∧
    (∀ z rest, (0 : UInt8) ∉ z → equalsData w i (z ++ 0 :: rest) none = some (decide (x = z))) := by
  constructor
  · intro y rest
    simp only [equalsData, rel_content (reach_rel h), hi, Option.bind_eq_bind, Option.bind_some]
    by_cases hl : x.length = y.length
    · rw [if_neg (by simpa using hl), if_neg (by simp), List.take_left' rfl]
      simp only [Option.pure_def, Option.some.injEq]
      have := memcmp_eq x y hl
      by_cases hxy : x = y
      · simp [hxy, memcmp_self]
      · simp [hxy, this]
    · rw [if_pos hl]
      have : x ≠ y := fun hc => hl (by rw [hc])
      simp [this]
  · intro z rest hz
    simp only [equalsData, rel_content (reach_rel h), hi, Option.bind_eq_bind, Option.bind_some]
    exact equalsZ_ok x z rest hz

/-- C18 (partial, as above): the sign of `compare()` is the lexicographic order of the bytes. -/
theorem C18_compare_partial (w : Wld) (L : List (List UInt8)) (h : Reach w L) (i j : Nat) (x y : List UInt8) (hi : L[i]? = some x) (hj : L[j]? = some y) :
    ∃ c, compare w i j = some c ∧ SignOk c x y := by
  simp only [compare, rel_content (reach_rel h), hi, hj, Option.bind_eq_bind, Option.bind_some]
  exact ⟨_, rfl, compareLists_sign x y⟩

/-- C18 (partial, as above): the same for characters in memory. -/
theorem C18_compare_data_partial (w : Wld) (L : List (List UInt8)) (h : Reach w L) (i : Nat) (x : List UInt8) (hi : L[i]? = some x) :
    (∀ y rest, ∃ c, compareData w i (y ++ rest) (some y.length) = some c ∧ SignOk c x y) ∧
    (∀ z rest, (0 : UInt8) ∉ z → ∃ c, compareData w i (z ++ 0 :: rest) none = some c ∧ SignOk c x z) := by
  constructor
  · intro y rest
    simp only [compareData, rel_content (reach_rel h), hi, Option.bind_eq_bind, Option.bind_some]
    rw [if_neg (by simp), List.take_left' rfl]
    exact ⟨_, rfl, compareLists_sign x y⟩
  · intro z rest hz
    simp only [compareData, rel_content (reach_rel h), hi, Option.bind_eq_bind, Option.bind_some]
    exact compareZ_ok x z rest hz

/-! ### Searching -/

theorem indexLoop_ok (c : UInt8) (l : List UInt8) (i : Nat) :
    match indexLoop c l i with
    | some k => i ≤ k ∧ l[k - i]? = some c ∧ ∀ j, i ≤ j → j < k → l[j - i]? ≠ some c
    | none => ∀ j : Nat, l[j]? ≠ some c := by
  induction l generalizing i with
  | nil => simp [indexLoop]
  | cons x t ih =>
    rw [indexLoop]
    by_cases hx : x = c
    · rw [if_pos hx]
      exact ⟨Nat.le_refl _, by simp [hx], fun j h1 h2 => by omega⟩
    · rw [if_neg hx]
      have := ih (i + 1)
      cases hr : indexLoop c t (i + 1) with
      | none =>
        rw [hr] at this
        intro j
        cases j with
        | zero => simpa using hx
        | succ j => simpa using this j
      | some k =>
        rw [hr] at this
        obtain ⟨h1, h2, h3⟩ := this
        refine ⟨by omega, ?_, ?_⟩
        · rw [show k - i = (k - (i + 1)) + 1 by omega, List.getElem?_cons_succ]; exact h2
        · intro j j1 j2
          by_cases hj : j = i
          · subst hj; simpa using hx
          · rw [show j - i = (j - (i + 1)) + 1 by omega, List.getElem?_cons_succ]; exact h3 j (by omega) j2

/-- C18: `index_of(c, from)` finds the first occurrence of `c` at or behind `from`, or reports that there is none. -/
theorem C18_index_of (a : List UInt8) (c : UInt8) (start : Nat) :
    (∀ k, indexOf a c start = some k → start ≤ k ∧ a[k]? = some c ∧ ∀ j, start ≤ j → j < k → a[j]? ≠ some c) ∧
    (indexOf a c start = none → ∀ j, start ≤ j → a[j]? ≠ some c) := by
  have h := indexLoop_ok c (a.drop start) start
  unfold indexOf
  constructor
  · intro k hk
    rw [hk] at h
    obtain ⟨h1, h2, h3⟩ := h
    refine ⟨h1, ?_, ?_⟩
    · rw [List.getElem?_drop] at h2; rw [← h2]; congr 1; omega
    · intro j j1 j2
      have := h3 j j1 j2
      rw [List.getElem?_drop] at this
      rwa [show start + (j - start) = j by omega] at this
  · intro hk j hj
    rw [hk] at h
    have := h (j - start)
    rw [List.getElem?_drop] at this
    rwa [show start + (j - start) = j by omega] at this

theorem lastLoop_ok (a : List UInt8) (c : UInt8) (n : Nat) :
    match lastLoop a c n with
    | some k => k < n ∧ a[k]? = some c ∧ ∀ j, k < j → j < n → a[j]? ≠ some c
    | none => ∀ j, j < n → a[j]? ≠ some c := by
  induction n with
  | zero => simp [lastLoop]
  | succ n ih =>
    rw [lastLoop]
    by_cases hx : a[n]? = some c
    · rw [if_pos hx]
      exact ⟨by omega, hx, fun j h1 h2 => by omega⟩
    · rw [if_neg hx]
      cases hr : lastLoop a c n with
      | none =>
        rw [hr] at ih
        intro j hj
        by_cases he : j = n
        · subst he; exact hx
        · exact ih j (by omega)
      | some k =>
        rw [hr] at ih
        obtain ⟨h1, h2, h3⟩ := ih
        refine ⟨by omega, h2, ?_⟩
        intro j j1 j2
        by_cases he : j = n
        · subst he; exact hx
        · exact h3 j j1 (by omega)

/-- C18: `last_index_of(c)` finds the last occurrence, `last_index_of(c, from)` the last one at or before `from`. -/
theorem C18_last_index_of (a : List UInt8) (c : UInt8) :
    (∀ k, lastIndexOf a c = some k → a[k]? = some c ∧ ∀ j, k < j → a[j]? ≠ some c) ∧
    (lastIndexOf a c = none → ∀ j : Nat, a[j]? ≠ some c) ∧
    (∀ start k, lastIndexFrom a c start = some k → k ≤ start ∧ a[k]? = some c ∧ ∀ j, k < j → j ≤ start → a[j]? ≠ some c) ∧
    (∀ start, lastIndexFrom a c start = none → ∀ j, j ≤ start → a[j]? ≠ some c) := by
  have hout : ∀ j : Nat, a.length ≤ j → a[j]? ≠ some c := by
    intro j hj; rw [List.getElem?_eq_none hj]; simp
  refine ⟨?_, ?_, ?_, ?_⟩
  · intro k hk
    have h := lastLoop_ok a c a.length
    rw [lastIndexOf] at hk
    rw [hk] at h
    refine ⟨h.2.1, ?_⟩
    intro j hj
    by_cases hl : j < a.length
    · exact h.2.2 j hj hl
    · exact hout j (by omega)
  · intro hk j
    have h := lastLoop_ok a c a.length
    rw [lastIndexOf] at hk
    rw [hk] at h
    by_cases hl : j < a.length
    · exact h j hl
    · exact hout j (by omega)
  · intro start k hk
    rw [lastIndexFrom] at hk
    by_cases h0 : a.length = 0
    · rw [if_pos h0] at hk; simp at hk
    · rw [if_neg h0] at hk
      have h := lastLoop_ok a c (min (a.length - 1) start + 1)
      rw [hk] at h
      refine ⟨by omega, h.2.1, ?_⟩
      intro j j1 j2
      by_cases hl : j < a.length
      · exact h.2.2 j j1 (by omega)
      · exact hout j (by omega)
  · intro start hk j hj
    rw [lastIndexFrom] at hk
    by_cases hl : j < a.length
    · rw [if_neg (by omega)] at hk
      have h := lastLoop_ok a c (min (a.length - 1) start + 1)
      rw [hk] at h
      exact h j (by omega)
    · exact hout j (by omega)

/-! ## Concrete programs -/

/-- Running a program. -/
def run : Wld → List Op → Option Wld
  | w, [] => some w
  | w, op :: ops => do
    let (_, w) ← step true w op
    run w ops

def appendGrow : ModifyOp := { assign := false, grow := true }
def assignFit : ModifyOp := { assign := true, grow := false }
def appendFit : ModifyOp := { assign := false, grow := false }

/-- Three strings, in place, dynamic and shared, are changed, self-insertion included. -/
example : (run (initial 3) [.assignData 0 (.ext [1, 2, 3] true), .applyData 0 appendGrow (.own 0 2), .insertString 0 1 0,
    .create 1 [1, 2, 3, 4, 5, 6, 7, 8, 9, 10, 11, 12, 13, 14, 15], .assignWeak 2 1, .removeRange 2 2 14, .insertChar 1 15 9 2,
    .insertData 1 0 (.own 14 3), .removeRange 1 2 18, .applyFormat 2 appendGrow (some [7, 7])]).map
      (fun w => [content w 0, content w 1, content w 2]) =
    some [some [1, 1, 2, 3, 1, 2, 2, 3, 1, 2], some [15, 9, 9, 9], some [1, 2, 15, 7, 7]] := by decide +kernel

/-- The last state of this program is one the theorems speak about. -/
example : ∃ w, Reach w [List.replicate 15 65, List.replicate 15 65, []] := by
  have h1 := Reach.init 3
  have h2 := Reach.call (.create 0 (List.replicate 15 65)) true .success
    ⟨[.dyn 0, .sso (initSso 0), .sso (initSso 0)], [⟨1, 1, true, ⟨15, List.replicate 15 (some 65) ++ [some 0]⟩⟩]⟩ h1 ⟨by decide, by decide⟩ trivial
    (by decide +kernel)
  have h3 := Reach.call (.assignWeak 1 0) true .success _ h2 ⟨by decide, by decide⟩ trivial rfl
  exact ⟨_, h3⟩

/-- A call of each kind `Right` restricts is right in a state with an unshared string that has room. -/
example : Right true (initial 1) [[]] (.assignData 0 (.ext [65, 66] true)) ∧
    Right true (initial 1) [[]] (.applyFormat 0 assignFit (some [65, 66])) ∧
    Pre [[]] (.applyFormat 0 assignFit (some [65, 66])) := by
  have hr : ∀ n, n ≤ 14 → Room (initial 1) 0 n := fun n hn => ⟨_, ⟨0, initSso 0⟩, rfl, by decide +kernel, rfl, by simpa [Data.cap, initSso_len] using hn⟩
  refine ⟨.inr (hr _ (by decide)), ⟨.inr (.inr (hr _ (by decide))), ?_⟩, ⟨by decide, trivial⟩⟩
  rintro ⟨v, u, r1, r2, r3, r4⟩
  exact .inl (hr _ (by decide))

/-! ## Counterexamples

The calls `Right` excludes, each in a state and with arguments a program can have. -/

/-- 15 characters, which are not stored in place. -/
def long : List UInt8 := List.replicate 15 65

/-- The state after `BLString a("AAAAAAAAAAAAAAA"); BLString b(a);` -/
theorem shared_reach : ∃ w, run (initial 2) [.create 0 long, .assignWeak 1 0] = some w ∧ Reach w [long, long] := by
  have h2 := Reach.call (.create 0 long) true .success
    ⟨[.dyn 0, .sso (initSso 0)], [⟨1, 1, true, ⟨15, long.map some ++ [some 0]⟩⟩]⟩ (Reach.init 2) ⟨by decide, by decide⟩ trivial (by decide +kernel)
  have h3 := Reach.call (.assignWeak 1 0) true .success _ h2 ⟨by decide, by decide⟩ trivial rfl
  exact ⟨_, by decide +kernel, h3⟩

/-- Counterexample: assigning at most 14 characters to a string that is shared moves an instance that was never
initialised into it (`string.cpp:121-124` initialises `self` where `newO` is meant). -/
theorem C18_assign_to_shared_breaks :
    Pre [long, long] (.assignData 0 (.ext [66] true)) ∧
    run (initial 2) [.create 0 long, .assignWeak 1 0, .assignData 0 (.ext [66] true)] = none := by
  refine ⟨⟨by decide, trivial⟩, by decide +kernel⟩

/-- Counterexample: `reserve(SIZE_MAX)` computes the size of the impl modulo `2^64`; the impl it gets is too small for the
string, whose characters are copied behind its end. -/
theorem C18_reserve_overflows :
    Pre [long, long] (.reserve 0 (2 ^ 64 - 1)) ∧
    run (initial 2) [.create 0 long, .assignWeak 1 0, .reserve 0 (2 ^ 64 - 1)] = none := by
  refine ⟨⟨by decide, trivial⟩, by decide +kernel⟩

/-- The state after `BLString a; a.reserve(64);` -/
def roomy : Option Wld := run (initial 1) [.reserve 0 64]

/-- Counterexample: if formatted characters don't fit in at least 64 spare bytes, they are written to the string before
memory is requested.  If there is none, the call fails and the string is no longer NUL terminated: an empty string reads
as one that is followed by 65 characters. -/
theorem C18_failed_format_breaks :
    Pre [[]] (.applyFormat 0 appendGrow (some (List.replicate 200 65))) ∧
    roomy.bind (fun w => (step false w (.applyFormat 0 appendGrow (some (List.replicate 200 65)))).map (fun p =>
      (terminator w 0, p.1, content p.2 0, terminator p.2 0))) = some (some 0, Result.outOfMemory, some [], some 65) := by
  refine ⟨⟨by decide, trivial⟩, by decide +kernel⟩

end Blend2D.Str
