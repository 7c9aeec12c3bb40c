import Verif.BitArr.Ops
import Verif.BitArr.Queries
/-!
# Bit arrays are lists of bits (C19)
-/
namespace Blend2D.BitArr
open Cow Spec
open Blend2D.Arr (Result)

/-- What a call may do. -/
def Outcome (ok : Bool) (w : Wld) (L : List (List Bool)) (op : Op) (r : Result) (w' : Wld) : Prop :=
  (r = .success ∧ R w' (apply L op) ∧ ¬ Invalid L op) ∨
  (r = .outOfMemory ∧ w' = w ∧ (ok = false ∨ 2 ^ 32 ≤ need L op) ∧ ¬ Invalid L op) ∨
  (r = .invalidValue ∧ w' = w ∧ Invalid L op)

theorem get_eq (L : List (List Bool)) (i : Nat) (hi : i < L.length) : get L i = L[i] := by
  rw [Spec.get, List.getElem?_eq_getElem hi]; rfl

theorem good_lift (ok : Bool) (w : Wld) (L : List (List Bool)) (i : Nat) (op : Op) (l : List Bool) (n : Nat) (x : Option (Result × Wld))
    (hg : Good w L i l ok n x) (happ : apply L op = L.set i l) (hn : n ≤ need L op) (hinv : ¬ Invalid L op) :
    ∃ r w', x = some (r, w') ∧ Outcome ok w L op r w' := by
  obtain ⟨r, w', h1, h2⟩ := hg
  refine ⟨r, w', h1, ?_⟩
  rcases h2 with ⟨e1, e2⟩ | ⟨e1, e2, e3⟩
  · exact .inl ⟨e1, by rw [happ]; exact e2, hinv⟩
  · exact .inr (.inl ⟨e1, e2, e3.imp id (fun h => Nat.le_trans h hn), hinv⟩)

theorem modify_lift (ok : Bool) (w : Wld) (L : List (List Bool)) (i : Nat) (op : Op) (l : List Bool) (bad : Prop) (x : Option (Result × Wld))
    (hg : ∃ res w', x = some (res, w') ∧ ((res = .success ∧ ¬ bad ∧ R w' (L.set i l)) ∨ (res = .invalidValue ∧ w' = w ∧ bad)))
    (happ : apply L op = L.set i l) (hinv : Invalid L op ↔ bad) :
    ∃ r w', x = some (r, w') ∧ Outcome ok w L op r w' := by
  obtain ⟨r, w', h1, h2⟩ := hg
  refine ⟨r, w', h1, ?_⟩
  rcases h2 with ⟨e1, e2, e3⟩ | ⟨e1, e2, e3⟩
  · exact .inl ⟨e1, by rw [happ]; exact e3, by rw [hinv]; exact e2⟩
  · exact .inr (.inr ⟨e1, e2, hinv.2 e3⟩)

theorem lt_lift {x : Option (Result × Wld)} {w : Wld} {k n : Nat} {P : Wld → Prop}
    (h : ∃ res w', x = some (res, w') ∧ ((res = .success ∧ k < n ∧ P w') ∨ (res = .invalidValue ∧ w' = w ∧ n ≤ k))) :
    ∃ res w', x = some (res, w') ∧ ((res = .success ∧ ¬ n ≤ k ∧ P w') ∨ (res = .invalidValue ∧ w' = w ∧ n ≤ k)) := by
  obtain ⟨r, w', h1, h2⟩ := h
  refine ⟨r, w', h1, ?_⟩
  rcases h2 with ⟨e1, e2, e3⟩ | h2
  · exact .inl ⟨e1, by omega, e3⟩
  · exact .inr h2

/-- Every call with valid arguments that is right is memory safe and does what it should, or fails without an effect. -/
theorem step_ok (ok : Bool) (w : Wld) (L : List (List Bool)) (hR : R w L) (op : Op)
    (hpre : Pre L op) (hright : Right w L op) : ∃ r w', step ok w op = some (r, w') ∧ Outcome ok w L op r w' := by
  cases op with
  | reset i =>
    obtain ⟨w', h1, h2⟩ := reset_ok hR hpre.1
    exact ⟨_, w', h1, .inl ⟨rfl, h2, id⟩⟩
  | clear i =>
    obtain ⟨w', h1, h2⟩ := clear_ok hR hpre.1
    exact ⟨_, w', h1, .inl ⟨rfl, h2, id⟩⟩
  | shrink i =>
    have hi : i < L.length := hpre.1
    exact good_lift ok w L i _ _ _ _ (shrink_ok ok hR hi) (by rw [← get_eq L i hi]; rfl) (Nat.zero_le _) id
  | reserve i n =>
    have hi : i < L.length := hpre.1
    exact good_lift ok w L i _ _ _ _ (reserve_ok ok hR hi n hpre.2 (by rw [← get_eq L i hi]; exact hright)).1
      (by rw [← get_eq L i hi]; rfl) (Nat.zero_le _) id
  | resize i n =>
    have hi : i < L.length := hpre.1
    exact good_lift ok w L i _ _ _ _ (resize_ok ok hR hi n hpre.2 (by rw [← get_eq L i hi]; exact hright))
      (by rw [← get_eq L i hi]; rfl) (Nat.zero_le _) id
  | assignWeak i j =>
    have hj : j < L.length := hpre.2
    obtain ⟨w', h1, h2⟩ := rel_assignWeak hR i j hpre.1 (get L j) (by rw [List.getElem?_eq_getElem hj, get_eq L j hj])
    exact ⟨_, w', by simp only [step, h1]; rfl, .inl ⟨rfl, h2, id⟩⟩
  | assignMove i j =>
    have hj : j < L.length := hpre.2
    obtain ⟨w', h1, h2⟩ := rel_assignMove hR i j hpre.1 (get L j) (by rw [List.getElem?_eq_getElem hj, get_eq L j hj])
      (initSso 0) [] (initSso_ok 0 (by omega))
    exact ⟨_, w', by simp only [step, h1]; rfl, .inl ⟨rfl, h2, id⟩⟩
  | assignWords i ws =>
    exact good_lift ok w L i _ _ _ _ (assignWords_ok ok hR hpre.1 ws hright) rfl (Nat.zero_le _) id
  | setBit i k =>
    have hi : i < L.length := hpre.1
    exact modify_lift ok w L i _ _ _ _ (lt_lift (setBit_ok ok hR hi k hright)) (by rw [← get_eq L i hi]; rfl) (by rw [← get_eq L i hi]; rfl)
  | clearBit i k =>
    have hi : i < L.length := hpre.1
    exact modify_lift ok w L i _ _ _ _ (lt_lift (clearBit_ok ok hR hi k hright)) (by rw [← get_eq L i hi]; rfl) (by rw [← get_eq L i hi]; rfl)
  | replaceBit i k x =>
    have hi : i < L.length := hpre.1
    cases x with
    | true => exact modify_lift ok w L i _ _ _ _ (lt_lift (setBit_ok ok hR hi k hright)) (by rw [← get_eq L i hi]; rfl) (by rw [← get_eq L i hi]; rfl)
    | false => exact modify_lift ok w L i _ _ _ _ (lt_lift (clearBit_ok ok hR hi k hright)) (by rw [← get_eq L i hi]; rfl) (by rw [← get_eq L i hi]; rfl)
  | fillRange i a b =>
    have hi : i < L.length := hpre.1
    exact modify_lift ok w L i _ _ _ _ (fillRange_ok ok hR hi a b hright) (by rw [← get_eq L i hi]; rfl) (by rw [← get_eq L i hi]; rfl)
  | clearRange i a b =>
    have hi : i < L.length := hpre.1
    exact modify_lift ok w L i _ _ _ _ (clearRange_ok ok hR hi a b hright) (by rw [← get_eq L i hi]; rfl) (by rw [← get_eq L i hi]; rfl)
  | combine i c k ws =>
    have hi : i < L.length := hpre.1
    exact modify_lift ok w L i _ _ _ _ (lt_lift (combineAt_ok ok hR hi c k ws hright.1 (by rw [← get_eq L i hi]; exact hright.2)))
      (by rw [← get_eq L i hi]; rfl) (by rw [← get_eq L i hi]; rfl)
  | appendBit i x =>
    have hi : i < L.length := hpre.1
    exact good_lift ok w L i _ _ _ _ (appendBit_ok ok hR hi x (by rw [← get_eq L i hi]; exact hright))
      (by rw [← get_eq L i hi]; rfl) (by rw [← get_eq L i hi]; exact Nat.le_refl _) id
  | appendWords i ws =>
    have hi : i < L.length := hpre.1
    exact good_lift ok w L i _ _ _ _ (appendWords_ok ok hR hi ws (by rw [← get_eq L i hi]; exact hright.1) (by rw [← get_eq L i hi]; exact hright.2))
      (by rw [← get_eq L i hi]; rfl) (by rw [← get_eq L i hi]; exact Nat.le_refl _) id
  | replaceOp i n ws =>
    have hi : i < L.length := hpre.1
    obtain ⟨hn, hws, hzero⟩ := hpre.2
    obtain ⟨r, w', h1, h2⟩ := replaceOp_ok ok hR hi n hn
    simp only [step, h1, Option.bind_eq_bind, Option.bind_some]
    rcases h2 with ⟨e1, e2, e3⟩ | ⟨e1, e2, e3⟩
    · subst e1
      have hi' : i < (L.set i (List.replicate n false)).length := by rw [List.length_set]; exact hi
      have hget : (L.set i (List.replicate n false))[i] = List.replicate n false := by simp
      have hgl : (L.set i (List.replicate n false))[i].length = n := by rw [hget]; simp
      obtain ⟨V⟩ := view e2 i hi'
      have hwl : ws.length ≤ V.d.words.length := by
        have := V.hok.words
        rw [hgl] at this
        unfold wordCount at this; omega
      have htl : ((bits ws).take n).length = n := by rw [List.length_take, bits_len]; omega
      obtain ⟨w2, r1, r2⟩ := onWords_ok e2 hi' V (own_view V e3) (fun _ old => some (ws ++ old.drop ws.length)) ((bits ws).take n)
        (by rw [hgl, htl]) _ rfl (by simp; omega) (by
          intro k
          rw [bit_append, lb_take, lb_bits, bit_drop, V.hok.val, hget, lb_replicate]
          by_cases hk : k < 32 * ws.length
          · rw [if_pos hk]
            by_cases hkn : k < n
            · rw [if_pos hkn]
            · rw [if_neg hkn]
              have := hzero k (by omega)
              rw [← lb_bits, lb]
              cases hx : (bits ws)[k]? with
              | none => rfl
              | some z =>
                rw [hx] at this
                cases z
                · rfl
                · exact absurd rfl this
          · rw [if_neg hk, bit_ge _ _ (by omega), ite_self])
      rw [List.set_set] at r2
      simp only [if_true, r1, Option.bind_some]
      exact ⟨_, _, rfl, .inl ⟨rfl, r2, id⟩⟩
    · subst e1
      simp only [reduceCtorEq, if_false]
      exact ⟨_, _, rfl, .inr (.inl ⟨rfl, e2, .inl e3, id⟩)⟩

theorem reach_rel {w : Wld} {L : List (List Bool)} (h : Reach w L) : R w L := by
  induction h with
  | init n =>
    refine ⟨by simp [initial], ?_, ?_, ?_⟩
    · intro i v x h1 h2
      simp only [initial, List.getElem?_replicate] at h1
      simp only [List.getElem?_replicate] at h2
      split at h1
      · simp only [Option.some.injEq] at h1
        rw [if_pos ‹_›] at h2
        simp only [Option.some.injEq] at h2
        subst h1; subst h2
        exact initSso_ok 0 (by omega)
      · simp at h1
    · intro a hr
      exfalso
      have : refs ((initial n).vars ++ []) a = 0 := by
        rw [List.append_nil]
        exact List.countP_eq_zero.2 (by intro x hx; rw [List.eq_of_mem_replicate hx]; simp)
      omega
    · intro a b hb
      exact absurd (block_some_lt _ _ _ hb).1 (by simp [initial])
  | call op ok r w' h0 hpre hright hst ih =>
    obtain ⟨r2, w2, h1, h2⟩ := step_ok ok _ _ ih op hpre hright
    rw [hst] at h1
    simp only [Option.some.injEq, Prod.mk.injEq] at h1
    obtain ⟨rfl, rfl⟩ := h1
    rcases h2 with ⟨e1, e2, _⟩ | ⟨e1, e2, _⟩ | ⟨e1, e2, e3⟩
    · rw [if_pos e1]; exact e2
    · rw [if_neg (by rw [e1]; decide), e2]; exact ih
    · rw [if_neg (by rw [e1]; decide), e2]; exact ih

/-- What a client reads of bit array `i`: `size()` bits of the words at `data()`. -/
def content (w : Wld) (i : Nat) : Option (List Bool) := do
  let d ← data w i
  if wordCount d.size ≤ d.words.length then return (bits d.words).take d.size else none

theorem rel_content {w : Wld} {L : List (List Bool)} (h : R w L) (i : Nat) : content w i = L[i]? := by
  by_cases hi : i < L.length
  · obtain ⟨V⟩ := view h i hi
    simp only [content, data, V.hv, V.hd, V.hok.size, if_pos V.hok.words, Option.bind_eq_bind, Option.bind_some]
    rw [List.getElem?_eq_getElem hi]
    show some _ = some _
    congr 1
    apply lb_ext
    · rw [List.length_take, bits_len]
      have := V.cap.2.2.1
      omega
    · intro k
      rw [lb_take, lb_bits, V.hok.val]
      by_cases hk : k < L[i].length
      · rw [if_pos hk]
      · rw [if_neg hk, lb_ge _ _ (by omega)]
  · have : w.vars[i]? = none := List.getElem?_eq_none (by rw [h.len]; omega)
    simp only [content, data, this]
    rw [List.getElem?_eq_none (by omega)]; rfl

/-! ## C19: a bit array behaves like a list of bits -/

/-- C19 (partial): whatever a program did before, every bit array reads as the list it should be.  `Reach` excludes calls
that are not `Right`, for which this is false: see the counterexamples below. -/
theorem C19_bit_arrays_are_lists_partial (w : Wld) (L : List (List Bool)) (h : Reach w L) (i : Nat) : content w i = L[i]? :=
  rel_content (reach_rel h) i

/-- C19 (partial, as above): the bits of the last word that are not used are zero. -/
theorem C19_unused_bits_are_zero_partial (w : Wld) (L : List (List Bool)) (h : Reach w L) (i : Nat) (d : Data) (hd : data w i = some d)
    (k : Nat) (hk : d.size ≤ k) : (bits d.words)[k]? ≠ some true := by
  have hR := reach_rel h
  by_cases hi : i < L.length
  · obtain ⟨V⟩ := view hR i hi
    simp only [data, V.hv, V.hd, Option.bind_eq_bind, Option.bind_some, Option.some.injEq] at hd
    subst hd
    have h1 := lb_bits V.d.words k
    rw [V.hok.val, lb_ge L[i] _ (by rw [← V.hok.size]; exact hk)] at h1
    intro hc
    rw [lb, hc] at h1
    simp at h1
  · have : w.vars[i]? = none := List.getElem?_eq_none (by rw [hR.len]; omega)
    simp [data, this] at hd

/-- C19 (partial, as above): no call leaves the buffers, uses an impl that was freed, reads uninitialised memory or shifts
too far; it fails only for the reason it reports, and then nothing changes. -/
theorem C19_calls_are_safe_partial (w : Wld) (L : List (List Bool)) (h : Reach w L) (op : Op)
    (ok : Bool) (hpre : Pre L op) (hright : Right w L op) :
    ∃ r w', step ok w op = some (r, w') ∧
      (r = .outOfMemory → ok = false ∨ 2 ^ 32 ≤ need L op) ∧
      (r = .invalidValue ↔ Invalid L op) ∧ (r = .success ∨ w' = w) := by
  obtain ⟨r, w', h1, h2⟩ := step_ok ok w L (reach_rel h) op hpre hright
  refine ⟨r, w', h1, ?_⟩
  rcases h2 with ⟨e1, e2, e3⟩ | ⟨e1, e2, e3, e4⟩ | ⟨e1, e2, e3⟩ <;> subst e1
  · exact ⟨by simp, by simp [e3], .inl rfl⟩
  · exact ⟨fun _ => e3, by simp [e4], .inr e2⟩
  · exact ⟨by simp, by simp [e3], .inr e2⟩

/-- C19 (partial, as above): a call on one bit array never changes another one, however their storage was shared (except
for the one a move takes its content from). -/
theorem C19_independent_partial (w : Wld) (L : List (List Bool)) (h : Reach w L) (op : Op)
    (ok : Bool) (hpre : Pre L op) (hright : Right w L op) (r : Result) (w' : Wld)
    (hst : step ok w op = some (r, w')) (j : Nat) (hj : j ≠ op.target) (hj2 : some j ≠ op.other) :
    content w' j = content w j := by
  have hr := Reach.call op ok r w' h hpre hright hst
  rw [rel_content (reach_rel hr) j, rel_content (reach_rel h) j]
  have key : ∀ x : List Bool, (L.set op.target x)[j]? = L[j]? := by
    intro x; rw [List.getElem?_set_ne (fun hc => hj hc.symm)]
  split
  · cases op with
    | assignMove i k =>
      have hk : j ≠ k := fun hc => hj2 (by rw [hc]; rfl)
      show ((L.set k []).set i (get L k))[j]? = L[j]?
      have hj' : i ≠ j := fun hc => hj hc.symm
      rw [List.getElem?_set_ne hj', List.getElem?_set_ne (fun hc => hk hc.symm)]
    | _ => exact key _
  · rfl

/-- C19 (partial, as above): the counter of every impl that was not freed is exact and positive: it is freed exactly when
the last bit array that uses it goes away (nothing leaks), and an impl a bit array uses was not freed. -/
theorem C19_no_leak_no_dangling_partial (w : Wld) (L : List (List Bool)) (h : Reach w L) (a : Nat) :
    ((∃ i : Nat, w.vars[i]? = some (Core.dyn a)) ↔ ∃ b, w.block? a = some b) ∧
    (∀ b, w.block? a = some b → b.rc + 1 = b.base + refs w.vars a) := by
  have hr := reach_rel h
  refine ⟨⟨?_, ?_⟩, ?_⟩
  · rintro ⟨i, hi⟩
    exact hr.live a (by rw [List.append_nil]; exact refs_mem w.vars i a hi)
  · rintro ⟨b, hb⟩
    have := (hr.cnt a b hb).2.1
    rw [List.append_nil] at this
    obtain ⟨x, hx1, hx2⟩ := List.countP_pos_iff.1 this
    obtain ⟨i, hi⟩ := List.mem_iff_getElem?.1 hx1
    cases x with
    | sso s => simp at hx2
    | dyn b' =>
      simp only [is_dyn, beq_iff_eq] at hx2
      exact ⟨i, by rw [hi, hx2]⟩
  · intro b hb
    have := (hr.cnt a b hb).2.2
    rwa [List.append_nil] at this

/-- C19 (partial, as above): after `reserve(n)` returned success the bit array is mutable and has room for `n` bits. -/
theorem C19_reserve_partial (w : Wld) (L : List (List Bool)) (h : Reach w L) (ok : Bool) (i n : Nat) (hi : i < L.length) (hn : n < 2 ^ 32)
    (hr : Right w L (.reserve i n)) (w' : Wld) (hs : reserve ok w i n = some (.success, w')) : Room w' i n :=
  (reserve_ok ok (reach_rel h) hi n hn (by rw [← get_eq L i hi]; exact hr)).2 w' hs

/-! ### Queries -/

theorem data_ok {w : Wld} {L : List (List Bool)} (h : Reach w L) {i : Nat} {x : List Bool} (hi : L[i]? = some x) :
    ∃ d sso, data w i = some d ∧ Ok sso d x := by
  obtain ⟨hlt, rfl⟩ := List.getElem?_eq_some_iff.1 hi
  obtain ⟨V⟩ := view (reach_rel h) i hlt
  exact ⟨V.d, _, by simp only [data, V.hv, V.hd, Option.bind_eq_bind, Option.bind_some], V.hok⟩

/-- C19 (partial, as above): `cardinality()` is the number of ones, and `has_bit()` reads a bit. -/
theorem C19_cardinality_partial (w : Wld) (L : List (List Bool)) (h : Reach w L) (i : Nat) (x : List Bool) (hi : L[i]? = some x) :
    (data w i).bind cardinality = some (x.count true) ∧ ∀ k, (data w i).bind (hasBitAt · k) = some (decide (x[k]? = some true)) := by
  obtain ⟨d, sso, h1, h2⟩ := data_ok h hi
  rw [h1]
  refine ⟨cardinality_ok h2, fun k => ?_⟩
  show hasBitAt d k = _
  rw [hasBitAt_ok h2, lb]
  cases hx : x[k]? with
  | none => rfl
  | some z => cases z <;> rfl

/-- C19 (partial): the queries of a range are right unless they shift by too much, see the counterexamples. -/
theorem C19_range_queries_partial (w : Wld) (L : List (List Bool)) (h : Reach w L) (i : Nat) (x : List Bool) (hi : L[i]? = some x) (a b : Nat) :
    ((min b x.length ≤ a ∨ a < 32 ∨ a / 32 ≠ (min b x.length - 1) / 32) →
      (data w i).bind (cardinalityIn · a b) = some (((x.take b).drop a).count true)) ∧
    (RangeOk x.length a b → (data w i).bind (hasBitsIn · a b) = some (decide (true ∈ (x.take b).drop a))) := by
  obtain ⟨d, sso, h1, h2⟩ := data_ok h hi
  rw [h1]
  refine ⟨fun hc => cardinalityIn_ok h2 a b hc, fun hc => ?_⟩
  show hasBitsIn d a b = _
  rw [hasBitsIn_ok h2 a b hc]
  congr 1
  apply decide_eq_decide.2
  rw [List.mem_iff_getElem?]
  constructor
  · rintro ⟨k, k1, k2, k3⟩
    refine ⟨k - a, ?_⟩
    rw [List.getElem?_drop, show a + (k - a) = k by omega, List.getElem?_take, if_pos k1]
    unfold lb at k3
    cases hx : x[k]? with
    | none => rw [hx] at k3; simp at k3
    | some z => rw [hx] at k3; simp only [Option.getD_some] at k3; rw [k3]
  · rintro ⟨q, hq⟩
    rw [List.getElem?_drop, List.getElem?_take] at hq
    by_cases hc : a + q < b
    · rw [if_pos hc] at hq
      exact ⟨a + q, hc, by omega, by rw [lb, hq]; rfl⟩
    · rw [if_neg hc] at hq; simp at hq

/-- C19 (partial, as above): `get_range()` finds the first and one behind the last one. -/
theorem C19_get_range_partial (w : Wld) (L : List (List Bool)) (h : Reach w L) (i : Nat) (x : List Bool) (hi : L[i]? = some x) :
    ((data w i).bind range = some none ∧ true ∉ x) ∨
    (∃ a b, (data w i).bind range = some (some (a, b)) ∧ a < b ∧ x[a]? = some true ∧ x[b - 1]? = some true ∧
      ∀ k, x[k]? = some true → a ≤ k ∧ k < b) := by
  obtain ⟨d, sso, h1, h2⟩ := data_ok h hi
  rw [h1]
  have lbt : ∀ k, lb x k = true ↔ x[k]? = some true := by
    intro k; unfold lb
    cases x[k]? with
    | none => simp
    | some z => simp
  have ht : takeWords d (wordCount d.size) = some (d.words.take (wordCount d.size)) := by
    unfold takeWords; rw [if_pos (by rw [h2.size]; exact h2.words)]
  have hb : ∀ k, bit (d.words.take (wordCount d.size)) k = lb x k := by
    intro k
    rw [bit_take, h2.val]
    by_cases hk : k < 32 * wordCount d.size
    · rw [if_pos hk]
    · rw [if_neg hk, lb_ge _ _ (by rw [h2.size] at hk; unfold wordCount at hk; omega)]
  obtain ⟨f1, f2, f3, f4⟩ := BitOps.C41_first_last_bit .msb (by omega) (d.words.take (wordCount d.size))
  simp only [Option.bind_some, range, ht, Option.bind_eq_bind]
  have hnone : (∀ k, lb x k = false) → true ∉ x := by
    intro hall hm
    obtain ⟨k, hk⟩ := List.mem_iff_getElem?.1 hm
    have := (lbt k).2 hk
    rw [hall k] at this; simp at this
  cases ha : BitOps.firstBit .msb (d.words.take (wordCount d.size)) 0 with
  | none => left; exact ⟨rfl, hnone (fun k => by rw [← hb]; exact f2 ha k)⟩
  | some a =>
    obtain ⟨a1, a2, a3⟩ := f1 a ha
    cases hbb : BitOps.lastBit .msb (d.words.take (wordCount d.size)) with
    | none => left; exact ⟨rfl, hnone (fun k => by rw [← hb]; exact f4 hbb k)⟩
    | some b =>
      obtain ⟨b1, b2, b3⟩ := f3 b hbb
      right
      have hab : a ≤ b := by
        by_contra hc
        have := a3 b (by omega)
        rw [b2] at this; simp at this
      refine ⟨a, b + 1, rfl, by omega, (lbt a).1 (by rw [← hb]; exact a2), (lbt _).1 (by rw [← hb]; exact b2), ?_⟩
      intro k hk
      have hk' := (lbt k).2 hk
      rw [← hb] at hk'
      constructor
      · by_contra hc
        have := a3 k (by omega)
        rw [show BitOps.bitAt .msb (d.words.take (wordCount d.size)) k = true from hk'] at this; simp at this
      · by_contra hc
        have := b3 k (by omega)
        rw [show BitOps.bitAt .msb (d.words.take (wordCount d.size)) k = true from hk'] at this; simp at this

/-- Two queries of two bit arrays. -/
def both {α : Type} (w : Wld) (i j : Nat) (f : Data → Data → Option α) : Option α := do
  let a ← data w i
  let b ← data w j
  f a b

/-- C19 (partial, as above): `subsumes()`, `intersects()`, `equals()` and `compare()`.  The order is the lexicographic
one. -/
theorem C19_relations_partial (w : Wld) (L : List (List Bool)) (h : Reach w L) (i j : Nat) (x y : List Bool) (hi : L[i]? = some x) (hj : L[j]? = some y) :
    (∃ b, both w i j subsumes = some b ∧ (b = true ↔ ∀ k : Nat, y[k]? = some true → x[k]? = some true)) ∧
    (∃ b, both w i j intersects = some b ∧ (b = true ↔ ∃ k : Nat, x[k]? = some true ∧ y[k]? = some true)) ∧
    both w i j equals = some (decide (x = y)) ∧
    ∃ c, both w i j compare = some c ∧ SignOk c x y := by
  obtain ⟨d, s, h1, h2⟩ := data_ok h hi
  obtain ⟨e, t, h3, h4⟩ := data_ok h hj
  have lbt : ∀ (x : List Bool) k, lb x k = true ↔ x[k]? = some true := by
    intro x k; unfold lb
    cases x[k]? with
    | none => simp
    | some z => simp
  simp only [both, h1, h3, Option.bind_eq_bind, Option.bind_some]
  refine ⟨⟨_, subsumes_ok h2 h4, ?_⟩, ⟨_, intersects_ok h2 h4, ?_⟩, equals_ok h2 h4, compare_ok h2 h4⟩
  · rw [decide_eq_true_eq]
    constructor
    · intro hall k hk
      exact (lbt x k).1 (hall k (List.getElem?_eq_some_iff.1 hk).1 ((lbt y k).2 hk))
    · intro hall k _ hk
      exact (lbt x k).2 (hall k ((lbt y k).1 hk))
  · rw [decide_eq_true_eq]
    constructor
    · rintro ⟨k, _, k2, k3⟩; exact ⟨k, (lbt x k).1 k2, (lbt y k).1 k3⟩
    · rintro ⟨k, k2, k3⟩
      exact ⟨k, (List.getElem?_eq_some_iff.1 k2).1, (lbt x k).2 k2, (lbt y k).2 k3⟩

/-! ### Counterexamples -/

/-- Running a program on two bit arrays, every call getting memory. -/
def run (w : Wld) : List Op → Option Wld
  | [] => some w
  | op :: ops => do
    let (_, w) ← step true w op
    run w ops

def show2 (ops : List Op) : Option (List Bool × List Bool) := do
  let w ← run (initial 2) ops
  let a ← content w 0
  let b ← content w 1
  return (a, b)

/-- Modifying a shared bit array of at most 96 bits forgets its bits: only the one that was set is left. -/
theorem C19_counterexample_modify_shared :
    show2 [.reserve 0 200, .appendWords 0 [0xF0000000#32], .assignWeak 1 0, .setBit 0 31] =
      some ((List.replicate 32 false).set 31 true, List.replicate 4 true ++ List.replicate 28 false) := by decide +kernel

/-- Modifying a larger shared bit array reads words nobody wrote. -/
theorem C19_counterexample_modify_shared_large :
    show2 [.reserve 0 200, .appendWords 0 [1, 2, 3, 4], .assignWeak 1 0, .setBit 0 31] = none ∧
    (show2 [.reserve 0 200, .appendWords 0 [1, 2, 3, 4], .assignWeak 1 0]).isSome = true := by decide +kernel

/-- `assign_words` with more than three words makes the bit array empty. -/
theorem C19_counterexample_assign_words :
    show2 [.assignWords 0 [1, 2, 3, 4]] = some ([], []) ∧ show2 [.reserve 0 200, .assignWords 0 [1]] = some ([], []) := by decide +kernel

/-- Growing a bit array to more than 96 bits with `resize` reads words nobody wrote. -/
theorem C19_counterexample_resize : show2 [.resize 0 200] = none := by decide +kernel

/-- `reserve(n)` of a shared bit array with more than `n` bits overflows the new impl. -/
theorem C19_counterexample_reserve :
    show2 [.reserve 0 200, .appendWords 0 [1, 2, 3, 4], .assignWeak 1 0, .reserve 0 20] = none := by decide +kernel

/-- Appending a word to 20 bits reads behind the appended words. -/
theorem C19_counterexample_append : show2 [.resize 0 20, .appendWords 0 [0xFFFFFFFF#32]] = none := by decide +kernel

/-- `fill_words` at bit 4 of 42 bits sets bits 4 to 35 only, although it is given 64 ones. -/
theorem C19_counterexample_fill_words :
    show2 [.resize 0 42, .combine 0 .or 4 [0xFFFFFFFF#32, 0xFFFFFFFF#32]] =
      some (List.replicate 4 false ++ List.replicate 32 true ++ List.replicate 6 false, []) := by decide +kernel

/-- Without words it reads the first one. -/
theorem C19_counterexample_no_words : show2 [.resize 0 42, .combine 0 .or 4 []] = none := by decide +kernel

/-- The queries of a range shift by 32 or more. -/
theorem C19_counterexample_range :
    ((run (initial 2) [.resize 0 96]).bind fun w => (data w 0).bind (cardinalityIn · 40 50)) = none ∧
    ((run (initial 2) [.resize 0 96]).bind fun w => (data w 0).bind (hasBitsIn · 40 50)) = none ∧
    ((run (initial 2) [.resize 0 96]).bind fun w => (data w 0).bind (hasBitsIn · 0 32)) = none := by decide +kernel

/-! ### A program that meets the hypotheses -/

/-- Running a program as the specification says it. -/
def runSpec (L : List (List Bool)) : List Op → List (List Bool)
  | [] => L
  | op :: ops => runSpec (apply L op) ops

/-- Bit array 0 grows to 132 bits, is shared with bit array 1, then grows and changes on its own. -/
def demo : List Op :=
  [.resize 0 4, .setBit 0 1, .appendWords 0 [0x80000001#32], .appendBit 0 true, .reserve 0 300, .resize 0 132,
   .fillRange 0 30 70, .assignWeak 1 0, .appendBit 0 true, .clearRange 0 35 40]

/-- The program behaves as specified. -/
example : show2 demo = ((runSpec [[], []] demo)[0]?).bind (fun a => ((runSpec [[], []] demo)[1]?).map (fun b => (a, b))) := by decide +kernel

/-- A state in which two bit arrays share an impl is reachable, and calls on it are right. -/
example : ∃ w, Reach w [[true, false], [true]] ∧ w.vars[0]? ≠ w.vars[1]? ∧ Right w [[true, false], [true]] (.setBit 0 1) := by
  have h0 := Reach.init 2
  have h1 := Reach.call (.reserve 0 300) true .success ((run (initial 2) [.reserve 0 300]).getD (initial 2)) h0
    ⟨by decide, show 300 < 2 ^ 32 by decide⟩ (.inr (by decide)) (by decide +kernel)
  have h2 := Reach.call (.appendBit 0 true) true .success ((run (initial 2) [.reserve 0 300, .appendBit 0 true]).getD (initial 2)) h1
    ⟨by decide, trivial⟩ (.inl (by decide)) (by decide +kernel)
  have h3 := Reach.call (.assignWeak 1 0) true .success ((run (initial 2) [.reserve 0 300, .appendBit 0 true, .assignWeak 1 0]).getD (initial 2)) h2
    ⟨by decide, show 0 < 2 by decide⟩ trivial (by decide +kernel)
  have h4 := Reach.call (.appendBit 0 false) true .success
    ((run (initial 2) [.reserve 0 300, .appendBit 0 true, .assignWeak 1 0, .appendBit 0 false]).getD (initial 2)) h3
    ⟨by decide, trivial⟩ (.inl (by decide)) (by decide +kernel)
  exact ⟨_, h4, by decide +kernel, ⟨.dyn 1, by decide +kernel, by decide +kernel⟩⟩

/-- The steps of `demo` that are conditional are right: their conditions are decidable ones on sizes. -/
example : CombineOk (4 + 32) 4 [0x80000001#32] ∧ RangeOk 132 30 70 ∧ ¬ RangeOk 132 30 64 := by decide

end Blend2D.BitArr
