import Verif.Str.Ops2
import Verif.Arr.Ops3
/-! # The operations of `BLString` keep the relation (inserting, removing, copying) -/
namespace Blend2D.Str
open Cow
open Blend2D.Arr (Result Src ModifyOp rd wr move copy masked uaddSat expand implMaxSize implMaxSize_eq le_expand expand_le)

/-- A new impl, in terms of what will be stored to it. -/
theorem dyn_new (ok : Bool) (s n : Nat) (hs : 17 + n ≤ s) :
    (initDynamic ok s n = some none ∧ (ok = false ∨ implMaxSize < s)) ∨
    (∃ d, initDynamic ok s n = some (some d) ∧ n < d.cells.length ∧ ∀ (c x : Cells), x.length = n →
      c.length = d.cells.length → (∀ k, n ≤ k → c[k]? = d.cells[k]?) → (∀ k, k < n → c[k]? = x[k]?) →
      New.ok (.dyn { d with cells := c }) x) := by
  rcases initDynamic_cases ok s n hs with h | ⟨d, h1, h2, h3, h4⟩
  · exact .inl h
  · refine .inr ⟨d, h1, h3.len.1, ?_⟩
    intro c x hx hl hge hlt
    exact ⟨by rw [hx]; exact h2, by rw [hx]; exact h3.mono hl hge, by rw [hx]; exact hlt⟩

theorem read_spec {w : Wld} {i : Nat} {l : Cells} (V : View w i l) (str : Src UInt8) (hs : str.Ok l) :
    ∃ xs, str.read V.u.cells = some xs ∧ xs = str.val l ∧ xs.length = str.len := by
  have hl := V.len
  cases str with
  | ext x b => exact ⟨_, rfl, rfl, by simp [Src.len]⟩
  | own off n =>
    have hs : off + n ≤ l.length := hs
    obtain ⟨r, r1, r2, r3⟩ := rd_spec V.u.cells off n (by omega)
    refine ⟨r, r1, ?_, r2⟩
    apply List.ext_getElem?
    intro k
    rw [r3]
    simp only [Src.val, List.getElem?_take, List.getElem?_drop]
    by_cases hk : k < n
    · rw [if_pos hk, if_pos hk, V.hok.val _ (by omega)]
    · rw [if_neg hk, if_neg hk]

section
variable (ok : Bool) {w : Wld} {L : List Cells} (h : R w L) {i : Nat} (hi : i < L.length)
include h hi

/-- The result of an insertion, cell by cell. -/
theorem insertOp_ok (idx n : Nat) (hidx : idx ≤ L[i].length) :
    ∃ res w', insertOp ok w i idx n = some (res, w') ∧
      ((res = .success ∧ Mut w' i ∧ ∃ g, g.length = n ∧ R w' (L.set i (L[i].take idx ++ (g ++ L[i].drop idx)))) ∨
      (res = .outOfMemory ∧ w' = w ∧ (ok = false ∨ implMaxSize < 2 * (18 + (L[i].length + n))))) := by
  obtain ⟨V⟩ := view h i hi
  have hl := V.len
  have hti : (L[i].take idx).length = idx := by rw [List.length_take]; omega
  have hval := V.hok.val
  -- the cells of the result
  have key : ∀ (c : Cells) (k : Nat), k < L[i].length + n → L[i].length + n ≤ c.length →
      (k < idx → c[k]? = L[i][k]?) → (idx + n ≤ k → c[k]? = L[i][k - n]?) →
      c[k]? = (L[i].take idx ++ ((c.drop idx).take n ++ L[i].drop idx))[k]? := by
    intro c k hk hc h1 h2
    rw [List.getElem?_append, hti]
    by_cases hki : k < idx
    · rw [if_pos hki, List.getElem?_take, if_pos hki, h1 hki]
    · have hgl : ((c.drop idx).take n).length = n := by rw [List.length_take, List.length_drop]; omega
      rw [if_neg hki, List.getElem?_append, hgl]
      by_cases hkn : k - idx < n
      · rw [if_pos hkn, List.getElem?_take, if_pos hkn, List.getElem?_drop]; congr 1; omega
      · rw [if_neg hkn, List.getElem?_drop, h2 (by omega)]; congr 1; omega
  have hlen : ∀ (c : Cells), L[i].length + n ≤ c.length → ((c.drop idx).take n).length = n ∧
      (L[i].take idx ++ ((c.drop idx).take n ++ L[i].drop idx)).length = L[i].length + n := by
    intro c hc
    have hgl : ((c.drop idx).take n).length = n := by rw [List.length_take, List.length_drop]; omega
    refine ⟨hgl, ?_⟩
    rw [List.length_append, List.length_append, hti, hgl, List.length_drop]; omega
  simp only [insertOp, V.hv, V.hu, V.hm, Option.bind_eq_bind, Option.bind_some, V.hok.size]
  rw [if_neg (show ¬ idx > L[i].length by omega)]
  by_cases hmc : masked (uaddSat L[i].length n) V.m > V.u.cap
  · rw [if_pos hmc]
    by_cases hx : uaddSat L[i].length n > maxSize
    · rw [if_pos hx]
      exact ⟨_, _, rfl, .inr ⟨rfl, rfl, .inr (uaddSat_lim _ _ hx)⟩⟩
    · rw [if_neg hx]
      have hk : uaddSat L[i].length n = L[i].length + n := uaddSat_of _ _ (by omega)
      rw [hk] at hx ⊢
      rw [implSize_of _ (by omega)]
      rcases dyn_new ok (expand (17 + (L[i].length + n))) (L[i].length + n) (le_expand _) with ⟨h1, h2⟩ | ⟨d, h1, h2, h3⟩
      · simp only [h1, Option.bind_some]
        exact ⟨_, _, rfl, .inr ⟨rfl, rfl, h2.imp id (fun hh => by have := expand_lim _ hh; omega)⟩⟩
      · obtain ⟨a, a1, a2, a3⟩ := rd_spec V.u.cells 0 idx (by omega)
        obtain ⟨b, b1, b2, b3⟩ := rd_spec V.u.cells idx (L[i].length - idx) (by omega)
        obtain ⟨c, c1, c2, c3⟩ := wr_spec d.cells a 0 (by omega)
        obtain ⟨e, e1, e2, e3⟩ := wr_spec c b (idx + n) (by omega)
        obtain ⟨g1, g2⟩ := hlen e (by omega)
        have hok := h3 e _ g2 (by omega) (fun k hk => by rw [e3, if_neg (by omega), c3, if_neg (by omega)]) (fun k hk => key e k hk (by omega)
          (fun hki => by rw [e3, if_neg (by omega), c3, if_pos (by omega), a3, if_pos (by omega), ← hval k (by omega)]; simp)
          (fun hki => by
            rw [e3, if_pos (by omega), b3, if_pos (by omega), hval _ (by omega)]; congr 1; omega))
        obtain ⟨w', q1, q2, q3⟩ := install_ok h hi _ _ hok
        simp only [h1, a1, b1, c1, e1, q1, Option.bind_some]
        exact ⟨_, _, rfl, .inl ⟨rfl, q3.mut, _, g1, q2⟩⟩
  · rw [if_neg hmc]
    obtain ⟨m1, m2⟩ := (masked_gt V _).1 hmc
    have hk : uaddSat L[i].length n = L[i].length + n := uaddSat_small _ _ (by omega)
    rw [hk] at m2 ⊢
    have h15 : isSso V.v = true → V.u.cells.length = 15 := fun hc => (V.sso hc).1
    have g0 := fun k => setSize_get V.v V.u (L[i].length + n) k h15
    have gl := setSize_len V.v V.u (L[i].length + n)
    obtain ⟨c, c1, c2, c3⟩ := move_spec (setSize V.v V.u (L[i].length + n)).cells (idx + n) idx (L[i].length - idx) (by omega) (by omega)
    obtain ⟨e, e1, e2, e3⟩ := wr_spec c [some 0] (L[i].length + n) (by simp; omega)
    simp only [List.length_cons, List.length_nil] at e3
    obtain ⟨p1, p2⟩ := hlen e (by omega)
    have hg : ∀ k, k < L[i].length → (setSize V.v V.u (L[i].length + n)).cells[k]? = L[i][k]? := by
      intro k hk
      rw [g0, if_neg (by rintro ⟨q1, q2⟩; have := V.sso q1; omega), hval k hk]
    have hok : Ok (isSso V.v) { setSize V.v V.u (L[i].length + n) with cells := e } (L[i].take idx ++ ((e.drop idx).take n ++ L[i].drop idx)) := by
      refine ok_inplace V _ _ (by rw [p2]; exact setSize_size ..) (by simp only; omega) ?_ ?_ (by rw [p2]; exact m2) ?_
      · rw [p2]; simp only; rw [e3, if_pos (by omega)]; simp
      · intro hc
        have h16 := V.sso hc
        rw [p2]
        simp only
        rw [e3]
        by_cases hf : L[i].length + n = 14
        · rw [if_pos (by omega), hf, ssoCode_full]; simp
        · rw [if_neg (by omega), c3, if_neg (by omega), g0, if_pos ⟨hc, rfl⟩]
      · rw [p2]
        intro k hk
        refine key e k hk (by omega) ?_ ?_
        · intro hki
          rw [e3, if_neg (by omega), c3, if_neg (by omega), hg k (by omega)]
        · intro hki
          rw [e3, if_neg (by omega), c3, if_pos (by omega), hg _ (by omega)]; congr 1; omega
    obtain ⟨w', q1, q2, q3⟩ := commit_ok h hi V m1 _ _ hok
    simp only [c1, e1, q1, Option.bind_some]
    exact ⟨_, _, rfl, .inl ⟨rfl, q3.mut, _, p1, q2⟩⟩

theorem removeRange_ok (a b : Nat) : Good w L i (L[i].take (min a (min b L[i].length)) ++ L[i].drop (min b L[i].length)) ok
    L[i].length (removeRange ok w i a b) := by
  obtain ⟨V⟩ := view h i hi
  have hl := V.len
  have hval := V.hok.val
  unfold Good
  simp only [removeRange, V.hv, V.hu, Option.bind_eq_bind, Option.bind_some, V.hok.size]
  obtain ⟨stop, hstop⟩ : ∃ s, s = min b L[i].length := ⟨_, rfl⟩
  obtain ⟨idx, hidx⟩ : ∃ s, s = min a stop := ⟨_, rfl⟩
  rw [← hstop, ← hidx]
  by_cases h0 : stop - idx = 0
  · rw [if_pos h0]
    have : idx = stop := by omega
    rw [this, List.take_append_drop, set_same]
    exact ⟨_, _, rfl, .inl ⟨rfl, h⟩⟩
  · rw [if_neg h0]
    obtain ⟨x, hx⟩ : ∃ x, x = L[i].take idx ++ L[i].drop stop := ⟨_, rfl⟩
    rw [← hx]
    have hxl : x.length = L[i].length - (stop - idx) := by
      rw [hx, List.length_append, List.length_take, List.length_drop]; omega
    have hxk : ∀ k, k < x.length → x[k]? = if k < idx then L[i][k]? else L[i][k + (stop - idx)]? := by
      intro k hk
      rw [hx, List.getElem?_append, List.length_take, show min idx L[i].length = idx by omega]
      by_cases hc : k < idx
      · rw [if_pos hc, if_pos hc, List.getElem?_take, if_pos hc]
      · rw [if_neg hc, if_neg hc, List.getElem?_drop]; congr 1; omega
    have hz : V.u.cells[L[i].length]? = some (some 0) := V.hok.shape.1
    cases hv : V.v with
    | sso s =>
      have hsso : isSso V.v = true := by rw [hv]; rfl
      have h15 := V.sso hsso
      have hm : V.m = true := V.hsm hsso
      obtain ⟨c, c1, c2, c3⟩ := move_spec V.u.cells idx (idx + (stop - idx)) (L[i].length - stop) (by omega) (by omega)
      obtain ⟨e, e1, e2, e3⟩ := wr_spec c (List.replicate (ssoCap - (L[i].length - (stop - idx))) (some 0)) (L[i].length - (stop - idx))
        (by simp [ssoCap]; omega)
      simp only [List.length_replicate, ssoCap] at e3
      have hok := ok_setSize V e x (by omega) (by rw [hxl, e3, if_pos (by omega), List.getElem?_replicate, if_pos (by omega)]) (by omega) (by
        intro k hk
        rw [hxk k hk, e3, if_neg (by omega), c3]
        by_cases hc : k < idx
        · rw [if_pos hc, if_neg (by omega), hval k (by omega)]
        · rw [if_neg hc, if_pos (by omega), hval _ (by omega)]; congr 1; omega)
      rw [hxl] at hok
      obtain ⟨w', q1, q2, q3⟩ := commit_ok h hi V hm _ _ hok
      rw [hv] at q1
      simp only [c1, e1, q1, Option.bind_some]
      exact ⟨_, _, rfl, .inl ⟨rfl, q2⟩⟩
    | dyn ad =>
      have hhm := V.hm
      rw [hv] at hhm
      simp only [hhm, Option.bind_some]
      by_cases hm : V.m = true
      · rw [if_pos hm]
        obtain ⟨c, c1, c2, c3⟩ := move_spec V.u.cells idx (idx + (stop - idx)) (L[i].length - stop + 1) (by omega) (by omega)
        have hok : Ok (isSso V.v) ⟨L[i].length - (stop - idx), c⟩ x := by
          refine ok_inplace V _ _ hxl.symm (by simp only; omega) ?_ (by rw [hv]; simp [isSso]) (by omega) ?_
          · simp only; rw [hxl, c3, if_pos (by omega), ← hz]; congr 1; omega
          · intro k hk
            simp only
            rw [hxk k hk, c3]
            by_cases hc : k < idx
            · rw [if_pos hc, if_neg (by omega), hval k (by omega)]
            · rw [if_neg hc, if_pos (by omega), hval _ (by omega)]; congr 1; omega
        obtain ⟨w', q1, q2, q3⟩ := commit_ok h hi V hm _ _ hok
        simp only [c1, q1, Option.bind_some]
        exact ⟨_, _, rfl, .inl ⟨rfl, q2⟩⟩
      · rw [if_neg hm]
        rcases initString_cases ok (L[i].length - (stop - idx)) (by omega) with ⟨h1, h2⟩ | ⟨y, h1, h2, h3, h4⟩
        · simp only [h1, Option.bind_some]
          exact ⟨_, _, rfl, .inr ⟨rfl, rfl, h2.imp id (by omega)⟩⟩
        · obtain ⟨a', a1, a2, a3⟩ := rd_spec V.u.cells 0 idx (by omega)
          obtain ⟨b', b1, b2, b3⟩ := rd_spec V.u.cells stop (L[i].length - stop) (by omega)
          obtain ⟨c, c1, c2, c3⟩ := wr_spec y.cells a' 0 (by omega)
          obtain ⟨e, e1, e2, e3⟩ := wr_spec c b' idx (by omega)
          have hok := h4 e x hxl (by omega) (h2.mono (by omega) (fun k hk => by rw [e3, if_neg (by omega), c3, if_neg (by omega)])) (by
            intro k hk
            rw [hxk k (by omega), e3]
            by_cases hc : k < idx
            · rw [if_pos hc, if_neg (by omega), c3, if_pos (by omega), a3, if_pos (by omega), ← hval k (by omega)]; simp
            · rw [if_neg hc, if_pos (by omega), b3, if_pos (by omega), hval _ (by omega)]; congr 1; omega)
          obtain ⟨w', q1, q2, q3⟩ := install_ok h hi _ _ hok
          simp only [h1, a1, b1, c1, e1, q1, Option.bind_some]
          exact ⟨_, _, rfl, .inl ⟨rfl, q2⟩⟩

theorem resize_ok (n : Nat) (f : UInt8) : Good w L i (L[i].take n ++ List.replicate (n - L[i].length) (some f)) ok n (resize ok w i n f) := by
  obtain ⟨V⟩ := view h i hi
  have hl := V.len
  have hval := V.hok.val
  unfold Good
  simp only [resize, V.hv, V.hu, Option.bind_eq_bind, Option.bind_some, V.hok.size]
  by_cases hn : n ≤ L[i].length
  · rw [if_pos hn, show n - L[i].length = 0 by omega, List.replicate_zero, List.append_nil]
    have htl : (L[i].take n).length = n := by rw [List.length_take]; omega
    by_cases he : n = L[i].length
    · rw [if_pos he, he, List.take_length, set_same]
      exact ⟨_, _, rfl, .inl ⟨rfl, h⟩⟩
    · rw [if_neg he]
      simp only [V.hm, Option.bind_some]
      by_cases hm : V.m = true
      · rw [if_neg (by simp [hm])]
        cases hv : V.v with
        | sso s =>
          have h15 := V.sso (by rw [hv]; rfl)
          obtain ⟨c, c1, c2, c3⟩ := wr_spec V.u.cells (List.replicate (L[i].length - n) (some 0)) n (by simp; omega)
          simp only [List.length_replicate] at c3
          have hok := ok_setSize V c (L[i].take n) (by omega) (by rw [htl, c3, if_pos (by omega), List.getElem?_replicate, if_pos (by omega)]) (by omega) (by
            rw [htl]; intro k hk
            rw [c3, if_neg (by omega), hval k (by omega), List.getElem?_take, if_pos hk])
          rw [htl] at hok
          obtain ⟨w', q1, q2, q3⟩ := commit_ok h hi V hm _ _ hok
          rw [hv] at q1
          simp only [c1, q1, Option.bind_some]
          exact ⟨_, _, rfl, .inl ⟨rfl, q2⟩⟩
        | dyn ad =>
          obtain ⟨c, c1, c2, c3⟩ := wr_spec V.u.cells [some 0] n (by simp; omega)
          simp only [List.length_cons, List.length_nil] at c3
          have hok : Ok (isSso V.v) ⟨n, c⟩ (L[i].take n) := by
            refine ok_inplace V _ _ htl.symm (by simp only; omega) (by simp only; rw [htl, c3, if_pos (by omega)]; simp) (by rw [hv]; simp [isSso]) (by omega) ?_
            rw [htl]; intro k hk
            simp only
            rw [c3, if_neg (by omega), hval k (by omega), List.getElem?_take, if_pos hk]
          obtain ⟨w', q1, q2, q3⟩ := commit_ok h hi V hm _ _ hok
          simp only [c1, q1, Option.bind_some]
          exact ⟨_, _, rfl, .inl ⟨rfl, q2⟩⟩
      · simp only [Bool.not_eq_true] at hm
        rw [hm]
        simp only [Bool.not_false, if_true]
        rcases copy_new ok h hi V n hn with ⟨e1, e2⟩ | ⟨x, old, c, w', e1, e2, e3, e4, e5, _⟩
        · simp only [e1, Option.bind_some]; exact ⟨_, _, rfl, .inr ⟨rfl, rfl, e2⟩⟩
        · simp only [e1, e2, e3, e4, Option.bind_some]
          exact ⟨_, _, rfl, .inl ⟨rfl, e5⟩⟩
  · rw [if_neg hn, List.take_of_length_le (by omega)]
    obtain ⟨res, st, w', a1, a2⟩ := modifyOp_ok ok h hi { assign := false, grow := false } (n - L[i].length)
    simp only [a1, Option.bind_some]
    simp only [Bool.false_eq_true, if_false] at a2
    rcases a2 with ⟨e1, e2, e3, g, e4, e5⟩ | ⟨e1, e2, e3⟩
    · subst e1; subst e2
      simp only [ne_eq, not_true_eq_false, if_false]
      have hi' : i < (L.set i (L[i] ++ g)).length := by simpa using hi
      have hget : (L.set i (L[i] ++ g))[i] = L[i] ++ g := List.getElem_set_self hi'
      obtain ⟨w2, y1, y2⟩ := fillAt_ok e5 hi' e3 L[i].length (List.replicate (n - L[i].length) f) (by rw [hget]; simp [e4])
        (L[i] ++ List.replicate (n - L[i].length) (some f)) (by rw [hget]; simp [e4]) (by
          intro k hk
          rw [List.length_append, List.length_replicate] at hk
          rw [hget, List.length_replicate, List.map_replicate, List.getElem?_append]
          by_cases hc : k < L[i].length
          · rw [if_pos hc, if_neg (by omega), List.getElem?_append, if_pos hc]
          · rw [if_neg hc, if_pos (by omega)])
      rw [List.set_set] at y2
      simp only [y1, Option.bind_some]
      exact ⟨_, _, rfl, .inl ⟨rfl, y2⟩⟩
    · subst e1; subst e2
      simp only [ne_eq, reduceCtorEq, not_false_eq_true, if_true]
      exact ⟨_, _, rfl, .inr ⟨rfl, rfl, e3.imp id (by omega)⟩⟩

end
end Blend2D.Str
