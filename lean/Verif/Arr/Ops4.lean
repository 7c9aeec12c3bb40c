import Verif.Arr.Ops3
/-! # The operations of `BLArray` keep the relation (insertion, replacement and removal) -/
namespace Blend2D.Arr
open Cow

variable {α : Type}

section
variable (c : Cfg α) (hp : 0 < c.itemSize) (ok : Bool) {w : Wld α} {L : List (List (Option α))} (h : R c w L) {i : Nat}
  (hi : i < L.length)
include h hi

include hp in
theorem insertOp_ok (idx n : Nat) (hidx : idx ≤ L[i].length) :
    ∃ res w', insertOp c ok w i idx n = some (res, w') ∧
      ((res = .success ∧ Mut w' i ∧ ∃ g, g.length = n ∧ R c w' (L.set i (L[i].take idx ++ (g ++ L[i].drop idx)))) ∨
      (res = .outOfMemory ∧ w' = w ∧ (ok = false ∨ implMaxSize < 2 * (25 + (L[i].length + n) * c.itemSize)))) := by
  obtain ⟨V⟩ := view c h i hi
  simp only [insertOp, V.hv, V.hu, V.hm, Option.bind_eq_bind, Option.bind_some, V.hs]
  rw [if_neg (show ¬ idx > L[i].length by omega)]
  have hti : (L[i].take idx).length = idx := by rw [List.length_take]; omega
  have r1 : rd V.u.cells 0 idx = some (L[i].take idx) := by rw [V.hc, rd_app _ _ _ _ (by omega)]; simp
  have r2 : rd V.u.cells idx (L[i].length - idx) = some (L[i].drop idx) := by
    rw [V.hc, rd_app _ _ _ _ (by omega)]
    rw [List.take_of_length_le (by rw [List.length_drop]; omega)]
  by_cases hmc : masked (uaddSat L[i].length n) V.m > V.u.cells.length
  · rw [if_pos hmc]
    by_cases hx : uaddSat L[i].length n > c.maxCap
    · rw [if_pos hx]
      exact ⟨_, _, rfl, .inr ⟨rfl, rfl, .inr (uaddSat_gt c hp _ _ hx)⟩⟩
    · rw [if_neg hx]
      have hk : uaddSat L[i].length n = L[i].length + n := uaddSat_le c hp _ _ (by omega)
      rw [hk] at hx ⊢
      -- both kinds of a new buffer
      have key : (∃ sso d, (if L[i].length + n ≤ c.ssoCap then some (true, c.static (L[i].length + n))
          else (c.initDynamic ok (L[i].length + n) (expand (c.implSize (L[i].length + n)))).map (fun d => (false, d))) = some (sso, d) ∧
          d.size = L[i].length + n ∧ L[i].length + n ≤ d.cells.length ∧ (sso = true → d.cells.length = c.ssoCap) ∧
          (sso = false → d.cells.length * c.itemSize ≤ 2 ^ 63)) ∨
          ((if L[i].length + n ≤ c.ssoCap then some (true, c.static (L[i].length + n))
          else (c.initDynamic ok (L[i].length + n) (expand (c.implSize (L[i].length + n)))).map (fun d => (false, d))) = none ∧
          (ok = false ∨ implMaxSize < 2 * (25 + (L[i].length + n) * c.itemSize))) := by
        by_cases hso : L[i].length + n ≤ c.ssoCap
        · rw [if_pos hso]
          exact .inl ⟨true, _, rfl, rfl, by simpa [Cfg.static] using hso, by simp [Cfg.static], by simp⟩
        · rw [if_neg hso]
          rcases grow_cases c hp ok (L[i].length + n) (by omega) with ⟨d, e1, e2, e3, e4⟩ | ⟨e1, e2⟩
          · exact .inl ⟨false, d, by rw [e1]; rfl, e2, e3, by simp, fun _ => e4⟩
          · exact .inr ⟨by rw [e1]; rfl, e2⟩
      rcases key with ⟨sso, d, e1, e2, e3, e4, e5⟩ | ⟨e1, e2⟩
      · simp only [e1]
        have hdl : (L[i].drop idx).length = L[i].length - idx := List.length_drop
        have f1 := wr_zero d.cells (L[i].take idx) (by omega)
        obtain ⟨d1, hd1⟩ : ∃ d1, d1 = d.cells.drop (L[i].take idx).length := ⟨_, rfl⟩
        rw [← hd1] at f1
        have hl1 : d1.length = d.cells.length - idx := by rw [hd1, List.length_drop, hti]
        have f2 := wr_app (L[i].take idx ++ d1.take n) (d1.drop n) (L[i].drop idx) (idx + n)
          (by rw [List.length_append, List.length_take (l := d1), hti]; omega) (by rw [hdl, List.length_drop]; omega)
        rw [List.append_assoc, List.take_append_drop] at f2
        have hfin : L[i].take idx ++ d1.take n ++ (L[i].drop idx ++ (d1.drop n).drop (L[i].drop idx).length)
            = (L[i].take idx ++ (d1.take n ++ L[i].drop idx)) ++ (d1.drop n).drop (L[i].drop idx).length := by simp
        have hlen := (wr_len f2).trans (wr_len f1)
        obtain ⟨w1, w', q1, q2, q3, v', q4, _, q5⟩ := moved_install c h hi V V.m id sso { d with cells := _ } (L[i].take idx ++ (d1.take n ++ L[i].drop idx))
          (fun hc => by simp only; rw [hlen]; exact e4 hc) (fun hc => by simp only; rw [hlen]; exact e5 hc)
          ⟨by simp only [List.length_append, hti, hdl, List.length_take (l := d1)]; omega, _, hfin⟩
        simp only [r1, r2, f1, f2, q1, q2, Option.bind_some]
        exact ⟨_, _, rfl, .inl ⟨rfl, ⟨v', q4, q5⟩, d1.take n, by rw [List.length_take]; omega, q3⟩⟩
      · simp only [e1]
        exact ⟨_, _, rfl, .inr ⟨rfl, rfl, e2⟩⟩
  · rw [if_neg hmc]
    obtain ⟨m1, m2, m3⟩ := uaddSat_fit c hp hi V L[i].length n (by omega)
    obtain ⟨t, ht⟩ : ∃ t, V.u.cells = L[i] ++ t := ⟨_, V.hc⟩
    have htl : n ≤ t.length := by rw [ht, List.length_append] at m2; omega
    obtain ⟨M, hM, hmv⟩ := move_gap L[i] t idx n hidx htl
    rw [ht, hmv, m3]
    obtain ⟨w', q1, q2, ⟨v', q3, _, q4⟩, _⟩ := put_ok c h hi V m1 ⟨L[i].length + n, L[i].take idx ++ (M ++ (L[i].drop idx ++ t.drop n))⟩
      (L[i].take idx ++ (M ++ L[i].drop idx))
      (by rw [ht]; simp only [List.length_append, hti, hM, List.length_drop]; omega)
      ⟨by simp only [List.length_append, hti, hM, List.length_drop]; omega, t.drop n, by simp⟩
    simp only [q1, Option.bind_some]
    exact ⟨_, _, rfl, .inl ⟨rfl, ⟨v', q3, q4⟩, M, hM, q2⟩⟩

include hp in
theorem appendData_ok (s : Src α) (hs : s.Ok L[i]) :
    Good c w L i (L[i] ++ s.val L[i]) ok (L[i].length + s.len) (appendData c ok w i s) := by
  obtain ⟨V⟩ := view c h i hi
  unfold Good
  have hvl := s.val_len L[i] hs
  obtain ⟨t, ht⟩ : ∃ t, V.u.cells = L[i] ++ t := ⟨_, V.hc⟩
  have r1 : rd V.u.cells 0 L[i].length = some L[i] := by rw [ht]; exact rd_all _ _
  have r2 : s.read V.u.cells = some (s.val L[i]) := by rw [ht]; exact s.read_ok _ _ hs
  simp only [appendData, V.hv, V.hu, V.hm, Option.bind_eq_bind, Option.bind_some, V.hs]
  by_cases hmc : masked (uaddSat L[i].length s.len) V.m > V.u.cells.length
  · rw [if_pos hmc]
    by_cases hx : uaddSat L[i].length s.len > c.maxCap
    · rw [if_pos hx]
      exact ⟨_, _, rfl, .inr ⟨rfl, rfl, .inr (uaddSat_gt c hp _ _ hx)⟩⟩
    · rw [if_neg hx]
      have hk : uaddSat L[i].length s.len = L[i].length + s.len := uaddSat_le c hp _ _ (by omega)
      rw [hk] at hx ⊢
      rcases grow_cases c hp ok (L[i].length + s.len) (by omega) with ⟨d, e1, e2, e3, e4⟩ | ⟨e1, e2⟩
      · have f1 := wr_zero d.cells L[i] (by omega)
        have f2 := wr_app L[i] (d.cells.drop L[i].length) (s.val L[i]) L[i].length rfl (by rw [List.length_drop]; omega)
        have hlen := (wr_len f2).trans (wr_len f1)
        obtain ⟨w1, w', q1, q2, q3, _⟩ := moved_install c h hi V V.m id false { d with cells := _ } (L[i] ++ s.val L[i])
          (by simp) (fun hc => by simp only; rw [hlen]; exact e4)
          ⟨by simp only [List.length_append]; omega, _, (List.append_assoc ..).symm⟩
        simp only [e1, r1, r2, f1, f2, q1, q2, Option.bind_some]
        exact ⟨_, _, rfl, .inl ⟨rfl, q3⟩⟩
      · simp only [e1]
        exact ⟨_, _, rfl, .inr ⟨rfl, rfl, e2⟩⟩
  · rw [if_neg hmc]
    obtain ⟨m1, m2, m3⟩ := uaddSat_fit c hp hi V L[i].length s.len (by omega)
    have htl : s.len ≤ t.length := by rw [ht, List.length_append] at m2; omega
    rw [ht, Src.copyTo_ok s L[i] t hs htl, m3]
    obtain ⟨w', q1, q2, _⟩ := put_ok c h hi V m1 ⟨L[i].length + s.len, L[i] ++ (s.val L[i] ++ t.drop s.len)⟩ (L[i] ++ s.val L[i])
      (by rw [ht]; simp only [List.length_append, List.length_drop]; omega)
      ⟨by simp only [List.length_append]; omega, t.drop s.len, by simp⟩
    simp only [q1, Option.bind_some]
    exact ⟨_, _, rfl, .inl ⟨rfl, q2⟩⟩

include hp in
theorem appendItem_ok (x : α) : Good c w L i (L[i] ++ [some x]) ok (L[i].length + 1) (appendItem c ok w i x) := by
  obtain ⟨V⟩ := view c h i hi
  unfold Good
  obtain ⟨t, ht⟩ : ∃ t, V.u.cells = L[i] ++ t := ⟨_, V.hc⟩
  have r1 : rd V.u.cells 0 L[i].length = some L[i] := by rw [ht]; exact rd_all _ _
  have hlen1 : ([some x] : List (Option α)).length = 1 := rfl
  simp only [appendItem, V.hv, V.hu, V.hm, Option.bind_eq_bind, Option.bind_some, V.hs]
  by_cases hmc : masked L[i].length V.m ≥ V.u.cells.length
  · rw [if_pos hmc]
    by_cases hx : L[i].length ≥ c.maxCap
    · rw [if_pos hx]
      refine ⟨_, _, rfl, .inr ⟨rfl, rfl, .inr ?_⟩⟩
      have h2 : ¬ (L[i].length + 1) * c.itemSize ≤ implMaxSize - 24 := by
        intro hc; exact absurd ((Nat.le_div_iff_mul_le hp).2 hc) (by unfold Cfg.maxCap at hx; omega)
      rw [implMaxSize_eq] at *; omega
    · rw [if_neg hx]
      rcases grow_cases c hp ok (L[i].length + 1) (by omega) with ⟨d, e1, e2, e3, e4⟩ | ⟨e1, e2⟩
      · have f1 := wr_zero d.cells L[i] (by omega)
        have f2 := wr_app L[i] (d.cells.drop L[i].length) [some x] L[i].length rfl (by rw [List.length_drop]; omega)
        have hlen := (wr_len f2).trans (wr_len f1)
        obtain ⟨w1, w', q1, q2, q3, _⟩ := moved_install c h hi V V.m id false { d with cells := _ } (L[i] ++ [some x])
          (by simp) (fun hc => by simp only; rw [hlen]; exact e4)
          ⟨by simp only [List.length_append]; omega, _, (List.append_assoc ..).symm⟩
        simp only [e1, r1, f1, f2, q1, q2, Option.bind_some]
        exact ⟨_, _, rfl, .inl ⟨rfl, q3⟩⟩
      · simp only [e1]
        exact ⟨_, _, rfl, .inr ⟨rfl, rfl, e2⟩⟩
  · rw [if_neg hmc]
    have m0 := (masked_le c hi V hp L[i].length).1 (by omega)
    have m2 : L[i].length < V.u.cells.length := by
      unfold masked at hmc; rw [m0.1] at hmc; simpa using hmc
    have htl : 1 ≤ t.length := by rw [ht, List.length_append] at m2; omega
    rw [ht, wr_app L[i] t [some x] _ rfl htl]
    obtain ⟨w', q1, q2, _⟩ := put_ok c h hi V m0.1 ⟨L[i].length + 1, L[i] ++ ([some x] ++ t.drop 1)⟩ (L[i] ++ [some x])
      (by rw [ht]; simp only [List.length_append, List.length_drop, hlen1]; omega)
      ⟨by simp only [List.length_append, hlen1], t.drop 1, by simp⟩
    simp only [hlen1, q1, Option.bind_some]
    exact ⟨_, _, rfl, .inl ⟨rfl, q2⟩⟩

include hp in
theorem insertData_ok (idx : Nat) (hidx : idx ≤ L[i].length) (s : Src α) (hs : s.Ok L[i]) :
    Good c w L i (L[i].take idx ++ (s.val L[i] ++ L[i].drop idx)) ok (L[i].length + s.len) (insertData c ok w i idx s) := by
  obtain ⟨V⟩ := view c h i hi
  unfold Good
  have hvl := s.val_len L[i] hs
  have hti : (L[i].take idx).length = idx := by rw [List.length_take]; omega
  have hdl : (L[i].drop idx).length = L[i].length - idx := List.length_drop
  obtain ⟨t, ht⟩ : ∃ t, V.u.cells = L[i] ++ t := ⟨_, V.hc⟩
  have r1 : rd V.u.cells 0 idx = some (L[i].take idx) := by rw [ht, rd_app _ _ _ _ (by omega)]; simp
  have r2 : rd V.u.cells idx (L[i].length - idx) = some (L[i].drop idx) := by
    rw [ht, rd_app _ _ _ _ (by omega)]
    rw [List.take_of_length_le (by rw [List.length_drop]; omega)]
  have r3 : s.read V.u.cells = some (s.val L[i]) := by rw [ht]; exact s.read_ok _ _ hs
  simp only [insertData, V.hv, V.hu, V.hm, Option.bind_eq_bind, Option.bind_some, V.hs]
  rw [if_neg (show ¬ idx > L[i].length by omega)]
  by_cases hmc : masked (uaddSat L[i].length s.len) V.m > V.u.cells.length
  · rw [if_pos hmc]
    by_cases hx : uaddSat L[i].length s.len > c.maxCap
    · rw [if_pos hx]
      exact ⟨_, _, rfl, .inr ⟨rfl, rfl, .inr (uaddSat_gt c hp _ _ hx)⟩⟩
    · rw [if_neg hx]
      have hk : uaddSat L[i].length s.len = L[i].length + s.len := uaddSat_le c hp _ _ (by omega)
      rw [hk] at hx ⊢
      rcases grow_cases c hp ok (L[i].length + s.len) (by omega) with ⟨d, e1, e2, e3, e4⟩ | ⟨e1, e2⟩
      · obtain ⟨c1, c2, t', f1, f2, f3, f4⟩ := wr_three (L[i].take idx) (L[i].drop idx) (s.val L[i]) d.cells (by omega)
        rw [hti, hvl] at f2
        rw [hti] at f3
        obtain ⟨w1, w', q1, q2, q3, _⟩ := moved_install c h hi V V.m id false { d with cells := _ } (L[i].take idx ++ (s.val L[i] ++ L[i].drop idx))
          (by simp) (fun hc => by simp only; rw [f4]; exact e4)
          ⟨by simp only [List.length_append]; omega, t', rfl⟩
        simp only [e1, r1, r2, r3, f1, f2, f3, q1, q2, Option.bind_some]
        exact ⟨_, _, rfl, .inl ⟨rfl, q3⟩⟩
      · simp only [e1]
        exact ⟨_, _, rfl, .inr ⟨rfl, rfl, e2⟩⟩
  · rw [if_neg hmc]
    obtain ⟨m1, m2, m3⟩ := uaddSat_fit c hp hi V L[i].length s.len (by omega)
    have htl : s.len ≤ t.length := by rw [ht, List.length_append] at m2; omega
    rw [ht, insertInPlace_ok L[i] t idx s hidx hs htl, m3]
    obtain ⟨w', q1, q2, _⟩ := put_ok c h hi V m1 ⟨L[i].length + s.len, L[i].take idx ++ (s.val L[i] ++ (L[i].drop idx ++ t.drop s.len))⟩
      (L[i].take idx ++ (s.val L[i] ++ L[i].drop idx))
      (by rw [ht]; simp only [List.length_append, List.length_drop, hti]; omega)
      ⟨by simp only [List.length_append]; omega, t.drop s.len, by simp⟩
    simp only [q1, Option.bind_some]
    exact ⟨_, _, rfl, .inl ⟨rfl, q2⟩⟩

omit h hi in
/-- Three parts written to a new buffer, in order. -/
theorem wr_seq (a x b d : List (Option α)) (hd : a.length + x.length + b.length ≤ d.length) :
    ∃ c1 c2 t, wr d 0 a = some c1 ∧ wr c1 a.length x = some c2 ∧ wr c2 (a.length + x.length) b = some (a ++ (x ++ b) ++ t) ∧
      (a ++ (x ++ b) ++ t).length = d.length := by
  have f1 := wr_zero d a (by omega)
  have f2 := wr_app a (d.drop a.length) x a.length rfl (by rw [List.length_drop]; omega)
  obtain ⟨t1, ht1⟩ : ∃ t1, t1 = (d.drop a.length).drop x.length := ⟨_, rfl⟩
  rw [← ht1] at f2
  have hl : t1.length = d.length - a.length - x.length := by rw [ht1, List.length_drop, List.length_drop]
  have f3 := wr_app (a ++ x) t1 b (a.length + x.length) (by rw [List.length_append]) (by omega)
  rw [List.append_assoc] at f3
  refine ⟨_, _, t1.drop b.length, f1, f2, ?_, ?_⟩
  · rw [f3]; simp
  · simp only [List.length_append, List.length_drop]; omega

include hp in
theorem replaceItem_ok (idx : Nat) (x : α) :
    (idx ≥ L[i].length ∧ replaceItem c ok w i idx x = some (.invalidValue, w)) ∨
    (idx < L[i].length ∧ Good c w L i (L[i].set idx (some x)) ok L[i].length (replaceItem c ok w i idx x)) := by
  obtain ⟨V⟩ := view c h i hi
  unfold Good
  simp only [replaceItem, V.hv, V.hu, V.hm, Option.bind_eq_bind, Option.bind_some, V.hs]
  by_cases hx : idx ≥ L[i].length
  · rw [if_pos hx]; exact .inl ⟨hx, rfl⟩
  · rw [if_neg hx]
    refine .inr ⟨by omega, ?_⟩
    obtain ⟨t, ht⟩ : ∃ t, V.u.cells = L[i] ++ t := ⟨_, V.hc⟩
    have hti : (L[i].take idx).length = idx := by rw [List.length_take]; omega
    have hdl : (L[i].drop (idx + 1)).length = L[i].length - idx - 1 := by rw [List.length_drop]; omega
    have hset : L[i].set idx (some x) = L[i].take idx ++ ([some x] ++ L[i].drop (idx + 1)) := by
      rw [List.set_eq_take_append_cons_drop, if_pos (by omega)]; rfl
    have hlen1 : ([some x] : List (Option α)).length = 1 := rfl
    cases hm : V.m with
    | false =>
      simp only [Bool.not_false, if_true]
      have hlu : L[i].length * c.itemSize ≤ 2 ^ 63 := Nat.le_trans (Nat.mul_le_mul_right _ V.len) V.hb
      rw [implSize_of_le c _ hlu]
      have r1 : rd V.u.cells 0 idx = some (L[i].take idx) := by rw [ht, rd_app _ _ _ _ (by omega)]; simp
      have r2 : rd V.u.cells (idx + 1) (L[i].length - idx - 1) = some (L[i].drop (idx + 1)) := by
        rw [ht, rd_app _ _ _ _ (by omega)]
        rw [List.take_of_length_le (by rw [List.length_drop]; omega)]
      cases hd : c.initDynamic ok L[i].length (24 + L[i].length * c.itemSize) with
      | none =>
        exact ⟨_, _, rfl, .inr ⟨rfl, rfl, (initDynamic_none c ok _ _ hd).imp id (by intro; omega)⟩⟩
      | some d =>
        obtain ⟨d1, d2, d3, _⟩ := initDynamic_some c hp ok _ _ L[i].length d hd (Nat.le_refl _)
        obtain ⟨c1, c2, t', f1, f2, f3, f4⟩ := wr_seq (L[i].take idx) [some x] (L[i].drop (idx + 1)) d.cells (by omega)
        rw [hti] at f2
        rw [hti, hlen1] at f3
        obtain ⟨w', q1, q2, _⟩ := install_ok c h hi false { d with cells := _ } (L[i].set idx (some x))
          (by simp) (fun hc => by simp only; rw [f4]; exact d3)
          ⟨by simp only [List.length_set]; omega, t', by rw [hset]⟩
        simp only [r1, r2, f1, f2, f3, q1, Option.bind_some]
        exact ⟨_, _, rfl, .inl ⟨rfl, q2⟩⟩
    | true =>
      simp only [Bool.not_true, Bool.false_eq_true, if_false]
      have hsplit : L[i] ++ t = L[i].take idx ++ ((L[i].drop idx).take 1 ++ (L[i].drop (idx + 1) ++ t)) := by
        have : L[i].drop (idx + 1) = (L[i].drop idx).drop 1 := by rw [List.drop_drop]
        rw [this, ← List.append_assoc ((L[i].drop idx).take 1), List.take_append_drop, ← List.append_assoc, List.take_append_drop]
      have f := wr_mid (L[i].take idx) ((L[i].drop idx).take 1) (L[i].drop (idx + 1) ++ t) [some x] idx hti.symm
        (by rw [hlen1, List.length_take, List.length_drop]; omega)
      rw [← hsplit] at f
      rw [ht, f]
      obtain ⟨w', q1, q2, _⟩ := put_ok c h hi V hm ⟨L[i].length, L[i].take idx ++ ([some x] ++ (L[i].drop (idx + 1) ++ t))⟩ (L[i].set idx (some x))
        (by simp only; rw [wr_len f, ht])
        ⟨by simp only [List.length_set], t, by rw [hset]; simp⟩
      simp only [q1, Option.bind_some]
      exact ⟨_, _, rfl, .inl ⟨rfl, q2⟩⟩

include hp in
theorem removeRange_ok (a b : Nat) :
    Good c w L i (L[i].take (min a (min b L[i].length)) ++ L[i].drop (min b L[i].length)) ok L[i].length (removeRange c ok w i a b) := by
  obtain ⟨V⟩ := view c h i hi
  unfold Good
  simp only [removeRange, V.hv, V.hu, V.hm, Option.bind_eq_bind, Option.bind_some, V.hs]
  obtain ⟨e, he⟩ : ∃ e, e = min b L[i].length := ⟨_, rfl⟩
  obtain ⟨s, hs⟩ : ∃ s, s = min a e := ⟨_, rfl⟩
  rw [← he, ← hs]
  have hse : s ≤ e := by omega
  have hel : e ≤ L[i].length := by omega
  by_cases h0 : e - s = 0
  · rw [if_pos h0]
    have : s = e := by omega
    exact ⟨_, _, rfl, .inl ⟨rfl, by rw [this, List.take_append_drop, set_same]; exact h⟩⟩
  · rw [if_neg h0]
    obtain ⟨t, ht⟩ : ∃ t, V.u.cells = L[i] ++ t := ⟨_, V.hc⟩
    have hti : (L[i].take s).length = s := by rw [List.length_take]; omega
    have hdl : (L[i].drop e).length = L[i].length - e := List.length_drop
    have r1 : rd V.u.cells 0 s = some (L[i].take s) := by rw [ht, rd_app _ _ _ _ (by omega)]; simp
    have r2 : rd V.u.cells e (L[i].length - e) = some (L[i].drop e) := by
      rw [ht, rd_app _ _ _ _ (by omega)]
      rw [List.take_of_length_le (by rw [List.length_drop]; omega)]
    -- the in-place move
    have hsplit : V.u.cells = L[i].take s ++ ((L[i].drop s).take (L[i].length - e) ++ ((L[i].drop s).drop (L[i].length - e) ++ t)) := by
      rw [← List.append_assoc ((L[i].drop s).take _), List.take_append_drop, ← List.append_assoc, List.take_append_drop, ht]
    have hmv : move V.u.cells s (s + (e - s)) (L[i].length - e) =
        some (L[i].take s ++ (L[i].drop e ++ ((L[i].drop s).drop (L[i].length - e) ++ t))) := by
      have e1 : s + (e - s) = e := by omega
      simp only [move, e1, r2, Option.bind_eq_bind, Option.bind_some]
      have := wr_mid (L[i].take s) ((L[i].drop s).take (L[i].length - e)) ((L[i].drop s).drop (L[i].length - e) ++ t) (L[i].drop e) s hti.symm
        (by rw [hdl, List.length_take, List.length_drop]; omega)
      rw [← hsplit] at this; exact this
    have hml : (L[i].take s ++ (L[i].drop e ++ ((L[i].drop s).drop (L[i].length - e) ++ t))).length = V.u.cells.length := by
      rw [ht]; simp only [List.length_append, hti, hdl, List.length_drop]; omega
    have hput : ∀ tail, (L[i].take s ++ (L[i].drop e ++ tail)).length = V.u.cells.length →
        OkD ⟨L[i].length - (e - s), L[i].take s ++ (L[i].drop e ++ tail)⟩ (L[i].take s ++ L[i].drop e) := by
      intro tail _
      exact ⟨by simp only [List.length_append, hti, hdl]; omega, tail, by simp⟩
    cases hv : V.v with
    | sso d0 =>
      simp only
      rw [hmv]
      have f := wr_app (L[i].take s ++ L[i].drop e) ((L[i].drop s).drop (L[i].length - e) ++ t)
        (List.replicate (V.u.cells.length - (L[i].length - (e - s))) (some c.zero)) (L[i].length - (e - s))
        (by simp only [List.length_append, hti, hdl]; omega)
        (by rw [ht]; simp only [List.length_replicate, List.length_append, List.length_drop]; omega)
      rw [List.append_assoc, List.append_assoc] at f
      simp only [f, Option.bind_some]
      have hlen := (wr_len f).trans hml
      have hhold := h.hold i _ _ V.hv (List.getElem?_eq_getElem hi)
      rw [hv] at hhold
      have hu := V.hu
      rw [hv] at hu
      simp only [unpack, Option.some.injEq] at hu
      refine ⟨_, _, rfl, .inl ⟨rfl, rel_set_sso h d0 _ i (by rw [V.hv, hv]) _ ⟨?_, hput _ hlen⟩⟩⟩
      simp only
      rw [hlen, ← hu]; exact hhold.1
    | dyn adr =>
      simp only
      have hm0 : w.isMutable (.dyn adr) = some V.m := by rw [← hv]; exact V.hm
      cases hm : V.m with
      | false =>
        simp only [Bool.not_false, if_true]
        have hkb : (L[i].length - (e - s)) * c.itemSize ≤ 2 ^ 63 :=
          Nat.le_trans (Nat.mul_le_mul_right _ (Nat.le_trans (Nat.sub_le _ _) V.len)) V.hb
        rcases initArray_cases c hp ok (L[i].length - (e - s)) (L[i].length - (e - s)) hkb with ⟨sso, d, e1, e2, e3, e4, e5⟩ | ⟨e1, e2⟩
        · have f1 := wr_zero d.cells (L[i].take s) (by omega)
          have f2 := wr_app (L[i].take s) (d.cells.drop (L[i].take s).length) (L[i].drop e) s hti.symm (by rw [hdl, List.length_drop, hti]; omega)
          have hlen := (wr_len f2).trans (wr_len f1)
          obtain ⟨w', q1, q2, _⟩ := install_ok c h hi sso { d with cells := _ } (L[i].take s ++ L[i].drop e)
            (fun hc => by simp only; rw [hlen]; exact e4 hc) (fun hc => by simp only; rw [hlen]; exact e5 hc)
            ⟨by simp only [List.length_append, hti, hdl]; omega, _, (List.append_assoc ..).symm⟩
          simp only [e1, r1, r2, f1, f2, q1, Option.bind_some]
          exact ⟨_, _, rfl, .inl ⟨rfl, q2⟩⟩
        · simp only [e1]
          refine ⟨_, _, rfl, .inr ⟨rfl, rfl, e2.imp id ?_⟩⟩
          intro hh
          have : (L[i].length - (e - s)) * c.itemSize ≤ L[i].length * c.itemSize := Nat.mul_le_mul_right _ (Nat.sub_le _ _)
          omega
      | true =>
        simp only [Bool.not_true, Bool.false_eq_true, if_false]
        rw [hmv]
        obtain ⟨w', q1, q2, _⟩ := put_ok c h hi V hm _ _ hml (hput _ hml)
        simp only [q1, Option.bind_some]
        exact ⟨_, _, rfl, .inl ⟨rfl, q2⟩⟩

include hp in
/-- `assign_data` with at most as many items as the array has. -/
theorem assignData_ok (s : Src α) (hs : s.Ok L[i]) (hl : s.len ≤ L[i].length) :
    Good c w L i (s.val L[i]) ok L[i].length (assignData c ok w i s) := by
  obtain ⟨V⟩ := view c h i hi
  unfold Good
  have hvl := s.val_len L[i] hs
  obtain ⟨t, ht⟩ : ∃ t, V.u.cells = L[i] ++ t := ⟨_, V.hc⟩
  have r1 : s.read V.u.cells = some (s.val L[i]) := by rw [ht]; exact s.read_ok _ _ hs
  have hlu : L[i].length * c.itemSize ≤ 2 ^ 63 := Nat.le_trans (Nat.mul_le_mul_right _ V.len) V.hb
  simp only [assignData, V.hv, V.hu, V.hm, Option.bind_eq_bind, Option.bind_some, V.hs]
  by_cases hmc : masked s.len V.m > V.u.cells.length
  · rw [if_pos hmc]
    by_cases hx : s.len > c.maxCap
    · rw [if_pos hx]
      refine ⟨_, _, rfl, .inr ⟨rfl, rfl, .inr ?_⟩⟩
      have h2 : ¬ L[i].length * c.itemSize ≤ implMaxSize - 24 := by
        intro hc; exact absurd ((Nat.le_div_iff_mul_le hp).2 hc) (by unfold Cfg.maxCap at hx; omega)
      rw [implMaxSize_eq] at *; omega
    · rw [if_neg hx, implSize_of_le c _ hlu]
      cases hd : c.initDynamic ok s.len (24 + L[i].length * c.itemSize) with
      | none => exact ⟨_, _, rfl, .inr ⟨rfl, rfl, (initDynamic_none c ok _ _ hd).imp id (by intro; omega)⟩⟩
      | some d =>
        obtain ⟨d1, d2, d3, _⟩ := initDynamic_some c hp ok _ _ L[i].length d hd (Nat.le_refl _)
        have f1 := wr_zero d.cells (s.val L[i]) (by omega)
        obtain ⟨w', q1, q2, _⟩ := install_ok c h hi false { d with cells := _ } (s.val L[i])
          (by simp) (fun hc => by simp only; rw [wr_len f1]; exact d3) ⟨by simp only; omega, _, rfl⟩
        simp only [r1, f1, q1, Option.bind_some]
        exact ⟨_, _, rfl, .inl ⟨rfl, q2⟩⟩
  · rw [if_neg hmc]
    obtain ⟨m1, m2⟩ := (masked_le c hi V hp _).1 (by omega : masked s.len V.m ≤ V.u.cells.length)
    by_cases h0 : s.len = 0
    · rw [if_pos h0]
      obtain ⟨w', q1, q2⟩ := clear_ok c h hi
      have : s.val L[i] = [] := List.length_eq_zero_iff.1 (by omega)
      exact ⟨_, _, q1, .inl ⟨rfl, by rw [this]; exact q2⟩⟩
    · rw [if_neg h0]
      have f1 := wr_zero V.u.cells (s.val L[i]) (by omega)
      obtain ⟨w', q1, q2, _⟩ := put_ok c h hi V m1 ⟨s.len, _⟩ (s.val L[i]) (wr_len f1) ⟨by simp only; omega, _, rfl⟩
      simp only [r1, f1, q1, Option.bind_some]
      exact ⟨_, _, rfl, .inl ⟨rfl, q2⟩⟩

theorem assignExternal_ok (cells : List (Option α)) (size : Nat) (wr : Bool) (hb : cells.length * c.itemSize ≤ 2 ^ 63) :
    ((cells.length = 0 ∨ cells.length < size) ∧ assignExternal c ok w i cells size wr = some (.invalidValue, w)) ∨
    (¬ (cells.length = 0 ∨ cells.length < size) ∧ ∃ res w', assignExternal c ok w i cells size wr = some (res, w') ∧
      ((res = .success ∧ R c w' (L.set i (cells.take size))) ∨ (res = .outOfMemory ∧ w' = w ∧ ok = false))) := by
  unfold assignExternal
  by_cases h0 : cells.length = 0 ∨ cells.length < size
  · rw [if_pos (by omega)]; exact .inl ⟨h0, rfl⟩
  · rw [if_neg (by omega)]
    refine .inr ⟨h0, ?_⟩
    cases ok with
    | false => simp only [Bool.not_false, if_true]; exact ⟨_, _, rfl, .inr ⟨rfl, rfl, trivial⟩⟩
    | true =>
      simp only [Bool.not_true, Bool.false_eq_true, if_false]
      obtain ⟨w', r1, r2, _⟩ := rel_replace_new h (if wr then 1 else 3) (⟨true, ⟨size, cells⟩⟩ : Impl α) (by split <;> omega) i hi
        (cells.take size) ⟨hb, by simp only [List.length_take]; omega, cells.drop size, by simp only; rw [List.take_append_drop]⟩
      simp only [r1, Option.bind_eq_bind, Option.bind_some]
      exact ⟨_, _, rfl, .inl ⟨rfl, r2⟩⟩

/-- A part of the array's own content that does not intersect `[s, e)`. -/
def _root_.Blend2D.Arr.Src.Apart (src : Src α) (s e : Nat) : Prop :=
  match src with
  | .ext _ _ => True
  | .own off n => off + n ≤ s ∨ e ≤ off

include hp in
/-- `replace_data`, except for the case where it goes wrong: an array that is changed in place, a non-empty range
and a different number of items, or items that overlap the range. -/
theorem replaceData_ok (a b : Nat) (src : Src α) (gap : Nat) (hs : src.Ok L[i])
    (hk : (L[i].length + src.len) * c.itemSize ≤ 2 ^ 63) (s e : Nat) (he : e = min b L[i].length) (hse : s = min a e)
    (hcase : s = e ∨ ¬ Mut w i ∨ (src.len = e - s ∧ src.Apart s e)) :
    Good c w L i (L[i].take s ++ (src.val L[i] ++ L[i].drop e)) ok (L[i].length + src.len) (replaceData c ok w i a b src gap) := by
  obtain ⟨V⟩ := view c h i hi
  have hvl := src.val_len L[i] hs
  by_cases h0 : e - s = 0
  · have hs' : s = e := by omega
    have := insertData_ok c hp ok h hi s (by omega) src hs
    have hred : replaceData c ok w i a b src gap = insertData c ok w i s src := by
      simp only [replaceData, V.hv, V.hu, Option.bind_eq_bind, Option.bind_some, V.hs, ← he, ← hse, h0, if_true]
    rw [hred, ← hs']; exact this
  · unfold Good
    simp only [replaceData, V.hv, V.hu, V.hm, Option.bind_eq_bind, Option.bind_some, V.hs, ← he, ← hse]
    rw [if_neg h0]
    have hse' : s ≤ e := by omega
    have hel : e ≤ L[i].length := by omega
    obtain ⟨t, ht⟩ : ∃ t, V.u.cells = L[i] ++ t := ⟨_, V.hc⟩
    have hti : (L[i].take s).length = s := by rw [List.length_take]; omega
    have hdl : (L[i].drop e).length = L[i].length - e := List.length_drop
    have r1 : rd V.u.cells 0 s = some (L[i].take s) := by rw [ht, rd_app _ _ _ _ (by omega)]; simp
    have r2 : rd V.u.cells (s + (e - s)) (L[i].length - e) = some (L[i].drop e) := by
      rw [show s + (e - s) = e by omega, ht, rd_app _ _ _ _ (by omega)]
      rw [List.take_of_length_le (by rw [List.length_drop]; omega)]
    have r3 : src.read V.u.cells = some (src.val L[i]) := by rw [ht]; exact src.read_ok _ _ hs
    have hle := Nat.le_mul_of_pos_right (L[i].length + src.len) hp
    have hmod : (L[i].length - (e - s) + src.len) % 2 ^ 64 = L[i].length - (e - s) + src.len := Nat.mod_eq_of_lt (by omega)
    rw [hmod]
    split
    · rename_i hcond
      have hm : V.m = true := by
        rw [Bool.and_eq_true] at hcond; exact hcond.1
      rcases hcase with hc | hc | ⟨hc1, hc2⟩
      · omega
      · exact absurd ⟨V.v, V.hv, by rw [V.hm, hm]⟩ hc
      · rw [if_pos hc1.symm]
        -- the items replace the range in place
        have hsplit : V.u.cells = L[i].take s ++ ((L[i].drop s).take (e - s) ++ (L[i].drop e ++ t)) := by
          have : L[i].drop e = (L[i].drop s).drop (e - s) := by rw [List.drop_drop]; congr 1; omega
          rw [this, ← List.append_assoc ((L[i].drop s).take _), List.take_append_drop, ← List.append_assoc, List.take_append_drop, ht]
        have hw : wr V.u.cells s (src.val L[i]) = some (L[i].take s ++ (src.val L[i] ++ (L[i].drop e ++ t))) := by
          have := wr_mid (L[i].take s) ((L[i].drop s).take (e - s)) (L[i].drop e ++ t) (src.val L[i]) s hti.symm
            (by rw [hvl, List.length_take, List.length_drop]; omega)
          rw [← hsplit] at this; exact this
        have hcp : src.copyTo V.u.cells s = some (L[i].take s ++ (src.val L[i] ++ (L[i].drop e ++ t))) := by
          cases src with
          | ext x bl => exact hw
          | own off n =>
            have hc2' : off + n ≤ s ∨ e ≤ off := hc2
            have hc1' : n = e - s := hc1
            have hr3 : rd V.u.cells off n = some ((L[i].drop off).take n) := r3
            simp only [Src.copyTo]
            rw [copy_apart _ _ _ _ (by omega)]
            simp only [move, hr3, Option.bind_eq_bind, Option.bind_some]
            exact hw
        obtain ⟨w', q1, q2, _⟩ := put_ok c h hi V hm ⟨L[i].length, _⟩ (L[i].take s ++ (src.val L[i] ++ L[i].drop e)) (wr_len hw)
          ⟨by simp only [List.length_append]; omega, t, by simp⟩
        simp only [hcp, q1, Option.bind_some]
        exact ⟨_, _, rfl, .inl ⟨rfl, q2⟩⟩
    · have hle2 : (L[i].length - (e - s) + src.len) * c.itemSize ≤ (L[i].length + src.len) * c.itemSize :=
        Nat.mul_le_mul_right _ (by omega)
      rcases initArray_cases c hp ok (L[i].length - (e - s) + src.len) (L[i].length - (e - s) + src.len) (by omega)
        with ⟨sso, d, e1, e2, e3, e4, e5⟩ | ⟨e1, e2⟩
      · obtain ⟨c1, c2, t', f1, f2, f3, f4⟩ := wr_seq (L[i].take s) (src.val L[i]) (L[i].drop e) d.cells (by omega)
        rw [hti] at f2
        rw [hti, hvl] at f3
        obtain ⟨w', q1, q2, _⟩ := install_ok c h hi sso { d with cells := _ } (L[i].take s ++ (src.val L[i] ++ L[i].drop e))
          (fun hc => by simp only; rw [f4]; exact e4 hc) (fun hc => by simp only; rw [f4]; exact e5 hc)
          ⟨by simp only [List.length_append]; omega, t', rfl⟩
        simp only [e1, r1, r2, r3, f1, f2, f3, q1, Option.bind_some]
        exact ⟨_, _, rfl, .inl ⟨rfl, q2⟩⟩
      · simp only [e1]
        exact ⟨_, _, rfl, .inr ⟨rfl, rfl, e2.imp id (by intro; omega)⟩⟩

omit h hi in
theorem holds_det (v : Core (Data α)) (x y : List (Option α)) (hx : Holds (okS c) (okB c) w v x) (hy : Holds (okS c) (okB c) w v y) :
    x = y := by
  have key : ∀ d : Data α, OkD d x → OkD d y → x = y := by
    intro d ⟨h1, t1, h2⟩ ⟨h3, t2, h4⟩
    have := List.append_inj_left (h2.symm.trans h4) (by omega)
    exact this
  cases v with
  | sso s => exact key s hx.2 hy.2
  | dyn a =>
    obtain ⟨b, h1, _, h2⟩ := hx
    obtain ⟨b', h3, _, h4⟩ := hy
    rw [h1] at h3
    simp only [Option.some.injEq] at h3
    subst h3
    exact key _ h2 h4

theorem equals_ok [DecidableEq α] (x y : List α) {j : Nat} (hj : j < L.length) (hx : L[i] = x.map some) (hy : L[j] = y.map some) :
    equals w i j = some (decide (x = y)) := by
  obtain ⟨V⟩ := view c h i hi
  obtain ⟨U⟩ := view c h j hj
  simp only [equals, V.hv, U.hv, V.hu, U.hu, Option.bind_eq_bind, Option.bind_some]
  have inj : ∀ {a b : List α}, a.map some = b.map some → a = b := fun hh => (List.map_inj_right (by intro a b hab; simpa using hab)).1 hh
  by_cases hc : V.v = U.v
  · rw [if_pos hc]
    have h1 := h.hold i _ _ V.hv (List.getElem?_eq_getElem hi)
    have h2 := h.hold j _ _ U.hv (List.getElem?_eq_getElem hj)
    rw [← hc] at h2
    have := holds_det c _ _ _ h1 h2
    rw [hx, hy] at this
    have := inj this
    simp [this]
  · rw [if_neg hc]
    have e1 : V.u.size = x.length := V.hs.trans (by rw [hx]; simp)
    have e2 : U.u.size = y.length := U.hs.trans (by rw [hy]; simp)
    obtain ⟨t, ht⟩ : ∃ t, V.u.cells = x.map some ++ t := ⟨V.t, V.hc.trans (by congr 1)⟩
    obtain ⟨t', ht'⟩ : ∃ t, U.u.cells = y.map some ++ t := ⟨U.t, U.hc.trans (by congr 1)⟩
    rw [e1, e2]
    by_cases hl : x.length = y.length
    · rw [if_neg (by simp [hl])]
      have r1 := rd_all (x.map some) t
      have r2 := rd_all (y.map some) t'
      rw [List.length_map] at r1 r2
      rw [ht, ht', r1, r2]
      have n1 : ∀ z : List α, (z.map some).any (·.isNone) = false := by intro z; simp
      simp only [Option.bind_some, n1, Bool.or_self, Bool.false_eq_true, if_false]
      show some _ = some _
      congr 1
      exact decide_eq_decide.2 ⟨fun hh => inj hh, fun hh => by rw [hh]⟩
    · rw [if_pos hl]
      have : x ≠ y := fun hh => hl (by rw [hh])
      simp [this]

end
end Blend2D.Arr
