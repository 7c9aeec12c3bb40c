import Verif.Arr.Ops
/-! # The operations of `BLArray` keep the relation (growing operations) -/
namespace Blend2D.Arr
open Cow

variable {α : Type}

theorem okD_grow (p t cells : List (Option α)) (k n : Nat) (hk : k = p.length + n) (hc : cells = p ++ t)
    (hl : k ≤ cells.length) : ∃ g, g.length = n ∧ OkD ⟨k, cells⟩ (p ++ g) := by
  subst hc
  rw [List.length_append] at hl
  refine ⟨t.take n, by rw [List.length_take]; omega, ?_, t.drop n, ?_⟩
  · simp only [List.length_append, List.length_take]; omega
  · simp only; rw [List.append_assoc, List.take_append_drop]

/-- The array can be changed in place. -/
def Mut (w : Wld α) (i : Nat) : Prop := ∃ v, w.vars[i]? = some v ∧ w.isMutable v = some true

theorem View.mut {c : Cfg α} {w : Wld α} {i : Nat} {l : List (Option α)} (V : View c w i l) (h : Mut w i) : V.m = true := by
  obtain ⟨v, h1, h2⟩ := h
  rw [V.hv] at h1
  simp only [Option.some.injEq] at h1
  have := V.hm
  rw [h1, h2] at this
  simpa using this.symm

section
variable (c : Cfg α) (hp : 0 < c.itemSize) (ok : Bool) {w : Wld α} {L : List (List (Option α))} (h : R c w L) {i : Nat}
  (hi : i < L.length)
include h hi

theorem fillAt_ok (hm : Mut w i) (p g x s : List (Option α)) (off : Nat) (hl : L[i] = p ++ (g ++ s)) (hx : x.length = g.length)
    (ho : off = p.length) : ∃ w', fillAt w i off x = some w' ∧ R c w' (L.set i (p ++ (x ++ s))) := by
  obtain ⟨V⟩ := view c h i hi
  obtain ⟨t, ht⟩ : ∃ t, V.u.cells = L[i] ++ t := ⟨_, V.hc⟩
  have e : V.u.cells = p ++ (g ++ (s ++ t)) := ht.trans (by rw [hl]; simp)
  have f := wr_mid p g (s ++ t) x off ho hx
  rw [← e] at f
  obtain ⟨w', q1, q2, _⟩ := put_ok c h hi V (V.mut hm) { V.u with cells := p ++ (x ++ (s ++ t)) } (p ++ (x ++ s))
    (wr_len f) ⟨by simp only; exact V.hs.trans (by rw [hl]; simp only [List.length_append]; omega), t, by simp⟩
  exact ⟨w', by simp only [fillAt, V.hv, V.hu, f, q1, Option.bind_eq_bind, Option.bind_some], q2⟩

include hp in
theorem modifyOp_ok (op : ModifyOp) (n : Nat)
    (hk : (if op.assign then n else L[i].length + n) * c.itemSize ≤ 2 ^ 63) :
    ∃ res start w', modifyOp c ok w i op n = some (res, start, w') ∧
      ((res = .success ∧ start = (if op.assign then 0 else L[i].length) ∧ Mut w' i ∧
        ∃ g, g.length = n ∧ R c w' (L.set i ((if op.assign then [] else L[i]) ++ g))) ∨
      (res = .outOfMemory ∧ w' = w ∧ (ok = false ∨
        implMaxSize < 2 * (25 + (if op.assign then n else L[i].length + n) * c.itemSize)))) := by
  obtain ⟨V⟩ := view c h i hi
  have hhold := h.hold i _ _ V.hv (List.getElem?_eq_getElem hi)
  simp only [modifyOp, V.hv, V.hu, V.hm, Option.bind_eq_bind, Option.bind_some, V.hs]
  obtain ⟨k, hkd⟩ : ∃ k, k = (if op.assign then n else L[i].length + n) := ⟨_, rfl⟩
  obtain ⟨idx, hid⟩ : ∃ k, k = (if op.assign then 0 else L[i].length) := ⟨_, rfl⟩
  obtain ⟨p, hpd⟩ : ∃ p, p = (if op.assign then [] else L[i]) := ⟨_, rfl⟩
  rw [← hkd] at hk ⊢
  rw [← hid, ← hpd]
  have hki : k = p.length + n := by rw [hkd, hpd]; cases op.assign <;> simp
  have hpl : idx = p.length := by rw [hid, hpd]; cases op.assign <;> simp
  have hpre : p = L[i].take idx := by rw [hid, hpd]; cases op.assign <;> simp
  have hidl : idx ≤ L[i].length := by rw [hid]; cases op.assign <;> simp
  have hkb : k < 2 ^ 64 := by
    have := Nat.le_mul_of_pos_right k hp
    omega
  have hrd : rd V.u.cells 0 idx = some p := by
    rw [V.hc, rd_app _ _ _ _ (by omega), hpre]; simp
  rw [if_neg (show ¬ k ≥ 2 ^ 64 by omega)]
  by_cases hmc : masked k V.m ≤ V.u.cells.length
  · rw [if_pos hmc]
    obtain ⟨m1, m2⟩ := (masked_le c hi V hp k).1 hmc
    have key : ∃ cells, modifyCells c V.v op V.u = cells ∧
        cells.length = V.u.cells.length ∧ ∃ t, cells = p ++ t := by
      cases hv : V.v with
      | dyn a =>
        refine ⟨V.u.cells, rfl, rfl, L[i].drop idx ++ V.t, ?_⟩
        rw [V.hc, hpre, ← List.append_assoc, List.take_append_drop]
      | sso s =>
        cases ha : op.assign with
        | false =>
          refine ⟨V.u.cells, by simp [modifyCells, ha], rfl, L[i].drop idx ++ V.t, ?_⟩
          rw [V.hc, hpre, ← List.append_assoc, List.take_append_drop]
        | true =>
          rw [hv] at hhold
          have hu := V.hu
          rw [hv] at hu
          simp only [unpack, Option.some.injEq] at hu
          refine ⟨(c.static 0).cells, by simp [modifyCells, ha], ?_, (c.static 0).cells, ?_⟩
          · rw [← hu, hhold.1]; simp [Cfg.static]
          · rw [hpd, ha]; rfl
    obtain ⟨cells, e1, e2, t, e3⟩ := key
    rw [e1]
    obtain ⟨g, g1, g2⟩ := okD_grow p t cells k n hki e3 (by omega)
    obtain ⟨w', q1, q2, ⟨v', q3, _, q4⟩, _⟩ := put_ok c h hi V m1 ⟨k, cells⟩ (p ++ g) e2 g2
    simp only [q1, Option.bind_some]
    exact ⟨_, _, _, rfl, .inl ⟨rfl, rfl, ⟨v', q3, q4⟩, g, g1, q2⟩⟩
  · rw [if_neg hmc]
    by_cases hso : k ≤ c.ssoCap
    · rw [if_pos hso]
      have f := wr_zero (c.static 0).cells p (by simp only [Cfg.static, List.length_replicate]; omega)
      obtain ⟨g, g1, g2⟩ := okD_grow p _ _ k n hki rfl (show k ≤ (p ++ (c.static 0).cells.drop p.length).length by
        rw [wr_len f]; simp only [Cfg.static, List.length_replicate]; exact hso)
      obtain ⟨w', q1, q2, v', q3, _, q4⟩ := install_ok c h hi true _ _ (fun _ => by simp only; rw [wr_len f]; simp [Cfg.static]) (by simp) g2
      simp only [hrd, f, q1, Option.bind_some]
      exact ⟨_, _, _, rfl, .inl ⟨rfl, rfl, ⟨v', q3, q4⟩, g, g1, q2⟩⟩
    · rw [if_neg hso, implSize_of_le c k hk]
      obtain ⟨s, hs⟩ : ∃ s, s = (if op.grow then expand (24 + k * c.itemSize) else 24 + k * c.itemSize) := ⟨_, rfl⟩
      rw [← hs]
      have hs1 : 24 + k * c.itemSize ≤ s := by
        rw [hs]; split
        · exact le_expand _
        · exact Nat.le_refl _
      cases hd : c.initDynamic ok k s with
      | none =>
        refine ⟨_, _, _, rfl, .inr ⟨rfl, rfl, ?_⟩⟩
        rcases initDynamic_none c ok _ _ hd with e | e
        · exact .inl e
        · right
          rw [hs] at e
          split at e
          · by_cases hlim : 24 + k * c.itemSize ≤ 2 ^ 62
            · have := expand_le _ hlim
              omega
            · rw [implMaxSize_eq]; omega
          · omega
      | some d =>
        obtain ⟨d1, d2, d3, d4⟩ := initDynamic_some c hp ok _ _ k d hd hs1
        obtain ⟨m, m1, m2⟩ := V.dyn
        have f := wr_zero d.cells p (by omega)
        obtain ⟨g, g1, g2⟩ := okD_grow p _ _ k n hki rfl (show k ≤ (p ++ d.cells.drop p.length).length by rw [wr_len f]; exact d2)
        obtain ⟨w1, w', q1, q2, q3, v', q4, _, q5⟩ := moved_install c h hi V m m2 false { d with cells := p ++ d.cells.drop p.length } (p ++ g)
          (by simp) (fun _ => by simp only; rw [wr_len f]; exact d3) ⟨by simp only; rw [d1]; exact g2.1, g2.2⟩
        simp only [hrd, f, m1, q1, q2, Option.bind_some]
        exact ⟨_, _, _, rfl, .inl ⟨rfl, rfl, ⟨v', q4, q5⟩, g, g1, q3⟩⟩

include hp in
theorem resize_ok (n : Nat) (fill : Option α) (hk : n * c.itemSize ≤ 2 ^ 63) :
    Good c w L i (L[i].take n ++ List.replicate (n - L[i].length) (some (fill.getD c.zero))) ok n (resize c ok w i n fill) := by
  obtain ⟨V⟩ := view c h i hi
  unfold Good
  simp only [resize, V.hv, V.hu, V.hm, Option.bind_eq_bind, Option.bind_some, V.hs]
  by_cases hn : n ≤ L[i].length
  · rw [if_pos hn]
    have e0 : n - L[i].length = 0 := by omega
    rw [e0, List.replicate_zero, List.append_nil]
    cases hm : V.m with
    | false =>
      simp only [Bool.not_false, if_true]
      by_cases hx : n = L[i].length
      · rw [if_pos hx]
        exact ⟨_, _, rfl, .inl ⟨rfl, by rw [hx, List.take_length, set_same]; exact h⟩⟩
      · rw [if_neg hx]
        rcases initArray_cases c hp ok n n hk with ⟨sso, d, e1, e2, e3, e4, e5⟩ | ⟨e1, e2⟩
        · have hrd : rd V.u.cells 0 n = some (L[i].take n) := by
            rw [V.hc, rd_app _ _ _ _ (by omega)]; simp
          have hlen : (L[i].take n).length = n := by rw [List.length_take]; omega
          have f := wr_zero d.cells (L[i].take n) (by omega)
          obtain ⟨w', q1, q2, _⟩ := install_ok c h hi sso { d with cells := _ } (L[i].take n)
            (fun hc => by simp only; rw [wr_len f]; exact e4 hc) (fun hc => by simp only; rw [wr_len f]; exact e5 hc)
            ⟨by simp only; rw [e2, hlen], _, rfl⟩
          simp only [e1, hrd, f, q1, Option.bind_some]
          exact ⟨_, _, rfl, .inl ⟨rfl, q2⟩⟩
        · simp only [e1]
          exact ⟨_, _, rfl, .inr ⟨rfl, rfl, e2.imp id (by intro; omega)⟩⟩
    | true =>
      simp only [Bool.not_true, Bool.false_eq_true, if_false]
      obtain ⟨w', q1, q2, _⟩ := put_ok c h hi V hm { V.u with size := n } (L[i].take n) rfl
        ⟨by simp only [List.length_take]; omega, L[i].drop n ++ V.t, by simp only; rw [← List.append_assoc, List.take_append_drop]; exact V.hc⟩
      simp only [q1, Option.bind_some]
      exact ⟨_, _, rfl, .inl ⟨rfl, q2⟩⟩
  · rw [if_neg hn]
    have e0 : L[i].length + (n - L[i].length) = n := by omega
    obtain ⟨res, start, w', r1, r2⟩ := modifyOp_ok c hp ok h hi { assign := false, grow := false } (n - L[i].length)
      (by simp only [Bool.false_eq_true, if_false]; rw [e0]; exact hk)
    simp only [r1, Option.bind_some]
    simp only [Bool.false_eq_true, if_false, e0] at r2
    rcases r2 with ⟨e1, e2, e3, g, e4, e5⟩ | ⟨e1, e2, e3⟩
    · subst e1; subst e2
      simp only [ne_eq, not_true_eq_false, if_false]
      have hi' : i < (L.set i (L[i] ++ g)).length := by rw [List.length_set]; exact hi
      have hget : (L.set i (L[i] ++ g))[i] = L[i] ++ (g ++ []) := by rw [List.getElem_set_self, List.append_nil]
      obtain ⟨w2, q1, q2⟩ := fillAt_ok c e5 hi' e3 L[i] g (List.replicate (n - L[i].length) (some (fill.getD c.zero))) [] L[i].length
        hget (by rw [List.length_replicate]; omega) rfl
      rw [List.set_set, List.append_nil] at q2
      simp only [q1, Option.bind_some]
      refine ⟨_, _, rfl, .inl ⟨rfl, ?_⟩⟩
      have : L[i].take n = L[i] := List.take_of_length_le (by omega)
      rw [this]; exact q2
    · subst e1; subst e2
      simp only [ne_eq, reduceCtorEq, not_false_eq_true, if_true]
      exact ⟨_, _, rfl, .inr ⟨rfl, rfl, e3⟩⟩

end
end Blend2D.Arr
