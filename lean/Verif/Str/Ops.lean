import Verif.Str.Lemmas
import Verif.Str.Step
import Verif.Arr.Ops2
/-! # The operations of `BLString` keep the relation -/
namespace Blend2D.Str
open Cow
open Blend2D.Arr (Result Src ModifyOp rd wr move copy masked uaddSat expand implMaxSize implMaxSize_eq le_expand expand_le)

/-- The operation succeeds and variable `i` becomes `l`, or it reports that it is out of memory and changes
nothing, which happens only if `malloc` fails or `n` characters are about as much as an impl can hold. -/
def Good (w : Wld) (L : List Cells) (i : Nat) (l : Cells) (ok : Bool) (n : Nat) (r : Option (Result × Wld)) : Prop :=
  ∃ res w', r = some (res, w') ∧ ((res = .success ∧ R w' (L.set i l)) ∨
    (res = .outOfMemory ∧ w' = w ∧ (ok = false ∨ implMaxSize < 2 * (18 + n))))

theorem set_same (L : List Cells) (i : Nat) (hi : i < L.length) : L.set i L[i] = L := List.set_getElem_self hi

theorem masked_gt {w : Wld} {i : Nat} {l : Cells} (V : View w i l) (n : Nat) :
    ¬ masked n V.m > V.u.cap ↔ V.m = true ∧ n ≤ V.u.cap := by
  unfold masked
  have h1 := V.len
  cases V.m
  · simp only [Bool.false_eq_true, if_false, false_and, iff_false]; omega
  · simp

theorem masked_le {w : Wld} {i : Nat} {l : Cells} (V : View w i l) (n : Nat) :
    masked n V.m ≤ V.u.cap ↔ V.m = true ∧ n ≤ V.u.cap := by
  rw [← masked_gt]; omega

theorem expandOp_ge (n : Nat) (op : ModifyOp) : n ≤ expandOp n op := by
  unfold expandOp; split
  · exact le_expand n
  · exact Nat.le_refl _

theorem expandOp_le (n : Nat) (op : ModifyOp) (h : implMaxSize < expandOp n op) : implMaxSize < 2 * (n + 1) := by
  by_cases hc : n ≤ 2 ^ 62
  · have := expand_le n hc
    unfold expandOp at h
    split at h <;> omega
  · rw [implMaxSize_eq]; omega

theorem expand_lim (n : Nat) (h : implMaxSize < expand n) : implMaxSize < 2 * (n + 1) :=
  expandOp_le n { assign := true, grow := true } (by simpa [expandOp] using h)

theorem implSize_of (n : Nat) (h : n ≤ maxSize) : implSize n = 17 + n := by
  unfold implSize; rw [maxSize_eq] at h; omega

theorem uaddSat_of (a b : Nat) (h : uaddSat a b ≤ maxSize) : uaddSat a b = a + b := by
  rw [maxSize_eq] at h; unfold uaddSat at *; omega

theorem uaddSat_lim (a b : Nat) (h : maxSize < uaddSat a b) : implMaxSize < 2 * (18 + (a + b)) := by
  rw [maxSize_eq] at h; rw [implMaxSize_eq]; unfold uaddSat at *; omega

section
variable (ok : Bool) {w : Wld} {L : List Cells} (h : R w L) {i : Nat} (hi : i < L.length)
include h hi

theorem reset_ok : ∃ w', reset w i = some (.success, w') ∧ R w' (L.set i []) := by
  obtain ⟨w', r1, r2, _⟩ := install_ok h hi (.sso (initSso 0)) [] ⟨rfl, initSso_shape 0 (by omega), by simp⟩
  simp only [install] at r1
  exact ⟨w', by simp only [reset, r1, Option.bind_eq_bind, Option.bind_some]; rfl, r2⟩

theorem create_ok (s : List UInt8) (hs : s.length < 2 ^ 63) :
    ∃ res w', create ok w i s = some (res, w') ∧ ((res = .success ∧ R w' (L.set i (s.map some))) ∨
      (res = .outOfMemory ∧ R w' (L.set i []) ∧ (ok = false ∨ implMaxSize < 2 * (18 + s.length)))) := by
  simp only [create, Option.bind_eq_bind]
  rcases initString_cases ok s.length hs with ⟨h1, h2⟩ | ⟨x, h1, h2, h3, h4⟩
  · obtain ⟨w', r1, r2⟩ := reset_ok h hi
    simp only [reset, Option.bind_eq_bind] at r1
    cases hr : w.replace i (.sso (initSso 0)) with
    | none => rw [hr] at r1; simp at r1
    | some w2 =>
      rw [hr] at r1
      simp only [Option.bind_some, Option.pure_def, Option.some.injEq, Prod.mk.injEq, true_and] at r1
      subst r1
      simp only [h1, Option.bind_some]
      exact ⟨_, _, rfl, .inr ⟨rfl, r2, h2.imp id (by omega)⟩⟩
  · obtain ⟨c, a1, a2, a3⟩ := wr_spec x.cells (s.map some) 0 (by simp; omega)
    simp only [List.length_map, Nat.zero_add, Nat.zero_le, true_and, Nat.sub_zero] at a3
    have hok := h4 c (s.map some) (by simp) a2 (h2.mono a2 (fun k hk => by rw [a3, if_neg (by omega)]))
      (fun k hk => by rw [a3, if_pos hk])
    obtain ⟨w', b1, b2, _⟩ := install_ok h hi _ _ hok
    simp only [h1, Option.bind_some, a1, b1]
    exact ⟨_, _, rfl, .inl ⟨rfl, b2⟩⟩

theorem clear_ok : ∃ w', clear w i = some (.success, w') ∧ R w' (L.set i []) := by
  obtain ⟨V⟩ := view h i hi
  have hhold := h.hold i _ _ V.hv (List.getElem?_eq_getElem hi)
  have hnil : L[i].length = 0 → R w (L.set i []) := by
    intro h0
    rw [← List.length_eq_zero_iff.1 h0, set_same]; exact h
  cases hv : V.v with
  | sso s =>
    have hV := V.hv
    rw [hv] at hV hhold
    have h14 := V.sso (by rw [hv]; rfl)
    have hu := V.hu
    have hs : ssoSize s = some L[i].length := ssoSize_of s _ h14.2.1 (by
      have := hhold.shape.2; simp only [if_true] at this; exact this.2.2)
    simp only [clear, hV, Option.bind_eq_bind, Option.bind_some, hs]
    by_cases h0 : L[i].length = 0
    · simp only [h0, ne_eq, not_true_eq_false, if_false]
      exact ⟨_, rfl, hnil h0⟩
    · simp only [h0, ne_eq, not_false_eq_true, if_true]
      have hlen : s.length = 15 := by have := hhold.shape.2; simp only [if_true] at this; exact this.1
      obtain ⟨c, a1, a2, a3⟩ := wr_spec s (List.replicate 14 (some 0)) 0 (by simp; omega)
      simp only [a1, Option.bind_some]
      refine ⟨_, rfl, rel_set_sso h s _ i hV [] ⟨rfl, ⟨?_, ?_⟩, by simp⟩⟩
      · simp only [setSsoSize, List.length_nil]
        rw [List.getElem?_set_ne (by omega), a3]; simp
      · simp only [if_true, setSsoSize, List.length_nil, List.length_set]
        exact ⟨by omega, by omega, by rw [List.getElem?_set_self (by omega)]⟩
  | dyn a =>
    have hV := V.hv
    rw [hv] at hV hhold
    obtain ⟨b, hbk, h1⟩ := hhold
    simp only [clear, hV, Option.bind_eq_bind, Option.bind_some, hbk]
    by_cases hrc : b.rc = 1
    · simp only [hrc, ne_eq, not_true_eq_false, if_false]
      by_cases h0 : b.val.size = 0
      · simp only [h0, not_true_eq_false, if_false]
        exact ⟨_, rfl, hnil (by rw [← h1.size]; exact h0)⟩
      · simp only [h0, not_false_eq_true, if_true]
        have hl := h1.shape.len
        obtain ⟨c, a1, a2, a3⟩ := wr_spec b.val.cells [some 0] 0 (by simp; omega)
        simp only [a1, Option.bind_some]
        refine ⟨_, rfl, (rel_mutate h i a hV b hbk hrc ⟨0, c⟩ [] ⟨rfl, ⟨?_, ?_⟩, by simp⟩).1⟩
        · simp only [List.length_nil]; rw [a3]; simp
        · simp only [Bool.false_eq_true, if_false]; omega
    · simp only [hrc, ne_eq, not_false_eq_true, if_true]
      obtain ⟨w', r1, r2, _⟩ := install_ok h hi (.sso (initSso 0)) [] ⟨rfl, initSso_shape 0 (by omega), by simp⟩
      simp only [install] at r1
      simp only [r1, Option.bind_some]
      exact ⟨_, rfl, r2⟩

/-- Copying the first `n` characters to a new string. -/
theorem copy_new (V : View w i L[i]) (n : Nat) (hn : n ≤ L[i].length) :
    (initString ok n n = some none ∧ (ok = false ∨ implMaxSize < 2 * (18 + n))) ∨
    (∃ x old c w', initString ok n n = some (some x) ∧ rd V.u.cells 0 n = some old ∧ wr x.cells 0 old = some c ∧
      install w i (x.withCells c) = some w' ∧ R w' (L.set i (L[i].take n)) ∧
      ∃ d, Now w' i x.isSso d ∧ d.cells.length = x.cells.length) := by
  have hl := V.len
  rcases initString_cases ok n (by omega) with ⟨h1, h2⟩ | ⟨x, h1, h2, h3, h4⟩
  · exact .inl ⟨h1, h2.imp id (by omega)⟩
  · right
    obtain ⟨old, r1, r2, r3⟩ := rd_spec V.u.cells 0 n (by omega)
    obtain ⟨c, a1, a2, a3⟩ := wr_spec x.cells old 0 (by omega)
    have htl : (L[i].take n).length = n := by rw [List.length_take]; omega
    have hok := h4 c (L[i].take n) htl a2 (h2.mono a2 (fun k hk => by rw [a3, if_neg (by omega)]))
      (fun k hk => by
        rw [a3, if_pos (by omega), r3, if_pos (by omega), List.getElem?_take, if_pos hk, ← V.hok.val k (by omega)]
        simp)
    obtain ⟨w', b1, b2, b3⟩ := install_ok h hi _ _ hok
    refine ⟨x, old, c, w', h1, r1, a1, b1, b2, ?_⟩
    cases x with
    | sso s => exact ⟨_, b3, a2⟩
    | dyn d => exact ⟨_, b3, a2⟩

theorem shrink_ok : Good w L i L[i] ok L[i].length (shrink ok w i) := by
  obtain ⟨V⟩ := view h i hi
  have hsame : R w (L.set i L[i]) := by rw [set_same]; exact h
  unfold Good
  simp only [shrink, V.hv, Option.bind_eq_bind, Option.bind_some]
  cases hv : V.v with
  | sso s => exact ⟨_, _, rfl, .inl ⟨rfl, hsame⟩⟩
  | dyn a =>
    have hhold := h.hold i _ _ V.hv (List.getElem?_eq_getElem hi)
    rw [hv] at hhold
    obtain ⟨b, hbk, h1⟩ := hhold
    have hbu : b.val = V.u := by have := V.hu; rw [hv] at this; simpa [unpack, hbk] using this
    simp only [hbk, Option.bind_some, hbu]
    split
    · rw [V.hok.size]
      rcases copy_new ok h hi V L[i].length (Nat.le_refl _) with ⟨e1, e2⟩ | ⟨x, old, c, w', e1, e2, e3, e4, e5, _⟩
      · simp only [e1, Option.bind_some]; exact ⟨_, _, rfl, .inr ⟨rfl, rfl, e2⟩⟩
      · simp only [e1, e2, e3, e4, Option.bind_some]
        rw [List.take_length] at e5
        exact ⟨_, _, rfl, .inl ⟨rfl, e5⟩⟩
    · exact ⟨_, _, rfl, .inl ⟨rfl, hsame⟩⟩

theorem reserve_ok (n : Nat) (hn : n < 2 ^ 64 - 17) :
    ∃ res w', reserve ok w i n = some (res, w') ∧ ((res = .success ∧ R w' L ∧ Room w' i n) ∨
      (res = .outOfMemory ∧ w' = w ∧ (ok = false ∨ implMaxSize < 2 * (18 + max n L[i].length)))) := by
  obtain ⟨V⟩ := view h i hi
  have hl := V.len
  simp only [reserve, V.hv, V.hu, V.hm, Option.bind_eq_bind, Option.bind_some]
  by_cases hmc : masked n V.m ≤ V.u.cap
  · rw [if_pos hmc]
    obtain ⟨m1, m2⟩ := (masked_le V n).1 hmc
    exact ⟨_, _, rfl, .inl ⟨rfl, h, V.v, V.u, V.hv, V.hu, by rw [V.hm, m1], m2⟩⟩
  · rw [if_neg hmc, V.hok.size]
    have e : implSize (max L[i].length n) = 17 + max L[i].length n := by unfold implSize; omega
    rw [e]
    rcases initDynamic_cases ok (17 + max L[i].length n) L[i].length (by omega) with ⟨h1, h2⟩ | ⟨d, h1, h2, h3, h4⟩
    · simp only [h1, Option.bind_some]
      exact ⟨_, _, rfl, .inr ⟨rfl, rfl, h2.imp id (by omega)⟩⟩
    · obtain ⟨old, r1, r2, r3⟩ := rd_spec V.u.cells 0 L[i].length (by omega)
      obtain ⟨c, a1, a2, a3⟩ := wr_spec d.cells old 0 (by omega)
      have hok : okB { d with cells := c } L[i] := by
        refine ⟨h2, h3.mono a2 (fun k hk => by rw [a3, if_neg (by omega)]), ?_⟩
        intro k hk
        rw [a3, if_pos (by omega), r3, if_pos (by omega), ← V.hok.val k hk]; simp
      obtain ⟨w', b1, b2, ⟨v', q1, q2, q3, q4⟩⟩ := install_ok h hi (.dyn { d with cells := c }) _ hok
      simp only [h1, r1, a1, b1, Option.bind_some]
      rw [set_same] at b2
      refine ⟨_, _, rfl, .inl ⟨rfl, b2, v', _, q1, q2, q3, ?_⟩⟩
      simp only [New.data, Data.cap]; omega

theorem makeMutable_ok : ∃ res w', makeMutable ok w i = some (res, w') ∧ ((res = .success ∧ R w' L ∧ ∃ v, w'.vars[i]? = some v ∧ w'.isMutable v = some true) ∨
      (res = .outOfMemory ∧ w' = w ∧ (ok = false ∨ implMaxSize < 2 * (18 + L[i].length)))) := by
  obtain ⟨V⟩ := view h i hi
  simp only [makeMutable, V.hv, Option.bind_eq_bind, Option.bind_some]
  cases hv : V.v with
  | sso s => exact ⟨_, _, rfl, .inl ⟨rfl, h, _, V.hv, by rw [hv]; rfl⟩⟩
  | dyn a =>
    have hhold := h.hold i _ _ V.hv (List.getElem?_eq_getElem hi)
    rw [hv] at hhold
    obtain ⟨b, hbk, h1⟩ := hhold
    have hbu : b.val = V.u := by have := V.hu; rw [hv] at this; simpa [unpack, hbk] using this
    simp only [hbk, Option.bind_some, hbu]
    by_cases hrc : b.rc = 1
    · rw [if_pos hrc]
      exact ⟨_, _, rfl, .inl ⟨rfl, h, _, V.hv, by rw [hv]; simp [World.isMutable, hbk, hrc]⟩⟩
    · rw [if_neg hrc, V.hok.size]
      rcases copy_new ok h hi V L[i].length (Nat.le_refl _) with ⟨e1, e2⟩ | ⟨x, old, c, w', e1, e2, e3, e4, e5, d, ⟨v', q1, q2, q3, _⟩, _⟩
      · simp only [e1, Option.bind_some]; exact ⟨_, _, rfl, .inr ⟨rfl, rfl, e2⟩⟩
      · simp only [e1, e2, e3, e4, Option.bind_some]
        rw [List.take_length, set_same] at e5
        exact ⟨_, _, rfl, .inl ⟨rfl, e5, v', q1, q3⟩⟩

/-- Storing characters inside of a mutable string. -/
theorem fillAt_ok (hm : ∃ v, w.vars[i]? = some v ∧ w.isMutable v = some true) (off : Nat) (xs : List UInt8)
    (ho : off + xs.length ≤ L[i].length) (y : Cells) (hy : y.length = L[i].length)
    (hyk : ∀ k, k < y.length → y[k]? = if off ≤ k ∧ k < off + xs.length then (xs.map some)[k - off]? else L[i][k]?) :
    ∃ w', fillAt w i off xs = some w' ∧ R w' (L.set i y) := by
  obtain ⟨V⟩ := view h i hi
  have hl := V.len
  have hmt : V.m = true := by
    obtain ⟨v, h1, h2⟩ := hm
    rw [V.hv] at h1; simp only [Option.some.injEq] at h1; subst h1
    rw [V.hm] at h2; simpa using h2
  obtain ⟨c, a1, a2, a3⟩ := wr_spec V.u.cells (xs.map some) off (by simp; omega)
  simp only [List.length_map] at a3
  obtain ⟨w', b1, b2, _⟩ := commit_ok h hi V hmt { V.u with cells := c } y
    ⟨by simp only; rw [hy]; exact V.hok.size, by rw [hy]; exact V.hok.shape.mono a2 (fun k hk => by rw [a3, if_neg (by omega)]),
      fun k hk => by
        rw [hyk k hk]; simp only; rw [a3]
        by_cases hc : off ≤ k ∧ k < off + xs.length
        · rw [if_pos hc, if_pos hc]
        · rw [if_neg hc, if_neg hc]; exact V.hok.val k (by omega)⟩
  simp only [fillAt, V.hv, V.hu, a1, Option.bind_eq_bind, Option.bind_some]
  exact ⟨w', b1, b2⟩

end
end Blend2D.Str
