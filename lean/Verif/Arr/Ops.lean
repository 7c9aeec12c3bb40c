import Verif.Arr.Lemmas
/-! # The operations of `BLArray` keep the relation -/
namespace Blend2D.Arr
open Cow

variable {α : Type}

/-- The operation succeeds and variable `i` becomes `l`, or it reports that it is out of memory and changes
nothing, which happens only if `malloc` fails or `n` items are about as much as an impl can hold. -/
def Good (c : Cfg α) (w : Wld α) (L : List (List (Option α))) (i : Nat) (l : List (Option α)) (ok : Bool) (n : Nat)
    (r : Option (Result × Wld α)) : Prop :=
  ∃ res w', r = some (res, w') ∧ ((res = .success ∧ R c w' (L.set i l)) ∨
    (res = .outOfMemory ∧ w' = w ∧ (ok = false ∨ implMaxSize < 2 * (25 + n * c.itemSize))))

theorem set_same (L : List (List (Option α))) (i : Nat) (hi : i < L.length) : L.set i L[i] = L := List.set_getElem_self hi

theorem View.dyn {c : Cfg α} {w : Wld α} {i : Nat} {l : List (Option α)} (V : View c w i l) :
    ∃ m, isDynMutable w V.v = some m ∧ (m = true → V.m = true) := by
  obtain ⟨v, u, m, t, hv, hu, hmm, hs, hc, hb⟩ := V
  cases v with
  | sso s => exact ⟨false, rfl, by simp⟩
  | dyn a => exact ⟨m, hmm, id⟩

section
variable (c : Cfg α) (hp : 0 < c.itemSize) (ok : Bool) {w : Wld α} {L : List (List (Option α))} (h : R c w L) {i : Nat}
  (hi : i < L.length)
include h hi

theorem reset_ok : ∃ w', reset c w i = some (.success, w') ∧ R c w' (L.set i []) := by
  obtain ⟨w', r1, r2, _⟩ := rel_replace_sso h (c.static 0) i hi [] ⟨by simp [Cfg.static], rfl, _, rfl⟩
  exact ⟨w', by simp only [reset, r1, Option.bind_eq_bind, Option.bind_some]; rfl, r2⟩

theorem clear_ok : ∃ w', clear c w i = some (.success, w') ∧ R c w' (L.set i []) := by
  obtain ⟨V⟩ := view c h i hi
  have hhold := h.hold i _ _ V.hv (List.getElem?_eq_getElem hi)
  have V' := V
  obtain ⟨v, u, m, t, hv, hu, hmm, hs, hc, hb⟩ := V
  simp only at hhold
  have hst : okS c (c.static 0) [] := ⟨by simp [Cfg.static], rfl, _, rfl⟩
  cases v with
  | sso d =>
    simp only [unpack, Option.some.injEq] at hu
    subst hu
    by_cases h0 : d.size = 0
    · refine ⟨w, by simp only [clear, hv, Option.bind_eq_bind, Option.bind_some, h0]; rfl, ?_⟩
      have : L[i] = [] := List.length_eq_zero_iff.1 (by omega)
      rw [← this, set_same]; exact h
    · exact ⟨_, by simp only [clear, hv, Option.bind_eq_bind, Option.bind_some, h0, ne_eq, not_false_eq_true, if_true]; rfl,
        rel_set_sso h d _ i hv [] hst⟩
  | dyn a =>
    obtain ⟨b, hbk, h1, h2⟩ := hhold
    have hrel : b.rc ≠ 1 → ∃ w', clear c w i = some (.success, w') ∧ R c w' (L.set i []) := by
      intro hrc
      obtain ⟨w', r1, r2, _⟩ := rel_replace_sso h (c.static 0) i hi [] hst
      exact ⟨w', by simp only [clear, hv, Option.bind_eq_bind, Option.bind_some, hbk, hrc, ne_eq, not_false_eq_true, if_true, r1]; rfl, r2⟩
    by_cases hrc : b.rc = 1
    · have hbu : b.val.d = u := by simpa [unpack, hbk] using hu
      by_cases h0 : b.val.d.size = 0
      · refine ⟨w, by simp only [clear, hv, Option.bind_eq_bind, Option.bind_some, hbk, hrc, ne_eq, not_true_eq_false, if_false, h0, if_true]; rfl, ?_⟩
        have : L[i] = [] := List.length_eq_zero_iff.1 (by rw [← hs, ← hbu]; exact h0)
        rw [← this, set_same]; exact h
      · have hm : m = true := by
          have : (b.rc == 1) = m := by simpa [World.isMutable, hbk] using hmm
          rw [← this, hrc]; rfl
        obtain ⟨w', p1, p2, _⟩ := put_ok c h hi ⟨.dyn a, u, m, t, hv, hu, hmm, hs, hc, hb⟩ hm { b.val.d with size := 0 } []
          (by simp only [hbu]) ⟨rfl, _, rfl⟩
        exact ⟨w', by simp only [clear, hv, Option.bind_eq_bind, Option.bind_some, hbk, hrc, ne_eq, not_true_eq_false, if_false, h0, p1]; rfl, p2⟩
    · exact hrel hrc

omit h in
theorem fill_new (V : View c w i L[i]) (t' : List (Option α)) (hl : L[i].length ≤ t'.length) :
    rd V.u.cells 0 V.u.size = some L[i] ∧ wr t' 0 L[i] = some (L[i] ++ t'.drop L[i].length) := by
  constructor
  · rw [V.hs, V.hc]; exact rd_all _ _
  · exact wr_zero _ _ hl

include hp in
theorem reallocToDynamic_ok (s : Nat) (hs : 24 + L[i].length * c.itemSize ≤ s) :
    ∃ res w', reallocToDynamic c ok w i s = some (res, w') ∧
      ((res = .success ∧ R c w' L ∧ ∃ v' u', w'.vars[i]? = some v' ∧ unpack w' v' = some u' ∧ u'.cells.length = c.capacity s ∧ w'.isMutable v' = some true) ∨
       (res = .outOfMemory ∧ w' = w ∧ (ok = false ∨ implMaxSize < s))) := by
  obtain ⟨V⟩ := view c h i hi
  simp only [reallocToDynamic, V.hv, V.hu, Option.bind_eq_bind, Option.bind_some]
  cases hd : c.initDynamic ok V.u.size s with
  | none => exact ⟨_, w, rfl, .inr ⟨rfl, rfl, initDynamic_none c ok _ _ hd⟩⟩
  | some d =>
    obtain ⟨d1, d2, d3, d4⟩ := initDynamic_some c hp ok _ _ L[i].length d hd hs
    obtain ⟨f1, f2⟩ := fill_new c hi V d.cells d2
    obtain ⟨m, m1, m2⟩ := V.dyn
    have hlen : (L[i] ++ d.cells.drop L[i].length).length = d.cells.length := wr_len f2
    obtain ⟨w1, w', q1, q2, q3, v', q4, q5, q6⟩ := moved_install c h hi V m m2 false { d with cells := L[i] ++ d.cells.drop L[i].length } L[i]
      (by simp) (by intro _; simp only; rw [hlen]; exact d3) ⟨by simp only; rw [d1]; exact V.hs, _, rfl⟩
    simp only [f1, f2, m1, q1, Option.bind_some]
    rw [set_same] at q3
    refine ⟨.success, w', ?_, .inl ⟨rfl, q3, v', _, q4, q5, by simp only; rw [hlen, d4], q6⟩⟩
    rw [q2]; rfl

omit h hi in
include hp in
/-- Replacing by a freshly built array whose capacity is `n`. -/
theorem initArray_cases (size n : Nat) (hn : n * c.itemSize ≤ 2 ^ 63) :
    (∃ sso d, c.initArray ok size n = some (sso, d) ∧ d.size = size ∧ n ≤ d.cells.length ∧
      (sso = true → d.cells.length = c.ssoCap) ∧ (sso = false → d.cells.length * c.itemSize ≤ 2 ^ 63)) ∨
    (c.initArray ok size n = none ∧ (ok = false ∨ implMaxSize < 24 + n * c.itemSize)) := by
  unfold Cfg.initArray
  by_cases hc : n ≤ c.ssoCap
  · rw [if_pos hc]
    exact .inl ⟨true, _, rfl, rfl, by simp [Cfg.static, hc], by simp [Cfg.static], by simp⟩
  · rw [if_neg hc, implSize_of_le c n hn]
    cases hd : c.initDynamic ok size (24 + n * c.itemSize) with
    | none => exact .inr ⟨rfl, initDynamic_none c ok _ _ hd⟩
    | some d =>
      obtain ⟨d1, d2, d3, d4⟩ := initDynamic_some c hp ok _ _ n d hd (Nat.le_refl _)
      exact .inl ⟨false, d, rfl, d1, d2, by simp, fun _ => d3⟩

include hp in
theorem shrink_ok : Good c w L i L[i] ok L[i].length (shrink c ok w i) := by
  obtain ⟨V⟩ := view c h i hi
  have hhold := h.hold i _ _ V.hv (List.getElem?_eq_getElem hi)
  have hsame : R c w (L.set i L[i]) := by rw [set_same]; exact h
  unfold Good
  simp only [shrink, V.hv, V.hu, Option.bind_eq_bind, Option.bind_some]
  by_cases hsz : V.u.size ≤ c.ssoCap
  · rw [if_pos hsz]
    cases hv : V.v with
    | sso s => exact ⟨_, _, rfl, .inl ⟨rfl, hsame⟩⟩
    | dyn a =>
      simp only
      have hl : L[i].length ≤ (c.static 0).cells.length := by simp only [Cfg.static, List.length_replicate]; rw [← V.hs]; exact hsz
      obtain ⟨f1, f2⟩ := fill_new c hi V _ hl
      obtain ⟨w', q1, q2, _⟩ := install_ok c h hi true ⟨V.u.size, L[i] ++ (c.static 0).cells.drop L[i].length⟩ L[i]
        (fun _ => by simp only; rw [wr_len f2]; simp [Cfg.static]) (by simp) ⟨V.hs, _, rfl⟩
      simp only [f1, f2, q1, Option.bind_some]
      exact ⟨_, _, rfl, .inl ⟨rfl, q2⟩⟩
  · rw [if_neg hsz]
    cases hv : V.v with
    | sso s =>
      exfalso
      rw [hv] at hhold
      have h1 := V.hu
      rw [hv] at h1
      simp only [unpack, Option.some.injEq] at h1
      have := V.len
      rw [← h1, hhold.1, ← V.hs] at this
      omega
    | dyn a =>
      rw [hv] at hhold
      obtain ⟨b, hbk, _, _⟩ := hhold
      simp only [hbk, Option.bind_some]
      by_cases he : b.val.ext = true
      · rw [if_pos he]; exact ⟨_, _, rfl, .inl ⟨rfl, hsame⟩⟩
      · rw [if_neg he]
        split
        · have hle : V.u.size * c.itemSize ≤ 2 ^ 63 :=
            Nat.le_trans (Nat.mul_le_mul_right _ (by rw [V.hs]; exact V.len)) V.hb
          have hle' := hle
          rw [implSize_of_le c _ hle]
          rw [V.hs] at hle' ⊢
          obtain ⟨res, w', r1, r2⟩ := reallocToDynamic_ok c hp ok h hi (24 + L[i].length * c.itemSize) (Nat.le_refl _)
          refine ⟨res, w', r1, ?_⟩
          rcases r2 with ⟨e, r2, _⟩ | ⟨e, r2, r3⟩
          · exact .inl ⟨e, by rw [set_same]; exact r2⟩
          · exact .inr ⟨e, r2, r3.imp id (by intro; omega)⟩
        · exact ⟨_, _, rfl, .inl ⟨rfl, hsame⟩⟩

omit h in
theorem masked_le (V : View c w i L[i]) (hp : 0 < c.itemSize) (n : Nat) : masked n V.m ≤ V.u.cells.length ↔ V.m = true ∧ n ≤ V.u.cells.length := by
  unfold masked
  have h1 : V.u.cells.length ≤ 2 ^ 63 := by
    have := V.hb
    have := Nat.le_mul_of_pos_right V.u.cells.length hp
    omega
  cases V.m
  · simp only [Bool.false_eq_true, if_false, false_and, iff_false]; omega
  · simp

/-- After a successful `reserve(n)` the array is mutable and has room for `n` items. -/
def Room (w : Wld α) (i n : Nat) : Prop :=
  ∃ v u, w.vars[i]? = some v ∧ unpack w v = some u ∧ w.isMutable v = some true ∧ n ≤ u.cells.length

include hp in
theorem reserve_ok (n : Nat) :
    ∃ res w', reserve c ok w i n = some (res, w') ∧ ((res = .success ∧ R c w' L ∧ Room w' i n) ∨
      (res = .outOfMemory ∧ w' = w ∧ (ok = false ∨ implMaxSize < 2 * (25 + max n L[i].length * c.itemSize)))) := by
  obtain ⟨V⟩ := view c h i hi
  simp only [reserve, V.hv, V.hu, V.hm, Option.bind_eq_bind, Option.bind_some]
  by_cases hmc : masked n V.m ≤ V.u.cells.length
  · rw [if_pos hmc]
    obtain ⟨m1, m2⟩ := (masked_le c hi V hp n).1 hmc
    exact ⟨_, _, rfl, .inl ⟨rfl, h, V.v, V.u, V.hv, V.hu, by rw [V.hm, m1], m2⟩⟩
  · rw [if_neg hmc]
    by_cases hx : n > c.maxCap
    · rw [if_pos hx]
      refine ⟨_, _, rfl, .inr ⟨rfl, rfl, .inr ?_⟩⟩
      have h1 : ¬ n * c.itemSize ≤ implMaxSize - 24 := by
        intro hc; exact absurd ((Nat.le_div_iff_mul_le hp).2 hc) (by unfold Cfg.maxCap at hx; omega)
      have h2 : n * c.itemSize ≤ max n L[i].length * c.itemSize := Nat.mul_le_mul_right _ (Nat.le_max_left _ _)
      rw [implMaxSize_eq] at *; omega
    · rw [if_neg hx]
      by_cases hso : max n V.u.size ≤ c.ssoCap
      · rw [if_pos hso]
        have hl : L[i].length ≤ (c.static 0).cells.length := by
          simp only [Cfg.static, List.length_replicate]; rw [← V.hs]; omega
        obtain ⟨f1, f2⟩ := fill_new c hi V _ hl
        obtain ⟨w', q1, q2, v', q3, q4, q5⟩ := install_ok c h hi true ⟨V.u.size, L[i] ++ (c.static 0).cells.drop L[i].length⟩ L[i]
          (fun _ => by simp only; rw [wr_len f2]; simp [Cfg.static]) (by simp) ⟨V.hs, _, rfl⟩
        simp only [f1, f2, q1, Option.bind_some]
        rw [set_same] at q2
        refine ⟨_, _, rfl, .inl ⟨rfl, q2, v', _, q3, q4, q5, ?_⟩⟩
        simp only
        rw [wr_len f2]
        simp only [Cfg.static, List.length_replicate]; omega
      · rw [if_neg hso]
        have hn : 24 + n * c.itemSize ≤ implMaxSize := le_maxCap c hp n (by omega)
        have hlu : L[i].length * c.itemSize ≤ 2 ^ 63 := Nat.le_trans (Nat.mul_le_mul_right _ V.len) V.hb
        have hmx : max n V.u.size * c.itemSize ≤ 2 ^ 63 := by
          rw [V.hs]
          rcases Nat.le_total n L[i].length with hc | hc
          · rw [Nat.max_eq_right hc]; exact hlu
          · rw [Nat.max_eq_left hc]; rw [implMaxSize_eq] at hn; omega
        rw [implSize_of_le c _ hmx, V.hs]
        obtain ⟨res, w', r1, r2⟩ := reallocToDynamic_ok c hp ok h hi (24 + max n L[i].length * c.itemSize)
          (Nat.add_le_add_left (Nat.mul_le_mul_right _ (Nat.le_max_right _ _)) _)
        refine ⟨res, w', r1, ?_⟩
        rcases r2 with ⟨e, r2, v', u', q1, q2, q3, q4⟩ | ⟨e, r2, r3⟩
        · refine .inl ⟨e, r2, v', u', q1, q2, q4, ?_⟩
          rw [q3]
          by_cases hlim : 24 + max n L[i].length * c.itemSize ≤ implMaxSize
          · exact Nat.le_trans (Nat.le_max_left _ _) (capacity_ge c hp _ _ (Nat.le_refl _) hlim)
          · -- then nothing was allocated
            exfalso
            obtain ⟨V2⟩ := view c r2 i hi
            have hcap : (24 + max n L[i].length * c.itemSize) > implMaxSize := by omega
            have : reallocToDynamic c ok w i (24 + max n L[i].length * c.itemSize) = some (.outOfMemory, w) := by
              simp only [reallocToDynamic, V.hv, V.hu, Option.bind_eq_bind, Option.bind_some, Cfg.initDynamic, if_pos hcap]; rfl
            rw [this] at r1
            simp only [Option.some.injEq, Prod.mk.injEq] at r1
            rw [← r1.1] at e
            exact absurd e (by decide)
        · exact .inr ⟨e, r2, r3.imp id (by intro; omega)⟩

include hp in
theorem makeMutable_ok : ∃ res w', makeMutable c ok w i = some (res, w') ∧ ((res = .success ∧ R c w' L ∧ Room w' i L[i].length) ∨
      (res = .outOfMemory ∧ w' = w ∧ (ok = false ∨ implMaxSize < 2 * (25 + L[i].length * c.itemSize)))) := by
  obtain ⟨V⟩ := view c h i hi
  simp only [makeMutable, V.hv, Option.bind_eq_bind, Option.bind_some]
  have hlu : L[i].length * c.itemSize ≤ 2 ^ 63 := Nat.le_trans (Nat.mul_le_mul_right _ V.len) V.hb
  cases hv : V.v with
  | sso s =>
    refine ⟨_, _, rfl, .inl ⟨rfl, h, V.v, V.u, V.hv, V.hu, by rw [hv]; rfl, V.len⟩⟩
  | dyn a =>
    have hhold := h.hold i _ _ V.hv (List.getElem?_eq_getElem hi)
    rw [hv] at hhold
    obtain ⟨b, hbk, _, _⟩ := hhold
    have hbu : b.val.d = V.u := by have := V.hu; rw [hv] at this; simpa [unpack, hbk] using this
    simp only [hbk, Option.bind_some]
    by_cases hrc : b.rc = 1
    · rw [if_pos hrc]
      exact ⟨_, _, rfl, .inl ⟨rfl, h, V.v, V.u, V.hv, V.hu, by rw [hv]; simp [World.isMutable, hbk, hrc], V.len⟩⟩
    · rw [if_neg hrc, hbu]
      rcases initArray_cases c hp ok V.u.size V.u.size (by rw [V.hs]; exact hlu) with ⟨sso, d, e1, e2, e3, e4, e5⟩ | ⟨e1, e2⟩
      · obtain ⟨f1, f2⟩ := fill_new c hi V d.cells (by rw [← V.hs]; exact e3)
        obtain ⟨w', q1, q2, v', q3, q4, q5⟩ := install_ok c h hi sso { d with cells := L[i] ++ d.cells.drop L[i].length } L[i]
          (fun hc => by simp only; rw [wr_len f2]; exact e4 hc) (fun hc => by simp only; rw [wr_len f2]; exact e5 hc)
          ⟨by simp only; rw [e2, V.hs], _, rfl⟩
        simp only [e1, f1, f2, q1, Option.bind_some]
        rw [set_same] at q2
        exact ⟨_, _, rfl, .inl ⟨rfl, q2, v', _, q3, q4, q5, by simp only; rw [List.length_append]; omega⟩⟩
      · simp only [e1]
        exact ⟨_, _, rfl, .inr ⟨rfl, rfl, e2.imp id (by rw [V.hs]; intro; omega)⟩⟩

end
end Blend2D.Arr
