import Verif.Arr.Model
/-! # Lemmas about `BLArray` -/
namespace Blend2D.Arr
open Cow

variable {α : Type}

/-! ### Sizes -/

theorem implMaxSize_eq : implMaxSize = 9223372036854771711 := rfl

theorem implSize_of_le (c : Cfg α) (n : Nat) (h : n * c.itemSize ≤ 2 ^ 63) : c.implSize n = 24 + n * c.itemSize := by
  unfold Cfg.implSize; exact Nat.mod_eq_of_lt (by omega)

theorem le_maxCap (c : Cfg α) (hp : 0 < c.itemSize) (n : Nat) (h : n ≤ c.maxCap) :
    24 + n * c.itemSize ≤ implMaxSize := by
  unfold Cfg.maxCap at h
  have := (Nat.le_div_iff_mul_le hp).1 h
  rw [implMaxSize_eq] at *; omega

theorem le_expand (n : Nat) : n ≤ expand n := by
  unfold expand; exact Nat.le_max_right _ _

theorem expand_le (n : Nat) (h : n ≤ 2 ^ 62) : expand n ≤ 2 * (n + 1) := by
  unfold expand
  simp only
  split
  · have h1 := Nat.mod_le (n + n / 4 + n / 8) (2 ^ 64)
    exact Nat.max_le.2 ⟨by omega, by omega⟩
  · have h2 : 2 ^ Nat.log2 (n + 1) ≤ n + 1 := Nat.log2_self_le (by omega)
    rw [Nat.pow_succ]
    exact Nat.max_le.2 ⟨by omega, by omega⟩

theorem capacity_ge (c : Cfg α) (hp : 0 < c.itemSize) (n s : Nat) (h1 : 24 + n * c.itemSize ≤ s) (h2 : s ≤ implMaxSize) :
    n ≤ c.capacity s := by
  unfold Cfg.capacity
  rw [implMaxSize_eq] at h2
  have e : (s + 2 ^ 64 - 24) % 2 ^ 64 = s - 24 := by omega
  rw [e]
  exact (Nat.le_div_iff_mul_le hp).2 (by omega)

theorem capacity_le (c : Cfg α) (s : Nat) (h1 : 24 ≤ s) (h2 : s ≤ implMaxSize) :
    c.capacity s * c.itemSize ≤ 2 ^ 63 := by
  unfold Cfg.capacity
  rw [implMaxSize_eq] at h2
  have e : (s + 2 ^ 64 - 24) % 2 ^ 64 = s - 24 := by omega
  rw [e]
  have := Nat.div_mul_le_self (s - 24) c.itemSize
  omega

/-! ### Buffers -/

theorem rd_app (v t : List (Option α)) (off n : Nat) (h : off + n ≤ v.length) :
    rd (v ++ t) off n = some ((v.drop off).take n) := by
  unfold rd
  rw [if_pos (by rw [List.length_append]; omega)]
  congr 1
  rw [List.drop_append, List.take_append_of_le_length (by rw [List.length_drop]; omega)]

theorem rd_all (v t : List (Option α)) : rd (v ++ t) 0 v.length = some v := by
  rw [rd_app v t 0 v.length (by omega)]; simp

theorem wr_mid (p m s x : List (Option α)) (off : Nat) (h : off = p.length) (hx : x.length = m.length) :
    wr (p ++ (m ++ s)) off x = some (p ++ (x ++ s)) := by
  subst h
  unfold wr
  rw [if_pos (by simp only [List.length_append]; omega)]
  congr 1
  have e1 : (p ++ (m ++ s)).take p.length = p := by simp
  have e2 : (p ++ (m ++ s)).drop (p.length + x.length) = s := by
    rw [hx, ← List.append_assoc, ← List.length_append]; simp
  rw [e1, e2, List.append_assoc]

/-- Writing right behind `p`. -/
theorem wr_app (p t x : List (Option α)) (off : Nat) (h : off = p.length) (hx : x.length ≤ t.length) :
    wr (p ++ t) off x = some (p ++ (x ++ t.drop x.length)) := by
  have := wr_mid p (t.take x.length) (t.drop x.length) x off h (by rw [List.length_take]; omega)
  rwa [List.take_append_drop] at this

theorem wr_len {cells r x : List (Option α)} {off : Nat} (h : wr cells off x = some r) : r.length = cells.length := by
  unfold wr at h
  split at h
  · rename_i hc
    simp only [Option.some.injEq] at h
    subst h
    simp only [List.length_append, List.length_take, List.length_drop]; omega
  · simp at h

theorem wr_zero (t x : List (Option α)) (hx : x.length ≤ t.length) : wr t 0 x = some (x ++ t.drop x.length) := by
  have := wr_app [] t x 0 rfl hx
  simpa using this

/-! ### The relation -/

/-- The buffer starts with the content. -/
def OkD (d : Data α) (v : List (Option α)) : Prop := d.size = v.length ∧ ∃ t, d.cells = v ++ t

def okS (c : Cfg α) (d : Data α) (v : List (Option α)) : Prop := d.cells.length = c.ssoCap ∧ OkD d v

def okB (c : Cfg α) (b : Impl α) (v : List (Option α)) : Prop := b.d.cells.length * c.itemSize ≤ 2 ^ 63 ∧ OkD b.d v

abbrev R (c : Cfg α) (w : Wld α) (L : List (List (Option α))) : Prop := Rel (okS c) (okB c) w L []

theorem okD_iff (cells : List (Option α)) (size : Nat) (v t : List (Option α)) (h : cells = v ++ t) (hs : size = v.length) :
    OkD ⟨size, cells⟩ v := ⟨hs, t, h⟩

theorem okS_static (c : Cfg α) (v : List (Option α)) (hv : v.length ≤ c.ssoCap) :
    okS c ⟨v.length, v ++ (c.static 0).cells.drop v.length⟩ v := by
  refine ⟨?_, rfl, _, rfl⟩
  simp only [Cfg.static, List.length_append, List.length_drop, List.length_replicate]; omega

/-- What an operation sees of variable `i`. -/
structure View (c : Cfg α) (w : Wld α) (i : Nat) (l : List (Option α)) where
  v : Core (Data α)
  u : Data α
  m : Bool
  t : List (Option α)
  hv : w.vars[i]? = some v
  hu : unpack w v = some u
  hm : w.isMutable v = some m
  hs : u.size = l.length
  hc : u.cells = l ++ t
  hb : u.cells.length * c.itemSize ≤ 2 ^ 63

theorem view (c : Cfg α) {w : Wld α} {L : List (List (Option α))} (h : R c w L) (i : Nat) (hi : i < L.length)
    : Nonempty (View c w i L[i]) := by
  have hlt : i < w.vars.length := by rw [h.len]; exact hi
  have hvar : w.vars[i]? = some w.vars[i] := List.getElem?_eq_getElem hlt
  have hh := h.hold i _ _ hvar (List.getElem?_eq_getElem hi)
  generalize hg : w.vars[i] = v at *
  cases v with
  | sso s =>
    obtain ⟨h1, h2, t, h3⟩ := hh
    refine ⟨⟨.sso s, s, true, t, hvar, rfl, rfl, h2, h3, ?_⟩⟩
    rw [h1]
    unfold Cfg.ssoCap
    have := Nat.div_mul_le_self 12 c.itemSize
    omega
  | dyn a =>
    obtain ⟨b, hb, h1, h2, t, h3⟩ := hh
    exact ⟨⟨.dyn a, b.val.d, b.rc == 1, t, hvar, by simp [unpack, hb], by simp [World.isMutable, hb], h2, h3, h1⟩⟩

theorem View.len {c : Cfg α} {w : Wld α} {i : Nat} {l : List (Option α)} (V : View c w i l) : l.length ≤ V.u.cells.length := by
  rw [V.hc, List.length_append]; omega

/-- Changing a mutable instance in place. -/
theorem put_ok (c : Cfg α) {w : Wld α} {L : List (List (Option α))} (h : R c w L) {i : Nat} (hi : i < L.length)
    (V : View c w i L[i]) (hm : V.m = true) (d : Data α) (x : List (Option α))
    (hd : d.cells.length = V.u.cells.length) (hx : OkD d x) :
    ∃ w', put w i d = some w' ∧ R c w' (L.set i x) ∧ (∃ v', w'.vars[i]? = some v' ∧ unpack w' v' = some d ∧ w'.isMutable v' = some true) ∧
      w'.heap.length = w.heap.length := by
  have hlt : i < w.vars.length := by rw [h.len]; exact hi
  have hhold := h.hold i _ _ V.hv (List.getElem?_eq_getElem hi)
  obtain ⟨v, u, m, t, hv, hu, hmm, hs, hc, hb⟩ := V
  simp only at hm hd hhold
  subst hm
  cases v with
  | sso s =>
    simp only [unpack, Option.some.injEq] at hu
    subst hu
    refine ⟨_, by simp only [put, hv, Option.bind_eq_bind, Option.bind_some]; rfl,
      rel_set_sso h s d i hv x ⟨by rw [hd]; exact hhold.1, hx⟩, ⟨.sso d, ?_, rfl, rfl⟩, rfl⟩
    simp only [World.setVar]; rw [List.getElem?_set_self hlt]
  | dyn a =>
    obtain ⟨b, hbk, h1, h2⟩ := hhold
    simp only [unpack, hbk, Option.map_some, Option.some.injEq] at hu
    subst hu
    have hrc : b.rc = 1 := by simpa [World.isMutable, hbk] using hmm
    obtain ⟨r1, r2, r3⟩ := rel_mutate h i a hv b hbk hrc { b.val with d := d } x ⟨by simp only; rw [hd]; exact h1, hx⟩
    refine ⟨_, by simp only [put, hv, Option.bind_eq_bind, Option.bind_some, hbk]; rfl, r1, ⟨.dyn a, by rw [r2]; exact hv, ?_, ?_⟩, ?_⟩
    · simp only [unpack, r3, Option.map_some]
    · simp only [World.isMutable, r3, Option.map_some, hrc]; rfl
    · unfold World.setVal; split <;> simp

theorem install_ok (c : Cfg α) {w : Wld α} {L : List (List (Option α))} (h : R c w L) {i : Nat} (hi : i < L.length)
    (sso : Bool) (d : Data α) (x : List (Option α)) (h1 : sso = true → d.cells.length = c.ssoCap)
    (h2 : sso = false → d.cells.length * c.itemSize ≤ 2 ^ 63) (hx : OkD d x) :
    ∃ w', install w i sso d = some w' ∧ R c w' (L.set i x) ∧
      (∃ v', w'.vars[i]? = some v' ∧ unpack w' v' = some d ∧ w'.isMutable v' = some true) := by
  have hlt : i < w.vars.length := by rw [h.len]; exact hi
  cases sso with
  | true =>
    obtain ⟨w', r1, r2, r3⟩ := rel_replace_sso h d i hi x ⟨h1 rfl, hx⟩
    refine ⟨w', by simp only [install, if_true]; exact r1, r2, .sso d, ?_, rfl, rfl⟩
    rw [r3, List.getElem?_set_self hlt]
  | false =>
    obtain ⟨w', r1, r2, r3, r4⟩ := rel_replace_new h 1 (⟨false, d⟩ : Impl α) (by omega) i hi x ⟨h2 rfl, hx⟩
    refine ⟨w', by simp only [install, Bool.false_eq_true, if_false]; exact r1, r2, .dyn w.heap.length, ?_, ?_, ?_⟩
    · rw [r3, List.getElem?_set_self hlt]
    · simp only [unpack, r4, Option.map_some]
    · simp only [World.isMutable, r4, Option.map_some]; rfl

/-- `moved` only touches variable `i`. -/
theorem moved_ok (c : Cfg α) {w : Wld α} {L : List (List (Option α))} (h : R c w L) {i : Nat} (hi : i < L.length)
    (V : View c w i L[i]) (m : Bool) (hm : m = true → V.m = true) :
    ∃ w1 L1, moved w i m V.u = some w1 ∧ R c w1 L1 ∧ L1.length = L.length ∧ ∀ x, L1.set i x = L.set i x := by
  cases m with
  | false => exact ⟨w, L, rfl, h, rfl, fun _ => rfl⟩
  | true =>
    obtain ⟨w1, h1, h2, _⟩ := put_ok c h hi V (hm rfl) { V.u with size := 0 } [] rfl ⟨rfl, _, rfl⟩
    refine ⟨w1, L.set i [], by simp only [moved, if_true]; exact h1, h2, List.length_set, fun x => by rw [List.set_set]⟩

theorem moved_install (c : Cfg α) {w : Wld α} {L : List (List (Option α))} (h : R c w L) {i : Nat} (hi : i < L.length)
    (V : View c w i L[i]) (m : Bool) (hm : m = true → V.m = true) (sso : Bool) (d : Data α) (x : List (Option α))
    (h1 : sso = true → d.cells.length = c.ssoCap)
    (h2 : sso = false → d.cells.length * c.itemSize ≤ 2 ^ 63) (hx : OkD d x) :
    ∃ w1 w', moved w i m V.u = some w1 ∧ install w1 i sso d = some w' ∧ R c w' (L.set i x) ∧
      (∃ v', w'.vars[i]? = some v' ∧ unpack w' v' = some d ∧ w'.isMutable v' = some true) := by
  obtain ⟨w1, L1, a1, a2, a3, a4⟩ := moved_ok c h hi V m hm
  obtain ⟨w', b1, b2, b3⟩ := install_ok c a2 (i := i) (by omega) sso d x h1 h2 hx
  exact ⟨w1, w', a1, b1, by rw [← a4]; exact b2, b3⟩

/-- What is known after a successful allocation. -/
theorem initDynamic_some (c : Cfg α) (hp : 0 < c.itemSize) (ok : Bool) (size s n : Nat) (d : Data α)
    (h : c.initDynamic ok size s = some d) (hn : 24 + n * c.itemSize ≤ s) :
    d.size = size ∧ n ≤ d.cells.length ∧ d.cells.length * c.itemSize ≤ 2 ^ 63 ∧ d.cells.length = c.capacity s := by
  unfold Cfg.initDynamic at h
  split at h
  · simp at h
  · rename_i hs
    split at h
    · simp only [Option.some.injEq] at h
      subst h
      have e : (List.replicate (c.capacity s) (none : Option α)).length = c.capacity s := List.length_replicate
      exact ⟨rfl, by rw [e]; exact capacity_ge c hp n s hn (by omega), by rw [e]; exact capacity_le c s (by omega) (by omega), e⟩
    · simp at h

/-- Out of memory: `malloc` failed or the impl would be larger than the limit. -/
theorem initDynamic_none (c : Cfg α) (ok : Bool) (size s : Nat) (h : c.initDynamic ok size s = none) :
    ok = false ∨ implMaxSize < s := by
  unfold Cfg.initDynamic at h
  split at h
  · exact .inr (by omega)
  · split at h
    · simp at h
    · exact .inl (by simpa using ‹¬ ok = true›)

end Blend2D.Arr
