import Verif.Gradient.Insert
import Verif.Matrix.Props
import Verif.Cow.Touch
/-! # Instances, impls and values -/
namespace Blend2D.Gradient
open Cow Spec
open Blend2D.Arr (Result implMaxSize expand masked)

/-- The part of the value that is in the impl. -/
structure V where
  stops : List Stop
  values : List Rat
  transform : Mat

def _root_.Blend2D.Gradient.Spec.G.val (g : G) : V := ⟨g.stops, g.values, g.transform⟩

/-- What is cached was computed from the stops of the impl. -/
structure CacheOk (x : Impl) : Prop where
  info : ∀ inf, x.info = some inf → computeInfo x.stops = some inf
  lut32 : ∀ l, x.lut32 = some l → ∃ inf, computeInfo x.stops = some inf ∧ l = ⟨inf.lut false, x.stops⟩
  lut64 : ∀ l, x.lut64 = some l → ∃ inf, computeInfo x.stops = some inf ∧ l = ⟨inf.lut true, x.stops⟩

def okS (_ : Unit) (v : V) : Prop := v = G.default.val

structure okB (x : Impl) (v : V) : Prop where
  stops : x.stops = v.stops
  values : x.values = v.values
  transform : x.transform = v.transform
  fits : x.stops.length ≤ x.cap
  cap : 144 + x.cap * 16 ≤ implMaxSize
  cache : CacheOk x

structure OkG (g : G) : Prop where
  valid : Valid g.stops
  vlen : g.values.length = 6
  tt : g.fields.ttype = Matrix.getType g.transform

structure R (s : St) (L : List G) : Prop where
  rel : Rel okS okB s.w (L.map G.val) []
  flds : s.f = L.map G.fields
  ok : ∀ g ∈ L, OkG g

theorem getType_identity (m : Mat) : Matrix.getType m = .identity ↔ m = Matrix.identity := (Matrix.C29_type_sound m).1

theorem okG_default : OkG .default := ⟨valid_nil, rfl, by
  show Matrix.Ty.identity = _
  exact ((getType_identity _).2 rfl).symm⟩

theorem okB_def : okB defImpl G.default.val :=
  ⟨rfl, rfl, rfl, by simp [defImpl], by simp [defImpl, implMaxSize], ⟨by simp [defImpl], by simp [defImpl], by simp [defImpl]⟩⟩

theorem cacheOk_none {x : Impl} (h1 : x.lut32 = none) (h2 : x.lut64 = none) (h3 : x.info = none) : CacheOk x :=
  ⟨by simp [h3], by simp [h1], by simp [h2]⟩

theorem invalidate_cache (x : Impl) : CacheOk x.invalidate := cacheOk_none rfl rfl rfl

structure View (s : St) (L : List G) (i : Nat) (g : G) where
  x : Impl
  m : Bool
  c : Core Unit
  hv : s.w.vars[i]? = some c
  hf : s.f[i]? = some g.fields
  hi : implOf s c = some x
  hm : mutOf s c = some m
  hx : okB x g.val
  hg : OkG g

variable {s : St} {L : List G} {i : Nat}

theorem view (h : R s L) (hi : i < L.length) : Nonempty (View s L i L[i]) := by
  have hl : i < s.w.vars.length := by rw [h.rel.len, List.length_map]; exact hi
  have hv : s.w.vars[i]? = some s.w.vars[i] := List.getElem?_eq_getElem hl
  have hh := h.rel.hold i _ L[i].val hv (by rw [List.getElem?_map, List.getElem?_eq_getElem hi]; rfl)
  have hf : s.f[i]? = some L[i].fields := by rw [h.flds, List.getElem?_map, List.getElem?_eq_getElem hi]; rfl
  have hg := h.ok L[i] (List.getElem_mem hi)
  cases hc : s.w.vars[i] with
  | sso u =>
    rw [hc] at hv hh
    exact ⟨⟨defImpl, false, .sso u, hv, hf, rfl, rfl, by rw [show L[i].val = G.default.val from hh]; exact okB_def, hg⟩⟩
  | dyn a =>
    rw [hc] at hv hh
    obtain ⟨b, hb, hok⟩ := hh
    exact ⟨⟨b.val, b.rc == 1, .dyn a, hv, hf, by simp [implOf, hb], by simp [mutOf, hb], hok, hg⟩⟩

theorem View.look {g : G} (V : View s L i g) : look s i = some (V.x, V.m, g.fields) := by
  simp only [Gradient.look, V.hv, V.hi, V.hm, V.hf, Option.bind_eq_bind, Option.bind_some]; rfl

/-- Is the impl of gradient `i` mutable, that is, not shared? -/
def ownOf (s : St) (i : Nat) : Bool := ((look s i).map (fun p => p.2.1)).getD false

theorem View.own {g : G} (V : View s L i g) : ownOf s i = V.m := by
  rw [ownOf, V.look]; rfl

theorem R.setFields (h : R s L) (hi : i < L.length) (f : Fields) (hf : f.ttype = L[i].fields.ttype) :
    R { s with f := s.f.set i f } (L.set i { L[i] with fields := f }) := by
  refine ⟨?_, ?_, ?_⟩
  · have : (L.set i { L[i] with fields := f }).map G.val = L.map G.val := by
      rw [List.map_set]
      apply List.ext_getElem
      · simp
      · intro k h1 h2
        rw [List.getElem_set]
        split
        · rename_i hk; subst hk; simp [G.val]
        · rfl
    rw [this]; exact h.rel
  · rw [List.map_set, h.flds]
  · intro g hg
    rcases List.mem_or_eq_of_mem_set hg with hg | rfl
    · exact h.ok g hg
    · have := h.ok L[i] (List.getElem_mem hi)
      exact ⟨this.valid, this.vlen, by rw [hf]; exact this.tt⟩

theorem ok_set (h : R s L) (g' : G) (hg : OkG g') : ∀ g ∈ L.set i g', OkG g := by
  intro g hm
  rcases List.mem_or_eq_of_mem_set hm with hm | rfl
  · exact h.ok g hm
  · exact hg

/-- A new impl. -/
theorem renew_ok (h : R s L) (hi : i < L.length) (y : Impl) (g' : G) (hy : okB y g'.val) (hg : OkG g') :
    ∃ s', renew s i y g'.fields = some s' ∧ R s' (L.set i g') ∧ look s' i = some (y, true, g'.fields) := by
  obtain ⟨w', h1, h2, h3, h4⟩ := rel_replace_new h.rel 1 y (by omega) i (by rw [List.length_map]; exact hi) g'.val hy
  have hl : i < s.w.vars.length := by rw [h.rel.len, List.length_map]; exact hi
  have hfl : i < s.f.length := by rw [h.flds, List.length_map]; exact hi
  refine ⟨⟨w', s.f.set i g'.fields⟩, ?_, ⟨?_, ?_, ok_set h g' hg⟩, ?_⟩
  · have e : s.w.alloc 1 y = ((s.w.alloc 1 y).1, (s.w.alloc 1 y).2) := rfl
    simp only [renew, Option.bind_eq_bind]
    rw [h1]; rfl
  · rw [List.map_set]; exact h2
  · rw [List.map_set, h.flds]
  · have hv : w'.vars[i]? = some (.dyn s.w.heap.length) := by rw [h3, List.getElem?_set_self hl]
    simp only [look, hv, implOf, mutOf, h4, List.getElem?_set_self hfl, Option.bind_eq_bind, Option.bind_some, Option.map_some]
    rfl

/-- A store to an impl that is not shared, and to the fields. -/
theorem store_ok (h : R s L) (hi : i < L.length) (W : View s L i L[i]) (hm : W.m = true) (y : Impl) (g' : G) (hy : okB y g'.val) (hg : OkG g') :
    ∃ s', store s i y = some s' ∧ s'.f = s.f ∧ R { s' with f := s.f.set i g'.fields } (L.set i g') ∧
      look { s' with f := s.f.set i g'.fields } i = some (y, true, g'.fields) := by
  have hfl : i < s.f.length := by rw [h.flds, List.length_map]; exact hi
  cases hc : W.c with
  | sso u =>
    have := W.hm
    rw [hc, hm] at this
    simp [mutOf] at this
  | dyn a =>
    have h1 := W.hv
    have h2 := W.hm
    rw [hc] at h1 h2
    rw [hm] at h2
    simp only [mutOf, Option.map_eq_some_iff] at h2
    obtain ⟨b, hb, hrc⟩ := h2
    have hrc : b.rc = 1 := by simpa using hrc
    obtain ⟨r1, r2, r3⟩ := rel_mutate h.rel i a h1 b hb hrc y g'.val hy
    refine ⟨{ s with w := s.w.setVal a y }, ?_, rfl, ⟨?_, ?_, ok_set h g' hg⟩, ?_⟩
    · simp only [store, h1, Option.bind_eq_bind, Option.bind_some]; rfl
    · rw [List.map_set]; exact r1
    · rw [List.map_set, h.flds]
    · have hv : (s.w.setVal a y).vars[i]? = some (.dyn a) := by rw [r2]; exact h1
      simp only [look, hv, implOf, mutOf, r3, List.getElem?_set_self hfl, Option.bind_eq_bind, Option.bind_some, Option.map_some, hrc]
      rfl

/-- The same when the fields stay as they are. -/
theorem store_ok' (h : R s L) (hi : i < L.length) (W : View s L i L[i]) (hm : W.m = true) (y : Impl) (g' : G) (hy : okB y g'.val) (hg : OkG g')
    (hf : g'.fields = L[i].fields) :
    ∃ s', store s i y = some s' ∧ R s' (L.set i g') ∧ look s' i = some (y, true, g'.fields) := by
  obtain ⟨s', h1, h2, h3, h4⟩ := store_ok h hi W hm y g' hy hg
  have : { s' with f := s.f.set i g'.fields } = s' := by
    rw [hf, show s.f.set i L[i].fields = s.f by
      have := W.hf
      apply List.ext_getElem?
      intro k
      rw [List.getElem?_set]
      split
      · rename_i hk; subst hk
        rw [this]
        have := (List.getElem?_eq_some_iff.1 this).1
        rw [if_pos this]
      · rfl]
    rw [← h2]
  rw [this] at h3 h4
  exact ⟨s', h1, h3, h4⟩

/-! ## Allocation -/

theorem implSize_eq (n : Nat) (h : n < 2 ^ 60 - 9) : implSize n = 144 + n * 16 := by
  unfold implSize; rw [Nat.mod_eq_of_lt (by omega)]

theorem max_eq : implMaxSize = 2 ^ 63 - 1 - 4096 := by unfold implMaxSize; omega

theorem expand_ge (n : Nat) : n ≤ expand n := by unfold expand; exact Nat.le_max_right _ _

theorem expand_small (n : Nat) (h : n < 2 ^ 62 + 2 ^ 61 / 4) : expand n ≤ implMaxSize := by
  rw [max_eq]
  have e : expand n = max (if n ≥ 2 ^ 23 then (n + n / 4 + n / 8) % 2 ^ 64 else 2 ^ (Nat.log2 (n + 1) + 1)) n := rfl
  rw [e]
  apply Nat.max_le.2
  refine ⟨?_, by omega⟩
  split
  · rw [Nat.mod_eq_of_lt (by omega)]; omega
  · rename_i hn
    have : 2 ^ (Nat.log2 (n + 1) + 1) ≤ 2 ^ 25 := by
      have h1 : Nat.log2 (n + 1) ≤ 24 := by
        by_contra hc
        have : 2 ^ Nat.log2 (n + 1) ≤ n + 1 := Nat.log2_self_le (by omega)
        have : 2 ^ 25 ≤ 2 ^ Nat.log2 (n + 1) := Nat.pow_le_pow_right (by omega) (by omega)
        omega
      exact Nat.pow_le_pow_right (by omega) (by omega)
    omega

/-- A successful allocation. -/
theorem alloc_ok (ok : Bool) (bytes : Nat) (values : List Rat) (n : Nat) (m : Mat) (hb : 144 ≤ bytes) :
    (allocImpl ok bytes values n m = none ∧ (ok = false ∨ implMaxSize < bytes)) ∨
    (bytes ≤ implMaxSize ∧ allocImpl ok bytes values n m = some ⟨(bytes - 144) / 16, [], initValues values n, m, none, none, none⟩) := by
  unfold allocImpl
  by_cases h : bytes > implMaxSize ∨ ok = false
  · rw [if_pos h]
    exact .inl ⟨rfl, h.symm⟩
  · rw [if_neg h]
    right
    refine ⟨by omega, ?_⟩
    have := max_eq
    rw [show (bytes + 2 ^ 64 - 144) % 2 ^ 64 = bytes - 144 by omega]

theorem initValues_self (l : List Rat) (h : l.length = 6) : initValues l 6 = l := by
  unfold initValues
  rw [List.take_of_length_le (by omega)]; simp

theorem initValues_length (l : List Rat) (n : Nat) (hn : n ≤ l.length) (h6 : n ≤ 6) : (initValues l n).length = 6 := by
  unfold initValues
  simp; omega

theorem valueCount_le (t : Nat) : valueCount t ≤ 6 := by
  unfold valueCount; split_ifs <;> omega

theorem trim_length {g : G} (hg : OkG g) : (trim g).length = 6 :=
  initValues_length _ _ (by rw [hg.vlen]; exact valueCount_le _) (valueCount_le _)

/-- The call does `e`, or it is out of memory and does nothing. -/
def Does (s : St) (L : List G) (i : Nat) (e : Result × G) (oom : Prop) (x : Option (Result × St)) : Prop :=
  ∃ r s', x = some (r, s') ∧ ((r = .outOfMemory ∧ s' = s ∧ oom) ∨ (r = e.1 ∧ R s' (L.set i e.2)))

theorem R.self (h : R s L) (hi : i < L.length) : R s (L.set i L[i]) := by rw [List.set_getElem_self]; exact h

end Blend2D.Gradient
