import Verif.Gradient.Lemmas
/-! # What every call does -/
namespace Blend2D.Gradient
open Cow Spec
open Blend2D.Arr (Result implMaxSize expand masked)

variable {s : St} {L : List G} {i : Nat}

/-- The impl filled after an allocation of `bytes` bytes. -/
theorem fresh_ok (bytes : Nat) (hb : bytes ≤ implMaxSize) (h144 : 144 ≤ bytes) (g' : G)
    (hl : 144 + g'.stops.length * 16 ≤ bytes) (y : Impl) (hc : y.cap = (bytes - 144) / 16) (h1 : y.stops = g'.stops)
    (h2 : y.values = g'.values) (h3 : y.transform = g'.transform) (hk : CacheOk y) : okB y g'.val :=
  ⟨h1, h2, h3, by rw [hc, h1]; omega, by rw [hc]; omega, hk⟩

theorem put_eq (x : Impl) (l : List Stop) (h : l.length ≤ x.cap) : x.put l = some { x with stops := l } := by
  unfold Impl.put; rw [if_pos h]

section
variable (h : R s L) (hi : i < L.length)
include h hi

theorem reset_ok : Does s L i (.success, .default) False (reset s i) := by
  obtain ⟨w', h1, h2, h3⟩ := rel_replace_sso h.rel () i (by rw [List.length_map]; exact hi) G.default.val rfl
  refine ⟨.success, ⟨w', s.f.set i defFields⟩, by simp only [reset, h1, Option.bind_eq_bind, Option.bind_some]; rfl, .inr ⟨rfl, ?_, ?_, ?_⟩⟩
  · rw [List.map_set]; exact h2
  · rw [List.map_set, h.flds]; rfl
  · exact ok_set h _ okG_default

omit h hi in
theorem cap_lt {g : G} {x : Impl} (hx : okB x g.val) : x.cap < 2 ^ 60 - 9 := by
  have := hx.cap
  rw [max_eq] at this; omega

theorem create_ok (ok : Bool) (type extend : Nat) (values : List Rat) (m : Mat) (rs : List Raw)
    (hval : valueCount type ≤ values.length) (hn : rs.length < 2 ^ 58) (own : Bool) :
    Does s L i (effect own L[i] (.create type extend values m rs)) (ok = false) (create ok s i type extend values m rs) := by
  obtain ⟨W⟩ := view h hi
  unfold create effect
  simp only
  by_cases h1 : type > 2 ∨ extend > 2
  · rw [if_pos h1, if_pos (by tauto)]
    exact ⟨_, s, rfl, .inr ⟨rfl, h.self hi⟩⟩
  · rw [if_neg h1]
    have ha : (if rs = [] then Analysis.conforming else analyze rs) = analyze rs := by
      split
      · rename_i e; rw [e]; rfl
      · rfl
    rw [ha]
    by_cases hv : rs.all (fun r => inUnit r.offset)
    · have hinv : ¬ analyze rs = .invalid := by rw [analyze_invalid]; simpa using hv
      rw [if_neg hinv, if_neg (by tauto)]
      simp only [W.look, Option.bind_eq_bind, Option.bind_some]
      have hlen := initValues_length values (valueCount type) hval (valueCount_le type)
      have hal := assigned_length rs
      have hg : OkG ⟨⟨type, extend, Matrix.getType m⟩, assigned rs, initValues values (valueCount type), m⟩ :=
        ⟨assigned_valid rs hv, hlen, rfl⟩
      by_cases hcap : masked rs.length W.m > W.x.cap
      · rw [if_pos hcap]
        have hsz := implSize_eq rs.length (by omega)
        have h176 : initialSize = 176 := rfl
        rcases alloc_ok ok (max (implSize rs.length) initialSize) values (valueCount type) m (by omega) with ⟨e1, e2⟩ | ⟨e1, e2⟩
        · rw [e1]
          refine ⟨_, s, rfl, .inl ⟨rfl, rfl, ?_⟩⟩
          rcases e2 with e2 | e2
          · exact e2
          · rw [max_eq] at e2; omega
        · rw [e2]
          simp only
          rw [copyUnsafe_ok _ _ (by omega) hn hv]
          simp only [Option.bind_some]
          obtain ⟨s', r1, r2, _⟩ := renew_ok h hi ⟨(max (implSize rs.length) initialSize - 144) / 16, assigned rs, initValues values (valueCount type), m, none, none, none⟩ _
            (fresh_ok _ e1 (by omega) ⟨⟨type, extend, Matrix.getType m⟩, assigned rs, initValues values (valueCount type), m⟩ (by simp only; omega) _ rfl rfl rfl rfl (cacheOk_none rfl rfl rfl)) hg
          exact ⟨_, s', by rw [r1]; rfl, .inr ⟨rfl, r2⟩⟩
      · rw [if_neg hcap]
        have hm : W.m = true := by
          cases hmm : W.m with
          | true => rfl
          | false =>
            have := cap_lt W.hx
            simp only [masked, hmm, Bool.false_eq_true, ↓reduceIte] at hcap; omega
        have hle : rs.length ≤ W.x.cap := by simp only [masked, hm, ↓reduceIte] at hcap; omega
        rw [copyUnsafe_ok _ _ hle hn hv]
        simp only [Option.bind_some]
        obtain ⟨s', r1, r2, r3, _⟩ := store_ok h hi W hm
          (Impl.invalidate { W.x with values := initValues values (valueCount type), stops := assigned rs, transform := m })
          ⟨⟨type, extend, Matrix.getType m⟩, assigned rs, initValues values (valueCount type), m⟩
          ⟨rfl, rfl, rfl, by simp only [Impl.invalidate]; omega, W.hx.cap, invalidate_cache _⟩ hg
        exact ⟨_, _, by rw [r1]; rfl, .inr ⟨rfl, by rw [r2]; exact r3⟩⟩
    · have hinv : analyze rs = .invalid := by rw [analyze_invalid]; simpa using hv
      rw [if_pos hinv, if_pos (.inr (.inr (by simpa using hv)))]
      exact ⟨_, s, rfl, .inr ⟨rfl, h.self hi⟩⟩

theorem shrink_ok (ok : Bool) : Does s L i (.success, L[i]) (ok = false) (shrink ok s i) := by
  obtain ⟨W⟩ := view h hi
  have hx := W.hx
  unfold shrink
  rw [W.look]
  rw [Option.bind_eq_bind, Option.bind_some]
  dsimp only
  by_cases hd : slack (implSize W.x.cap) (implSize W.x.stops.length) < 16
  · rw [if_pos hd]
    exact ⟨_, s, rfl, .inr ⟨rfl, h.self hi⟩⟩
  · rw [if_neg hd]
    have hc := cap_lt hx
    have hf := hx.fits
    have hmx := hx.cap
    have hsz := implSize_eq W.x.stops.length (by omega)
    have hst : W.x.stops = L[i].stops := hx.stops
    rcases alloc_ok ok (implSize W.x.stops.length) W.x.values 6 W.x.transform (by omega) with ⟨e1, e2⟩ | ⟨e1, e2⟩
    · rw [e1]
      refine ⟨_, s, rfl, .inl ⟨rfl, rfl, ?_⟩⟩
      rcases e2 with e2 | e2
      · exact e2
      · omega
    · rw [e2]
      simp only
      rw [put_eq _ _ (by simp only; omega)]
      rw [Option.bind_eq_bind, Option.bind_some]
      dsimp only
      obtain ⟨s', r1, r2, _⟩ := renew_ok h hi ⟨(implSize W.x.stops.length - 144) / 16, W.x.stops, initValues W.x.values 6, W.x.transform, W.x.lut32, W.x.lut64, none⟩ L[i]
        (fresh_ok _ e1 (by omega) L[i] (by rw [← hst]; omega) _ rfl hst
          (by rw [show W.x.values = L[i].values from hx.values]; exact initValues_self _ W.hg.vlen) hx.transform
          ⟨by simp, hx.cache.lut32, hx.cache.lut64⟩) W.hg
      exact ⟨_, s', by rw [r1]; rfl, .inr ⟨rfl, r2⟩⟩

theorem reserve_ok (ok : Bool) (n : Nat) (hn : n < 2 ^ 60 - 9) (hs : ownOf s i = true ∨ L[i].stops.length ≤ max n 2) :
    Does s L i (.success, L[i]) (ok = false ∨ 2 ^ 58 ≤ n) (reserve ok s i n) := by
  obtain ⟨W⟩ := view h hi
  have hx := W.hx
  have hst : W.x.stops = L[i].stops := hx.stops
  simp only [reserve, W.look, Option.bind_eq_bind, Option.bind_some]
  split
  · exact ⟨_, s, rfl, .inr ⟨rfl, h.self hi⟩⟩
  · rename_i hcap
    have hc := cap_lt hx
    have hf := hx.fits
    have h176 : initialSize = 176 := rfl
    have hsz := implSize_eq n hn
    have hle : W.x.stops.length ≤ max n 2 := by
      rcases hs with hs | hs
      · rw [W.own] at hs
        simp only [masked, hs, ↓reduceIte] at hcap; omega
      · rw [hst]; exact hs
    rcases alloc_ok ok (max (implSize n) initialSize) W.x.values 6 W.x.transform (by omega) with ⟨e1, e2⟩ | ⟨e1, e2⟩
    · rw [e1]
      refine ⟨_, s, rfl, .inl ⟨rfl, rfl, ?_⟩⟩
      rcases e2 with e2 | e2
      · exact .inl e2
      · rw [max_eq] at e2; right; omega
    · rw [e2]
      simp only
      rw [put_eq _ _ (by simp only; omega)]
      simp only [Option.bind_some]
      obtain ⟨s', r1, r2, _⟩ := renew_ok h hi ⟨(max (implSize n) initialSize - 144) / 16, W.x.stops, initValues W.x.values 6, W.x.transform, W.x.lut32, W.x.lut64, none⟩ L[i]
        (fresh_ok _ e1 (by omega) L[i] (by rw [← hst]; omega) _ rfl hst
          (by rw [show W.x.values = L[i].values from hx.values]; exact initValues_self _ W.hg.vlen) hx.transform
          ⟨by simp, hx.cache.lut32, hx.cache.lut64⟩) W.hg
      exact ⟨_, s', by rw [r1]; rfl, .inr ⟨rfl, r2⟩⟩

theorem setType_ok (type : Nat) : Does s L i (apply L[i] (.setType type)) False (setType s i type) := by
  obtain ⟨W⟩ := view h hi
  unfold setType Spec.apply
  simp only
  by_cases ht : type > 2
  · rw [if_pos ht, if_pos ht]
    exact ⟨_, s, rfl, .inr ⟨rfl, h.self hi⟩⟩
  · rw [if_neg ht, if_neg ht]
    simp only [W.hf, Option.bind_eq_bind, Option.bind_some]
    exact ⟨_, _, rfl, .inr ⟨rfl, h.setFields hi _ rfl⟩⟩

theorem setExtend_ok (e : Nat) : Does s L i (apply L[i] (.setExtend e)) False (setExtend s i e) := by
  obtain ⟨W⟩ := view h hi
  unfold setExtend Spec.apply
  simp only
  by_cases ht : e > 2
  · rw [if_pos ht, if_pos ht]
    exact ⟨_, s, rfl, .inr ⟨rfl, h.self hi⟩⟩
  · rw [if_neg ht, if_neg ht]
    simp only [W.hf, Option.bind_eq_bind, Option.bind_some]
    exact ⟨_, _, rfl, .inr ⟨rfl, h.setFields hi _ rfl⟩⟩

/-- `make_mutable`: afterwards the impl is not shared; the values that the type does not have may have been lost. -/
theorem makeMutable_ok (ok cc : Bool) :
    ∃ r s', makeMutable ok s i cc = some (r, s') ∧ ((r = .outOfMemory ∧ s' = s ∧ ok = false) ∨
      (r = .success ∧ R s' (L.set i { L[i] with values := if ownOf s i then L[i].values else trim L[i] }) ∧
        ∃ y, look s' i = some (y, true, L[i].fields) ∧ (cc = false → y.lut32 = none ∧ y.lut64 = none ∧ y.info = none))) := by
  obtain ⟨W⟩ := view h hi
  have hx := W.hx
  have hg := W.hg
  have hst : W.x.stops = L[i].stops := hx.stops
  unfold makeMutable
  simp only [W.look, Option.bind_eq_bind, Option.bind_some, W.own]
  cases hm : W.m with
  | true =>
    simp only [Bool.true_eq_false, ↓reduceIte]
    cases cc with
    | false =>
      simp only [↓reduceIte]
      obtain ⟨s', r1, r2, r3⟩ := store_ok' h hi W hm W.x.invalidate L[i]
        ⟨hx.stops, hx.values, hx.transform, hx.fits, hx.cap, invalidate_cache _⟩ hg rfl
      exact ⟨_, s', by rw [r1]; rfl, .inr ⟨rfl, r2, _, r3, fun _ => ⟨rfl, rfl, rfl⟩⟩⟩
    | true =>
      simp only [Bool.true_eq_false, ↓reduceIte]
      exact ⟨_, s, rfl, .inr ⟨rfl, h.self hi, _, by rw [W.look, hm], by simp⟩⟩
  | false =>
    simp only [↓reduceIte, Bool.false_eq_true]
    have hc := cap_lt hx
    have hf := hx.fits
    have hmx := hx.cap
    have hsz := implSize_eq W.x.cap hc
    simp only [deepCopy, W.look, Option.bind_eq_bind, Option.bind_some]
    rcases alloc_ok ok (implSize W.x.cap) W.x.values (valueCount L[i].fields.type) W.x.transform (by omega) with ⟨e1, e2⟩ | ⟨e1, e2⟩
    · rw [e1]
      refine ⟨_, s, rfl, .inl ⟨rfl, rfl, ?_⟩⟩
      rcases e2 with e2 | e2
      · exact e2
      · omega
    · rw [e2]
      simp only
      rw [put_eq _ _ (by simp only; omega)]
      simp only [Option.bind_some]
      have hcap : (implSize W.x.cap - 144) / 16 = W.x.cap := by omega
      rw [hcap]
      have htrim : initValues W.x.values (valueCount L[i].fields.type) = trim L[i] := by
        rw [show W.x.values = L[i].values from hx.values]; rfl
      have hg' : OkG { L[i] with values := trim L[i] } := ⟨hg.valid, trim_length hg, hg.tt⟩
      cases cc with
      | true =>
        simp only [↓reduceIte]
        obtain ⟨s', r1, r2, r3⟩ := renew_ok h hi ⟨W.x.cap, W.x.stops, initValues W.x.values (valueCount L[i].fields.type), W.x.transform, W.x.lut32, W.x.lut64, W.x.info⟩ { L[i] with values := trim L[i] }
          ⟨hst, htrim, hx.transform, hx.fits, hx.cap, ⟨hx.cache.info, hx.cache.lut32, hx.cache.lut64⟩⟩ hg'
        exact ⟨_, s', by rw [r1]; rfl, .inr ⟨rfl, r2, _, r3, by simp⟩⟩
      | false =>
        simp only [Bool.false_eq_true, ↓reduceIte]
        obtain ⟨s', r1, r2, r3⟩ := renew_ok h hi ⟨W.x.cap, W.x.stops, initValues W.x.values (valueCount L[i].fields.type), W.x.transform, none, none, none⟩ { L[i] with values := trim L[i] }
          ⟨hst, htrim, hx.transform, hx.fits, hx.cap, cacheOk_none rfl rfl rfl⟩ hg'
        exact ⟨_, s', by rw [r1]; rfl, .inr ⟨rfl, r2, _, r3, fun _ => ⟨rfl, rfl, rfl⟩⟩⟩

theorem resetStops_ok (ok : Bool) : Does s L i (.success, { L[i] with stops := [] }) (ok = false) (resetStops ok s i) := by
  obtain ⟨W⟩ := view h hi
  have hx := W.hx
  have hg := W.hg
  have hst : W.x.stops = L[i].stops := hx.stops
  have hg' : OkG { L[i] with stops := [] } := ⟨valid_nil, hg.vlen, hg.tt⟩
  simp only [resetStops, W.look, Option.bind_eq_bind, Option.bind_some]
  by_cases h0 : W.x.stops.length = 0
  · rw [if_pos h0]
    refine ⟨_, s, rfl, .inr ⟨rfl, ?_⟩⟩
    have : ({ L[i] with stops := [] } : G) = L[i] := by
      rw [List.length_eq_zero_iff, hst] at h0
      rw [← h0]
    rw [this]; exact h.self hi
  · rw [if_neg h0]
    cases hm : W.m with
    | false =>
      simp only [↓reduceIte]
      rcases alloc_ok ok initialSize W.x.values 6 W.x.transform (by simp [initialSize]) with ⟨e1, e2⟩ | ⟨e1, e2⟩
      · rw [e1]
        refine ⟨_, s, rfl, .inl ⟨rfl, rfl, ?_⟩⟩
        rcases e2 with e2 | e2
        · exact e2
        · rw [max_eq] at e2; simp [initialSize] at e2
      · rw [e2]
        simp only
        obtain ⟨s', r1, r2, _⟩ := renew_ok h hi ⟨(initialSize - 144) / 16, [], initValues W.x.values 6, W.x.transform, none, none, none⟩ { L[i] with stops := [] }
          (fresh_ok _ e1 (by simp [initialSize]) { L[i] with stops := [] } (by simp [initialSize]) _ rfl rfl
            (by rw [show W.x.values = L[i].values from hx.values]; exact initValues_self _ W.hg.vlen) hx.transform (cacheOk_none rfl rfl rfl)) hg'
        exact ⟨_, s', by rw [r1]; rfl, .inr ⟨rfl, r2⟩⟩
    | true =>
      simp only [Bool.true_eq_false, ↓reduceIte]
      obtain ⟨s', r1, r2, _⟩ := store_ok' h hi W hm (Impl.invalidate { W.x with stops := [] }) { L[i] with stops := [] }
        ⟨rfl, hx.values, hx.transform, by simp [Impl.invalidate], hx.cap, invalidate_cache _⟩ hg' rfl
      exact ⟨_, s', by rw [r1]; rfl, .inr ⟨rfl, r2⟩⟩

theorem assignStops_ok (ok : Bool) (rs : List Raw) (hn : rs.length < 2 ^ 58) (own : Bool) :
    Does s L i (effect own L[i] (.assignStops rs)) (ok = false) (assignStops ok s i rs) := by
  obtain ⟨W⟩ := view h hi
  have hx := W.hx
  have hg := W.hg
  unfold assignStops effect
  simp only
  by_cases h0 : rs.length = 0
  · rw [if_pos h0]
    have : rs = [] := List.length_eq_zero_iff.1 h0
    subst this
    rw [if_neg (by simp)]
    exact resetStops_ok h hi ok
  · rw [if_neg h0]
    simp only [W.look, Option.bind_eq_bind, Option.bind_some]
    by_cases hv : rs.all (fun r => inUnit r.offset)
    · have hinv : ¬ analyze rs = .invalid := by rw [analyze_invalid]; simpa using hv
      rw [if_neg hinv, if_neg (by tauto)]
      have hal := assigned_length rs
      have hg' : OkG { L[i] with stops := assigned rs } := ⟨assigned_valid rs hv, hg.vlen, hg.tt⟩
      by_cases hcap : masked rs.length W.m > W.x.cap
      · rw [if_pos hcap]
        have hsz := implSize_eq rs.length (by omega)
        have h176 : initialSize = 176 := rfl
        rcases alloc_ok ok (max (implSize rs.length) initialSize) W.x.values 6 W.x.transform (by omega) with ⟨e1, e2⟩ | ⟨e1, e2⟩
        · rw [e1]
          refine ⟨_, s, rfl, .inl ⟨rfl, rfl, ?_⟩⟩
          rcases e2 with e2 | e2
          · exact e2
          · rw [max_eq] at e2; omega
        · rw [e2]
          simp only
          rw [copyUnsafe_ok _ _ (by omega) hn hv]
          simp only [Option.bind_some]
          obtain ⟨s', r1, r2, _⟩ := renew_ok h hi ⟨(max (implSize rs.length) initialSize - 144) / 16, assigned rs, initValues W.x.values 6, W.x.transform, none, none, none⟩ { L[i] with stops := assigned rs }
            (fresh_ok _ e1 (by omega) { L[i] with stops := assigned rs } (by simp only; omega) _ rfl rfl
              (by rw [show W.x.values = L[i].values from hx.values]; exact initValues_self _ W.hg.vlen) hx.transform (cacheOk_none rfl rfl rfl)) hg'
          exact ⟨_, s', by rw [r1]; rfl, .inr ⟨rfl, r2⟩⟩
      · rw [if_neg hcap]
        have hm : W.m = true := by
          cases hmm : W.m with
          | true => rfl
          | false =>
            have := cap_lt W.hx
            simp only [masked, hmm, Bool.false_eq_true, ↓reduceIte] at hcap; omega
        have hle : rs.length ≤ W.x.cap := by simp only [masked, hm, ↓reduceIte] at hcap; omega
        rw [copyUnsafe_ok _ _ hle hn hv]
        simp only [Option.bind_some]
        obtain ⟨s', r1, r2, _⟩ := store_ok' h hi W hm (Impl.invalidate { W.x with stops := assigned rs }) { L[i] with stops := assigned rs }
          ⟨rfl, hx.values, hx.transform, by simp only [Impl.invalidate]; omega, W.hx.cap, invalidate_cache _⟩ hg' rfl
        exact ⟨_, s', by rw [r1]; rfl, .inr ⟨rfl, r2⟩⟩
    · have hinv : analyze rs = .invalid := by rw [analyze_invalid]; simpa using hv
      rw [if_pos hinv, if_pos (by simpa using hv)]
      exact ⟨_, s, rfl, .inr ⟨rfl, h.self hi⟩⟩

end
end Blend2D.Gradient
