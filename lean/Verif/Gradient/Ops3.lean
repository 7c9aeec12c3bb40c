import Verif.Gradient.Ops2
/-! # What every call does (adding and replacing stops, transformations) -/
namespace Blend2D.Gradient
open Cow Spec
open Blend2D.Arr (Result implMaxSize expand masked)

variable {s : St} {L : List G} {i : Nat}

/-- The values kept when the impl becomes mutable. -/
def vals (own : Bool) (g : G) : List Rat := if own then g.values else trim g

section
variable (h : R s L) (hi : i < L.length)
include h hi

/-- The state after `make_mutable`. -/
theorem afterMut (ok cc : Bool) :
    ∃ r s1, makeMutable ok s i cc = some (r, s1) ∧ ((r = .outOfMemory ∧ s1 = s ∧ ok = false) ∨
      (r = .success ∧ ∃ L1, L1 = L.set i { L[i] with values := vals (ownOf s i) L[i] } ∧ ∃ hi1 : i < L1.length,
        L1[i] = { L[i] with values := vals (ownOf s i) L[i] } ∧ R s1 L1 ∧
        ∃ W : View s1 L1 i L1[i], W.m = true ∧ (cc = false → W.x.lut32 = none ∧ W.x.lut64 = none ∧ W.x.info = none))) := by
  obtain ⟨r, s1, e1, e2⟩ := makeMutable_ok h hi ok cc
  refine ⟨r, s1, e1, ?_⟩
  rcases e2 with e2 | ⟨rfl, r1, y, r2, r3⟩
  · exact .inl e2
  · right
    refine ⟨rfl, _, rfl, by rw [List.length_set]; exact hi, by rw [List.getElem_set_self], r1, ?_⟩
    obtain ⟨W⟩ := view r1 (by rw [List.length_set]; exact hi)
    refine ⟨W, ?_⟩
    have := W.look
    rw [r2] at this
    simp only [Option.some.injEq, Prod.mk.injEq] at this
    rw [← this.1]
    exact ⟨this.2.1.symm, r3⟩

theorem resetTransform_ok (ok : Bool) :
    Does s L i (effect (ownOf s i) L[i] .resetTransform) (ok = false) (resetTransform ok s i) := by
  obtain ⟨W0⟩ := view h hi
  unfold resetTransform
  simp only [W0.hf, Option.bind_eq_bind, Option.bind_some]
  show Does s L i (if L[i].fields.ttype = .identity then _ else _) _ _
  by_cases ht : L[i].fields.ttype = .identity
  · rw [if_pos ht, if_pos ht]
    exact ⟨_, s, rfl, .inr ⟨rfl, h.self hi⟩⟩
  · rw [if_neg ht, if_neg ht]
    obtain ⟨r, s1, e1, e2⟩ := afterMut h hi ok true
    rw [e1]
    simp only [Option.bind_some]
    rcases e2 with ⟨rfl, rfl, hok⟩ | ⟨rfl, L1, hL1, hi1, hget, r1, W, hm, _⟩
    · exact ⟨_, s1, rfl, .inl ⟨rfl, rfl, hok⟩⟩
    · have hx := W.hx
      obtain ⟨s', q1, q2, q3, _⟩ := store_ok r1 hi1 W hm { W.x with transform := Matrix.identity }
        { L1[i] with transform := Matrix.identity, fields := { L1[i].fields with ttype := .identity } }
        ⟨hx.stops, hx.values, rfl, hx.fits, hx.cap, ⟨hx.cache.info, hx.cache.lut32, hx.cache.lut64⟩⟩
        ⟨W.hg.valid, W.hg.vlen, ((getType_identity _).2 rfl).symm⟩
      rw [W.look]
      simp only [ne_eq, not_true_eq_false, ↓reduceIte, Option.bind_some, q1, q2]
      refine ⟨_, _, rfl, .inr ⟨rfl, ?_⟩⟩
      rw [hget, hL1, List.set_set] at q3
      have : (Matrix.getType (Matrix.identity : Mat)) = .identity := (getType_identity _).2 rfl
      rw [this]
      simp only [hget]
      exact q3

theorem applyTransform_ok (ok : Bool) (f : Mat → Mat) :
    Does s L i (effect (ownOf s i) L[i] (.applyTransform f)) (ok = false) (applyTransform ok s i f) := by
  unfold applyTransform
  obtain ⟨r, s1, e1, e2⟩ := afterMut h hi ok true
  rw [e1]
  simp only [Option.bind_eq_bind, Option.bind_some]
  rcases e2 with ⟨rfl, rfl, hok⟩ | ⟨rfl, L1, hL1, hi1, hget, r1, W, hm, _⟩
  · exact ⟨_, s1, rfl, .inl ⟨rfl, rfl, hok⟩⟩
  · have hx := W.hx
    have htr : W.x.transform = L[i].transform := by
      have : W.x.transform = L1[i].transform := hx.transform
      rw [this, hget]
    obtain ⟨s', q1, q2, q3, _⟩ := store_ok r1 hi1 W hm { W.x with transform := f W.x.transform }
      { L1[i] with transform := f W.x.transform, fields := { L1[i].fields with ttype := Matrix.getType (f W.x.transform) } }
      ⟨hx.stops, hx.values, rfl, hx.fits, hx.cap, ⟨hx.cache.info, hx.cache.lut32, hx.cache.lut64⟩⟩
      ⟨W.hg.valid, W.hg.vlen, rfl⟩
    rw [W.look]
    simp only [ne_eq, not_true_eq_false, ↓reduceIte, Option.bind_some, q1, q2]
    refine ⟨_, _, rfl, .inr ⟨rfl, ?_⟩⟩
    rw [htr, hget, hL1, List.set_set] at q3
    simp only [hget, htr]
    exact q3

/-- Replacing the color of a stop. -/
theorem replaceSame (add : St → Option (Result × St)) (ok : Bool) (k : Nat) (hk : k < L[i].stops.length) (rgba : Nat) :
    Does s L i (.success, { L[i] with stops := L[i].stops.set k ⟨L[i].stops[k].offset, rgba⟩, values := vals (ownOf s i) L[i] }) (ok = false)
      (replaceWith add ok s i k (some L[i].stops[k].offset) rgba) := by
  obtain ⟨W0⟩ := view h hi
  have hst0 : W0.x.stops = L[i].stops := W0.hx.stops
  unfold replaceWith
  rw [W0.look]
  simp only [Option.bind_eq_bind, Option.bind_some]
  rw [hst0, if_neg (by omega)]
  obtain ⟨r, s1, e1, e2⟩ := afterMut h hi ok false
  rw [e1]
  simp only [Option.bind_some]
  rcases e2 with ⟨rfl, rfl, hok⟩ | ⟨rfl, L1, hL1, hi1, hget, r1, W, hm, hc⟩
  · exact ⟨_, s1, rfl, .inl ⟨rfl, rfl, hok⟩⟩
  · have hx := W.hx
    have hst : W.x.stops = L[i].stops := by
      have : W.x.stops = L1[i].stops := hx.stops
      rw [this, hget]
    have hv : Valid (L[i].stops.set k ⟨L[i].stops[k].offset, rgba⟩) := by
      refine valid_congr W0.hg.valid ?_
      rw [List.map_set]
      apply List.ext_getElem
      · simp
      · intro j h1 h2
        rw [List.getElem_set]
        split
        · rename_i hj; subst hj; simp
        · rfl
    obtain ⟨s', q1, q3, _⟩ := store_ok' r1 hi1 W hm { W.x with stops := L[i].stops.set k ⟨L[i].stops[k].offset, rgba⟩ }
      { L1[i] with stops := L[i].stops.set k ⟨L[i].stops[k].offset, rgba⟩ }
      ⟨rfl, hx.values, hx.transform, by simp only [List.length_set]; rw [← hst]; exact hx.fits, hx.cap, cacheOk_none (hc rfl).1 (hc rfl).2.1 (hc rfl).2.2⟩
      ⟨hv, W.hg.vlen, W.hg.tt⟩ rfl
    rw [W.look]
    simp only [ne_eq, not_true_eq_false, ↓reduceIte, Option.bind_some, hst, List.getElem?_eq_getElem hk, F.eq, BEq.rfl, q1]
    refine ⟨_, _, rfl, .inr ⟨rfl, ?_⟩⟩
    rw [hget, hL1, List.set_set] at q3
    exact q3

theorem addStop_ok (d : Nat) (ok : Bool) (x : F) (rgba : Nat) (hn : L[i].stops.length < 2 ^ 58) :
    Does s L i (effect (ownOf s i) L[i] (.addStop x rgba)) (ok = false) (addStop (d + 1) ok s i x rgba) := by
  obtain ⟨W⟩ := view h hi
  have hx := W.hx
  have hg := W.hg
  have hst : W.x.stops = L[i].stops := hx.stops
  rw [addStop, unit_eq]
  show Does s L i (if inUnit x then _ else _) _ _
  cases hu : inUnit x with
  | false =>
    simp only [Bool.not_false, ↓reduceIte, Bool.false_eq_true]
    exact ⟨_, s, rfl, .inr ⟨rfl, h.self hi⟩⟩
  | true =>
    obtain ⟨x, rfl, hx0, hx1⟩ := inUnit_some hu
    obtain ⟨k, repl, p1, p2, p3, p4, p5⟩ := addPos_ok L[i].stops hg.valid.sorted x rgba
    simp only [Bool.not_true, Bool.false_eq_true, ↓reduceIte, W.look, Option.bind_eq_bind, Option.bind_some, hst, Option.getD_some, p1]
    cases repl with
    | true =>
      simp only [↓reduceIte]
      obtain ⟨⟨hk, hkx⟩, e⟩ := p4 rfl
      have h2 : L[i].stops.countP (fun t => decide (t.offset = x)) ≥ 2 := by simpa using p2.symm
      rw [if_pos h2]
      have hr := replaceSame h hi (fun s => addStop d ok s i (some x) rgba) ok k hk rgba
      rw [hkx, e] at hr
      exact hr
    | false =>
      simp only [Bool.false_eq_true, ↓reduceIte]
      have h2 : ¬ L[i].stops.countP (fun t => decide (t.offset = x)) ≥ 2 := by simpa using p2.symm
      rw [if_neg h2, p5 rfl]
      have hlen : (add L[i].stops ⟨x, rgba⟩).length = L[i].stops.length + 1 := by
        rw [add_length _ _ hg.valid.sorted]; exact if_neg h2
      have hg' : OkG { L[i] with stops := add L[i].stops ⟨x, rgba⟩ } := ⟨add_valid _ hg.valid _ hx0 hx1, hg.vlen, hg.tt⟩
      have hc := cap_lt hx
      have hf := hx.fits
      rw [hst] at hf
      by_cases hcap : masked L[i].stops.length W.m ≥ W.x.cap
      · rw [if_pos hcap]
        have hsz := implSize_eq (L[i].stops.length + 1) (by omega)
        have hex := expand_ge (implSize (L[i].stops.length + 1))
        have hes := expand_small (implSize (L[i].stops.length + 1)) (by omega)
        rcases alloc_ok ok (expand (implSize (L[i].stops.length + 1))) W.x.values 6 W.x.transform (by omega) with ⟨e1, e2⟩ | ⟨e1, e2⟩
        · rw [e1]
          refine ⟨_, s, rfl, .inl ⟨rfl, rfl, ?_⟩⟩
          rcases e2 with e2 | e2
          · exact e2
          · omega
        · rw [e2]
          simp only
          rw [put_eq _ _ (by simp only; omega)]
          simp only [Option.bind_some]
          obtain ⟨s', r1, r2, _⟩ := renew_ok h hi ⟨(expand (implSize (L[i].stops.length + 1)) - 144) / 16, add L[i].stops ⟨x, rgba⟩, initValues W.x.values 6, W.x.transform, none, none, none⟩ { L[i] with stops := add L[i].stops ⟨x, rgba⟩ }
            (fresh_ok _ e1 (by omega) { L[i] with stops := add L[i].stops ⟨x, rgba⟩ } (by simp only; omega) _ rfl rfl
              (by rw [show W.x.values = L[i].values from hx.values]; exact initValues_self _ W.hg.vlen) hx.transform (cacheOk_none rfl rfl rfl)) hg'
          exact ⟨_, s', by rw [r1]; rfl, .inr ⟨rfl, r2⟩⟩
      · rw [if_neg hcap]
        have hm : W.m = true := by
          cases hmm : W.m with
          | true => rfl
          | false => simp only [masked, hmm, Bool.false_eq_true, ↓reduceIte] at hcap; omega
        simp only [masked, hm, ↓reduceIte] at hcap
        rw [put_eq _ _ (by omega)]
        simp only [Option.bind_some]
        obtain ⟨s', r1, r2, _⟩ := store_ok' h hi W hm (Impl.invalidate { W.x with stops := add L[i].stops ⟨x, rgba⟩ }) { L[i] with stops := add L[i].stops ⟨x, rgba⟩ }
          ⟨rfl, hx.values, hx.transform, by simp only [Impl.invalidate]; omega, hx.cap, invalidate_cache _⟩ hg' rfl
        exact ⟨_, s', by rw [r1]; rfl, .inr ⟨rfl, r2⟩⟩

/-- Adding a stop to a mutable impl with room for it does not allocate memory. -/
theorem addStop_own (d : Nat) (ok : Bool) (x : F) (rgba : Nat) (W : View s L i L[i]) (hm : W.m = true) (hroom : W.x.stops.length < W.x.cap) :
    ∃ s', addStop (d + 1) ok s i x rgba = some (if inUnit x then .success else .invalidValue, s') ∧
      R s' (L.set i (if inUnit x then { L[i] with stops := add L[i].stops ⟨x.getD 0, rgba⟩ } else L[i])) := by
  have hx := W.hx
  have hg := W.hg
  have hst : W.x.stops = L[i].stops := hx.stops
  rw [addStop, unit_eq]
  cases hu : inUnit x with
  | false =>
    simp only [Bool.not_false, ↓reduceIte, Bool.false_eq_true]
    exact ⟨s, rfl, h.self hi⟩
  | true =>
    obtain ⟨x, rfl, hx0, hx1⟩ := inUnit_some hu
    obtain ⟨k, repl, p1, p2, p3, p4, p5⟩ := addPos_ok L[i].stops hg.valid.sorted x rgba
    simp only [Bool.not_true, Bool.false_eq_true, ↓reduceIte, W.look, Option.bind_eq_bind, Option.bind_some, hst, Option.getD_some, p1]
    cases repl with
    | true =>
      simp only [↓reduceIte]
      obtain ⟨⟨hk, hkx⟩, e⟩ := p4 rfl
      -- the impl is mutable, so this does not fail
      rw [hkx.symm]
      simp only [replaceWith, W.look, Option.bind_eq_bind, Option.bind_some, hst]
      rw [if_neg (by omega)]
      simp only [makeMutable, W.look, Option.bind_eq_bind, Option.bind_some, hm, Bool.true_eq_false, ↓reduceIte]
      obtain ⟨s1, q1, q2, q3⟩ := store_ok' h hi W hm W.x.invalidate L[i]
        ⟨hx.stops, hx.values, hx.transform, hx.fits, hx.cap, invalidate_cache _⟩ hg rfl
      rw [List.set_getElem_self] at q2
      obtain ⟨W1⟩ := view q2 hi
      have hW1 := W1.look
      rw [q3] at hW1
      simp only [Option.some.injEq, Prod.mk.injEq] at hW1
      have hx1' : W1.x = W.x.invalidate := hW1.1.symm
      rw [q1]
      have hl1 : add L[i].stops ⟨x, rgba⟩ = L[i].stops.set k ⟨x, rgba⟩ := e.symm
      have hlen : (add L[i].stops ⟨x, rgba⟩).length = L[i].stops.length := by rw [hl1, List.length_set]
      obtain ⟨s2, t1, t2, _⟩ := store_ok' q2 hi W1 hW1.2.1.symm { W.x.invalidate with stops := L[i].stops.set k ⟨x, rgba⟩ } { L[i] with stops := add L[i].stops ⟨x, rgba⟩ }
        ⟨e, hx.values, hx.transform, by
            simp only [Impl.invalidate, List.length_set]; rw [← hst]; omega, hx.cap, cacheOk_none rfl rfl rfl⟩
        ⟨add_valid _ hg.valid _ hx0 hx1, hg.vlen, hg.tt⟩ rfl
      simp only [Option.bind_some, Option.pure_def, ne_eq, not_true_eq_false, ↓reduceIte, q3, Impl.invalidate, hst, List.getElem?_eq_getElem hk, F.eq, BEq.rfl]
      simp only [Impl.invalidate] at t1
      rw [hkx, t1]
      exact ⟨s2, rfl, t2⟩
    | false =>
      simp only [Bool.false_eq_true, ↓reduceIte]
      have h2 : ¬ L[i].stops.countP (fun t => decide (t.offset = x)) ≥ 2 := by simpa using p2.symm
      rw [p5 rfl]
      have hlen : (add L[i].stops ⟨x, rgba⟩).length = L[i].stops.length + 1 := by
        rw [add_length _ _ hg.valid.sorted]; exact if_neg h2
      have hg' : OkG { L[i] with stops := add L[i].stops ⟨x, rgba⟩ } := ⟨add_valid _ hg.valid _ hx0 hx1, hg.vlen, hg.tt⟩
      rw [hst] at hroom
      rw [if_neg (by simp only [masked, hm, ↓reduceIte]; omega), put_eq _ _ (by omega)]
      simp only [Option.bind_some]
      obtain ⟨s', r1, r2, _⟩ := store_ok' h hi W hm (Impl.invalidate { W.x with stops := add L[i].stops ⟨x, rgba⟩ }) { L[i] with stops := add L[i].stops ⟨x, rgba⟩ }
        ⟨rfl, hx.values, hx.transform, by simp only [Impl.invalidate]; omega, hx.cap, invalidate_cache _⟩ hg' rfl
      exact ⟨s', by rw [r1]; rfl, r2⟩

theorem replaceStop_ok (ok : Bool) (k : Nat) (x : F) (rgba : Nat) :
    Does s L i (effect (ownOf s i) L[i] (.replaceStop k x rgba)) (ok = false) (replaceStop ok s i k x rgba) := by
  obtain ⟨W0⟩ := view h hi
  have hst0 : W0.x.stops = L[i].stops := W0.hx.stops
  show Does s L i (match L[i].stops[k]? with | none => _ | some t => _) _ _
  by_cases hk : k < L[i].stops.length
  · rw [List.getElem?_eq_getElem hk]
    simp only
    have hrange := W0.hg.valid.range _ (List.getElem_mem hk)
    by_cases he : x = some L[i].stops[k].offset
    · rw [he, if_pos (by simpa [inUnit] using hrange)]
      simp only [Option.getD_some, ↓reduceIte]
      exact replaceSame h hi _ ok k hk rgba
    · have hne : F.eq (some L[i].stops[k].offset) x = false := by
        cases x with
        | none => rfl
        | some v => simp only [F.eq, beq_eq_false_iff_ne]; intro hc; exact he (by rw [hc])
      unfold replaceStop replaceWith
      rw [W0.look]
      simp only [Option.bind_eq_bind, Option.bind_some]
      rw [hst0, if_neg (show ¬ k ≥ L[i].stops.length by omega)]
      obtain ⟨r, s1, e1, e2⟩ := afterMut h hi ok false
      rw [e1]
      simp only [Option.bind_some]
      rcases e2 with ⟨rfl, rfl, hok⟩ | ⟨rfl, L1, hL1, hi1, hget, r1, W, hm, hc⟩
      · exact ⟨_, s1, rfl, .inl ⟨rfl, rfl, hok⟩⟩
      · have hx := W.hx
        have hst1 : L1[i].stops = L[i].stops := by rw [hget]
        have hst : W.x.stops = L[i].stops := by
          have : W.x.stops = L1[i].stops := hx.stops
          rw [this, hst1]
        have hcl := cap_lt hx
        have hfit := hx.fits
        rw [hst] at hfit
        obtain ⟨s2, z, q1, q2, q3, q4, _⟩ := removeByIndex_own r1 hi1 ok W hm k (k + 1) (by omega) (by rw [hst1]; omega)
        obtain ⟨L2, hL2⟩ : ∃ L2, L2 = L1.set i { L1[i] with stops := L1[i].stops.take k ++ L1[i].stops.drop (k + 1) } := ⟨_, rfl⟩
        rw [← hL2] at q2
        have hi2 : i < L2.length := by rw [hL2, List.length_set]; exact hi1
        have hget2 : L2[i] = { L[i] with stops := L[i].stops.eraseIdx k, values := vals (ownOf s i) L[i] } := by
          simp only [hL2, List.getElem_set_self, hget, List.eraseIdx_eq_take_drop_succ]
        obtain ⟨W2⟩ := view q2 hi2
        have hW2 := W2.look
        rw [q3] at hW2
        simp only [Option.some.injEq, Prod.mk.injEq] at hW2
        obtain ⟨s3, t1, t2⟩ := addStop_own q2 hi2 1 ok x rgba W2 hW2.2.1.symm (by rw [← hW2.1]; exact q4)
        rw [W.look]
        simp only [ne_eq, not_true_eq_false, ↓reduceIte, Option.bind_some, hst, List.getElem?_eq_getElem hk, hne, Bool.false_eq_true,
          removeStop, Nat.mod_eq_of_lt (show k + 1 < 2 ^ 64 by omega), q1, t1]
        refine ⟨_, s3, rfl, ?_⟩
        right
        rw [hget2, hL2, List.set_set, hL1, List.set_set] at t2
        cases hu : inUnit x with
        | false =>
          rw [hu] at t2
          simp only [Bool.false_eq_true, ↓reduceIte] at t2 ⊢
          exact ⟨trivial, t2⟩
        | true =>
          rw [hu] at t2
          simp only [↓reduceIte] at t2 ⊢
          refine ⟨trivial, ?_⟩
          rw [if_neg]
          · exact t2
          · obtain ⟨v, rfl, _, _⟩ := inUnit_some hu
            intro hc; exact he (by simpa using hc.symm)
  · rw [List.getElem?_eq_none (by omega)]
    simp only
    unfold replaceStop replaceWith
    rw [W0.look]
    simp only [Option.bind_eq_bind, Option.bind_some]
    rw [hst0, if_pos (show k ≥ L[i].stops.length by omega)]
    exact ⟨_, s, rfl, .inr ⟨rfl, h.self hi⟩⟩

end
end Blend2D.Gradient
