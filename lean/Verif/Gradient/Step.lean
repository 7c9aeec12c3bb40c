import Verif.Gradient.Ops3
/-! # Programs that use gradients -/
namespace Blend2D.Gradient
open Cow Spec
open Blend2D.Arr (Result implMaxSize)

/-- Gradient `i` as the getters of `BLGradient` show it. -/
def valueOf (s : St) (i : Nat) : Option G := (look s i).map (fun p => ⟨p.2.2, p.1.stops, p.1.values, p.1.transform⟩)

/-- A call, modelled as cited at the function it calls. -/
def call (ok : Bool) (s : St) (i : Nat) : Call → Option (Result × St)
  | .reset => reset s i
  | .create type extend values m rs => create ok s i type extend values m rs
  | .shrink => shrink ok s i
  | .reserve n => reserve ok s i n
  | .setType t => setType s i t
  | .setExtend e => setExtend s i e
  | .setValues k vs => setValues ok s i k vs
  | .resetStops => resetStops ok s i
  | .assignStops rs => assignStops ok s i rs
  | .addStop x rgba => addStop 2 ok s i x rgba
  | .removeStop k => removeStop ok s i k
  | .removeByOffset x all => removeByOffset ok s i x all
  | .removeByIndex a b => removeByIndex ok s i a b
  | .removeByOffsets lo hi => removeByOffsets ok s i lo hi
  | .replaceStop k x rgba => replaceStop ok s i k x rgba
  | .resetTransform => resetTransform ok s i
  | .applyTransform g => applyTransform ok s i g

/-- `n` default constructed gradients (`bl_gradient_init`, `gradient.cpp:406-412`). -/
def initial (n : Nat) : St := ⟨⟨List.replicate n (.sso ()), []⟩, List.replicate n defFields⟩

/-- The states a program can reach by calls on its gradients, assignments of gradients, and rendering with them; each
may or may not get memory.  Nothing is required of a call but `Pre` and `Safe`. -/
inductive Reach : St → Prop where
  | init (n : Nat) : Reach (initial n)
  | call {s : St} (ok : Bool) (i : Nat) (c : Call) (g : G) (r : Result) (s' : St) : Reach s → valueOf s i = some g →
      Pre g c → Safe (ownOf s i) g c → call ok s i c = some (r, s') → Reach s'
  | assignWeak {s : St} (i j : Nat) (r : Result) (s' : St) : Reach s → i < s.w.vars.length → j < s.w.vars.length →
      assignWeak s i j = some (r, s') → Reach s'
  | assignMove {s : St} (i j : Nat) (r : Result) (s' : St) : Reach s → i < s.w.vars.length → j < s.w.vars.length →
      assignMove s i j = some (r, s') → Reach s'
  | render {s : St} (ok : Bool) (i : Nat) (hq : Bool) (inf : Option Info) (l : Option Lut) (s' : St) : Reach s → i < s.w.vars.length →
      ensure ok s i hq = some (inf, l, s') → Reach s'

variable {s : St} {L : List G} {i : Nat}

theorem R.len (h : R s L) : s.w.vars.length = L.length := by rw [h.rel.len, List.length_map]

theorem R.value (h : R s L) (i : Nat) : valueOf s i = L[i]? := by
  by_cases hi : i < L.length
  · obtain ⟨W⟩ := view h hi
    rw [valueOf, W.look, List.getElem?_eq_getElem hi]
    have h1 : W.x.stops = L[i].stops := W.hx.stops
    have h2 : W.x.values = L[i].values := W.hx.values
    have h3 : W.x.transform = L[i].transform := W.hx.transform
    simp only [Option.map_some, h1, h2, h3]
  · have : s.w.vars[i]? = none := List.getElem?_eq_none (by rw [h.len]; omega)
    rw [valueOf, look, this, List.getElem?_eq_none (l := L) (by omega)]; rfl

theorem call_ok (h : R s L) (hi : i < L.length) (ok : Bool) (c : Call) (hpre : Pre L[i] c) (hs : Safe (ownOf s i) L[i] c) :
    Does s L i (effect (ownOf s i) L[i] c) (ok = false ∨ ∃ n, c = .reserve n ∧ 2 ^ 58 ≤ n) (call ok s i c) := by
  have weaken : ∀ {e : Result × G} {x : Option (Result × St)} {P Q : Prop}, (P → Q) → Does s L i e P x → Does s L i e Q x := by
    rintro e x P Q hpq ⟨r, s', h1, h2⟩
    exact ⟨r, s', h1, h2.imp (fun h => ⟨h.1, h.2.1, hpq h.2.2⟩) id⟩
  cases c with
  | reset => exact weaken (fun h => h.elim) (reset_ok h hi)
  | create type extend values m rs => exact weaken .inl (create_ok h hi ok type extend values m rs hpre.1 hpre.2 _)
  | shrink => exact weaken .inl (shrink_ok h hi ok)
  | reserve n => exact weaken (fun h => h.imp id (fun h => ⟨n, rfl, h⟩)) (reserve_ok h hi ok n hpre hs)
  | setType t => exact weaken (fun h => h.elim) (setType_ok h hi t)
  | setExtend e => exact weaken (fun h => h.elim) (setExtend_ok h hi e)
  | setValues k vs => exact weaken .inl (setValues_ok h hi ok k vs)
  | resetStops => exact weaken .inl (resetStops_ok h hi ok)
  | assignStops rs => exact weaken .inl (assignStops_ok h hi ok rs hpre _)
  | addStop x rgba => exact weaken .inl (addStop_ok h hi 1 ok x rgba hpre)
  | removeStop k => exact weaken .inl (removeStop_ok h hi ok k hpre)
  | removeByOffset x all => exact weaken .inl (removeByOffset_ok h hi ok x all)
  | removeByIndex a b => exact weaken .inl (removeByIndex_ok h hi ok a b)
  | removeByOffsets lo up => exact weaken .inl (removeByOffsets_ok h hi ok lo up)
  | replaceStop k x rgba => exact weaken .inl (replaceStop_ok h hi ok k x rgba)
  | resetTransform => exact weaken .inl (resetTransform_ok h hi ok)
  | applyTransform g => exact weaken .inl (applyTransform_ok h hi ok g)

theorem assignWeak_ok (h : R s L) {j : Nat} (hi : i < L.length) (hj : j < L.length) :
    ∃ s', assignWeak s i j = some (.success, s') ∧ R s' (L.set i L[j]) := by
  obtain ⟨w', h1, h2⟩ := rel_assignWeak h.rel i j (by rw [List.length_map]; exact hi) L[j].val (by
    rw [List.getElem?_map, List.getElem?_eq_getElem hj]; rfl)
  have hf : s.f[j]? = some L[j].fields := by rw [h.flds, List.getElem?_map, List.getElem?_eq_getElem hj]; rfl
  refine ⟨⟨w', s.f.set i L[j].fields⟩, by simp only [assignWeak, h1, hf, Option.bind_eq_bind, Option.bind_some]; rfl, ?_, ?_, ?_⟩
  · rw [List.map_set]; exact h2
  · rw [List.map_set, h.flds]
  · exact ok_set h _ (h.ok _ (List.getElem_mem hj))

theorem assignMove_ok (h : R s L) {j : Nat} (hi : i < L.length) (hj : j < L.length) :
    ∃ s', assignMove s i j = some (.success, s') ∧ R s' ((L.set j .default).set i L[j]) := by
  obtain ⟨w', h1, h2⟩ := rel_assignMove h.rel i j (by rw [List.length_map]; exact hi) L[j].val (by
    rw [List.getElem?_map, List.getElem?_eq_getElem hj]; rfl) () G.default.val rfl
  have hf : s.f[j]? = some L[j].fields := by rw [h.flds, List.getElem?_map, List.getElem?_eq_getElem hj]; rfl
  refine ⟨⟨w', (s.f.set j defFields).set i L[j].fields⟩, by simp only [assignMove, h1, hf, Option.bind_eq_bind, Option.bind_some]; rfl, ?_, ?_, ?_⟩
  · rw [List.map_set, List.map_set]; exact h2
  · rw [List.map_set, List.map_set, h.flds]; rfl
  · intro g hg
    rcases List.mem_or_eq_of_mem_set hg with hg | rfl
    · exact ok_set h _ okG_default g hg
    · exact h.ok _ (List.getElem_mem hj)

theorem R.initial (n : Nat) : R (initial n) (List.replicate n .default) := by
  refine ⟨⟨by simp [Gradient.initial], ?_, ?_, ?_⟩, by simp [Gradient.initial, G.default, defFields], ?_⟩
  · intro i v x h1 h2
    simp only [Gradient.initial, List.getElem?_replicate] at h1
    simp only [List.map_replicate, List.getElem?_replicate] at h2
    split at h1
    · simp only [Option.some.injEq] at h1
      rw [if_pos ‹_›] at h2
      simp only [Option.some.injEq] at h2
      subst h1; subst h2
      rfl
    · simp at h1
  · intro a hr
    exfalso
    have : refs ((Gradient.initial n).w.vars ++ []) a = 0 := by
      rw [List.append_nil]
      exact List.countP_eq_zero.2 (by intro x hx; rw [List.eq_of_mem_replicate hx]; simp)
    omega
  · intro a b hb
    exact absurd (block_some_lt _ _ _ hb).1 (by simp [Gradient.initial])
  · intro g hg
    rw [List.eq_of_mem_replicate hg]; exact okG_default

/-! ## Rendering -/

/-- A store of caches. -/
theorem touch_ok (h : R s L) (hi : i < L.length) (W : View s L i L[i]) (hne : W.x.stops ≠ []) (y : Impl)
    (h1 : y.stops = W.x.stops) (h2 : y.values = W.x.values) (h3 : y.transform = W.x.transform) (h4 : y.cap = W.x.cap) (h5 : CacheOk y) :
    ∃ s', store s i y = some s' ∧ R s' L := by
  cases hc : W.c with
  | sso u =>
    have := W.hi
    rw [hc] at this
    simp only [implOf, Option.some.injEq] at this
    rw [← this] at hne
    exact absurd rfl hne
  | dyn a =>
    have hv := W.hv
    have hx := W.hi
    rw [hc] at hv hx
    simp only [implOf, Option.map_eq_some_iff] at hx
    obtain ⟨b, hb, hbx⟩ := hx
    obtain ⟨r1, _, _⟩ := rel_touch h.rel a b hb y (by
      intro v hv
      rw [hbx] at hv
      exact ⟨h1.trans hv.stops, h2.trans hv.values, h3.trans hv.transform, by rw [h1, h4]; exact hv.fits, by rw [h4]; exact hv.cap, h5⟩)
    refine ⟨{ s with w := s.w.setVal a y }, by simp only [store, hv, Option.bind_eq_bind, Option.bind_some]; rfl, r1, h.flds, h.ok⟩

theorem ensure_ok (h : R s L) (hi : i < L.length) (ok hq : Bool) :
    ∃ lut s', ensure ok s i hq = some (computeInfo L[i].stops, lut, s') ∧ R s' L ∧
      (∀ l, lut = some l → ∃ inf, computeInfo L[i].stops = some inf ∧ inf.solid = false ∧ l = ⟨inf.lut hq, L[i].stops⟩) ∧
      (lut = none → ok = false ∨ ∀ inf, computeInfo L[i].stops = some inf → inf.solid = true) := by
  obtain ⟨W⟩ := view h hi
  have hx := W.hx
  have hst : W.x.stops = L[i].stops := hx.stops
  have hinfo : W.x.info.or (computeInfo W.x.stops) = computeInfo L[i].stops := by
    cases hc : W.x.info with
    | none => rw [hst]; rfl
    | some inf => rw [← hst, hx.cache.info inf hc]; rfl
  unfold ensure
  rw [W.look]
  simp only [Option.bind_eq_bind, Option.bind_some, hinfo]
  cases hci : computeInfo L[i].stops with
  | none => exact ⟨none, s, rfl, h, by simp, by simp⟩
  | some inf =>
    have hne : W.x.stops ≠ [] := by
      rw [hst]; intro hc; rw [hc] at hci; cases hci
    have hck : CacheOk { W.x with info := some inf } := ⟨by
      intro inf' hi'; simp only [Option.some.injEq] at hi'; subst hi'; simp only; rw [hst]; exact hci, hx.cache.lut32, hx.cache.lut64⟩
    obtain ⟨s1, q1, q2⟩ := touch_ok h hi W hne { W.x with info := some inf } rfl rfl rfl rfl hck
    simp only
    cases hsol : inf.solid with
    | true =>
      simp only [↓reduceIte]
      refine ⟨none, s1, by rw [q1]; rfl, q2, by simp, ?_⟩
      intro _; right; rintro inf' rfl'; cases rfl'; exact hsol
    | false =>
      simp only [Bool.false_eq_true, ↓reduceIte]
      cases hl : (if hq = true then W.x.lut64 else W.x.lut32) with
      | some l =>
        have hlk : l = ⟨inf.lut hq, L[i].stops⟩ := by
          cases hq with
          | true =>
            simp only [↓reduceIte] at hl
            obtain ⟨inf', e1, e2⟩ := hx.cache.lut64 l hl
            rw [hst, hci] at e1; cases e1; rw [e2, hst]
          | false =>
            simp only [Bool.false_eq_true, ↓reduceIte] at hl
            obtain ⟨inf', e1, e2⟩ := hx.cache.lut32 l hl
            rw [hst, hci] at e1; cases e1; rw [e2, hst]
        simp only
        rw [if_pos (by rw [hlk])]
        refine ⟨some l, s1, by rw [q1]; rfl, q2, ?_, by simp⟩
        intro l' hl'; cases hl'; exact ⟨inf, rfl, hsol, hlk⟩
      | none =>
        simp only
        cases ok with
        | false =>
          simp only [↓reduceIte]
          exact ⟨none, s1, by rw [q1]; rfl, q2, by simp, by simp⟩
        | true =>
          simp only [Bool.true_eq_false, ↓reduceIte]
          have key : ∃ s2, store s i (if hq = true then { W.x with info := some inf, lut64 := some ⟨inf.lut hq, W.x.stops⟩ }
              else { W.x with info := some inf, lut32 := some ⟨inf.lut hq, W.x.stops⟩ }) = some s2 ∧ R s2 L := by
            cases hq with
            | true =>
              refine touch_ok h hi W hne _ rfl rfl rfl rfl ⟨hck.info, hck.lut32, ?_⟩
              intro l' hl'
              simp only [↓reduceIte, Option.some.injEq] at hl'
              subst hl'
              exact ⟨inf, by simp only [↓reduceIte]; rw [hst]; exact hci, rfl⟩
            | false =>
              refine touch_ok h hi W hne _ rfl rfl rfl rfl ⟨hck.info, ?_, hck.lut64⟩
              intro l' hl'
              simp only [Bool.false_eq_true, ↓reduceIte, Option.some.injEq] at hl'
              subst hl'
              exact ⟨inf, by simp only [Bool.false_eq_true, ↓reduceIte]; rw [hst]; exact hci, rfl⟩
          obtain ⟨s2, p1, p2⟩ := key
          refine ⟨some ⟨inf.lut hq, W.x.stops⟩, s2, ?_, p2, ?_, by simp⟩
          · rw [p1]; rfl
          · intro l' hl'; cases hl'; exact ⟨inf, rfl, hsol, by rw [hst]⟩

theorem reach_rel (h : Reach s) : ∃ L, R s L := by
  induction h with
  | init n => exact ⟨_, R.initial n⟩
  | call ok i c g r s' _ hg hpre hs hst ih =>
    obtain ⟨L, hR⟩ := ih
    rw [hR.value] at hg
    obtain ⟨hi, rfl⟩ := List.getElem?_eq_some_iff.1 hg
    obtain ⟨r', s2, h1, h2⟩ := call_ok hR hi ok c hpre hs
    rw [hst] at h1
    simp only [Option.some.injEq, Prod.mk.injEq] at h1
    obtain ⟨rfl, rfl⟩ := h1
    rcases h2 with ⟨_, rfl, _⟩ | ⟨_, h2⟩
    · exact ⟨L, hR⟩
    · exact ⟨_, h2⟩
  | assignWeak i j r s' _ hi hj hst ih =>
    obtain ⟨L, hR⟩ := ih
    rw [hR.len] at hi hj
    obtain ⟨s2, h1, h2⟩ := assignWeak_ok hR hi hj
    rw [hst] at h1
    simp only [Option.some.injEq, Prod.mk.injEq] at h1
    rw [h1.2]; exact ⟨_, h2⟩
  | assignMove i j r s' _ hi hj hst ih =>
    obtain ⟨L, hR⟩ := ih
    rw [hR.len] at hi hj
    obtain ⟨s2, h1, h2⟩ := assignMove_ok hR hi hj
    rw [hst] at h1
    simp only [Option.some.injEq, Prod.mk.injEq] at h1
    rw [h1.2]; exact ⟨_, h2⟩
  | render ok i hq inf l s' _ hi hst ih =>
    obtain ⟨L, hR⟩ := ih
    rw [hR.len] at hi
    obtain ⟨_, s2, h1, h2, _⟩ := ensure_ok hR hi ok hq
    rw [hst] at h1
    simp only [Option.some.injEq, Prod.mk.injEq] at h1
    rw [h1.2.2]; exact ⟨_, h2⟩

end Blend2D.Gradient
