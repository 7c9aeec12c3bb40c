import Verif.Settings.Lemmas
import Verif.Arr.Lemmas
/-! # The calls keep the representation, for any packing that obeys the laws -/
namespace Blend2D.Settings
open Cow Spec
open Blend2D.FontTag (isValidTag)
open Blend2D.FontTag.Spec (Printable)
open Blend2D.Arr (Result)

variable {σ V : Type}

/-- All values of the settings satisfy `okV`. -/
def AllV (okV : V → Prop) (m : Map V) : Prop := ∀ t v, m t = some v → okV v

/-- Impl `x` holds the settings `m`. -/
def OkB (okV : V → Prop) (x : Impl V) (m : Map V) : Prop := Lists x.items m ∧ x.items.length ≤ x.capacity ∧ AllV okV m

/-- What a packing has to guarantee.  `okS s m` says that the instance `s` holds `m`; the calls on instances are only right under `okSet` and
`okRemove`; `okV` are the values that may be stored, `okE` those that are equal to themselves. -/
structure Law (K : Kind σ V) (okV okE : V → Prop) (okS : σ → Map V → Prop) (okHas : σ → UInt32 → Prop)
    (okSet : σ → UInt32 → V → Prop) (okRemove : σ → UInt32 → Prop) : Prop where
  empty : okS K.empty nothing
  vals : ∀ s m, okS s m → AllV okV m
  items : ∀ s m, okS s m → ∃ l, K.items s = some l ∧ l.length = K.size s ∧ Lists l m
  size : ∀ s m, okS s m → K.size s ≤ K.cap
  has : ∀ s m t, okS s m → okHas s t → K.has s t = some (m t).isSome
  get : ∀ s m t, okS s m → K.get s t = some ((m t).getD K.absent)
  set : ∀ s m t v, okS s m → okV v → okSet s t v → K.tooLarge v = false →
    (∃ s', K.set s t v = some (.done s') ∧ okS s' (put m t (some v)) ∧ isValidTag t = true) ∨
    (K.set s t v = some .refuse ∧ isValidTag t = false) ∨ K.set s t v = some .dynamic
  remove : ∀ s m t, okS s m → okRemove s t → ∃ s', K.remove s t = some s' ∧ okS s' (put m t none)
  pack : ∀ l m, Lists l m → AllV okV m → l.length ≤ K.cap → ∃ o, K.pack l = some o ∧ ∀ s, o = some s → okS s m
  eqS : ∀ s s' m, okS s m → okS s' m → s = s'
  eqItems : ∀ s m l m', okS s m → Lists l m' → AllV okV m' → l.length = K.size s →
    ∃ b, K.eqItems s l = some b ∧ (b = true → m = m') ∧ (AllV okE m → m = m' → b = true)
  same : ∀ a b, okV a → okV b → K.same a b = true → a = b
  valid : ∀ s m t, okS s m → m t ≠ none → isValidTag t = true

variable {K : Kind σ V} {okV okE : V → Prop} {okS : σ → Map V → Prop} {okHas : σ → UInt32 → Prop}
  {okSet : σ → UInt32 → V → Prop} {okRemove : σ → UInt32 → Prop}

/-- The representation relation. -/
abbrev R (okV : V → Prop) (okS : σ → Map V → Prop) (w : Wld σ V) (L : List (Map V)) : Prop := Rel okS (OkB okV) w L []

/-- What a call of `set_value` or the like may do. -/
def Does (okV : V → Prop) (okS : σ → Map V → Prop) (ok : Bool) (w : Wld σ V) (L L' : List (Map V)) (bad : Prop)
    (x : Option (Result × Wld σ V)) : Prop :=
  ∃ r w', x = some (r, w') ∧
    ((r = .success ∧ R okV okS w' L' ∧ ¬ bad) ∨ (r = .outOfMemory ∧ w' = w ∧ ok = false) ∨ (r = .invalidValue ∧ R okV okS w' L ∧ bad))

theorem var_get {w : Wld σ V} {L : List (Map V)} (h : R okV okS w L) {i : Nat} (hi : i < L.length) :
    ∃ c, w.vars[i]? = some c ∧ L[i]? = some (get L i) ∧ Holds okS (OkB okV) w c (get L i) := by
  have hl : i < w.vars.length := by rw [h.len]; exact hi
  have e : L[i]? = some (get L i) := by rw [Spec.get, List.getElem?_eq_getElem hi]; rfl
  exact ⟨_, List.getElem?_eq_getElem hl, e, h.hold i _ _ (List.getElem?_eq_getElem hl) e⟩

theorem set_get {L : List (Map V)} {i : Nat} : L.set i (get L i) = L := by
  rw [Spec.get]
  rcases Nat.lt_or_ge i L.length with h | h
  · rw [List.getElem?_eq_getElem h]; simp
  · rw [List.set_eq_of_length_le h]

theorem capacity_align (n : Nat) : n ≤ capacityOf (alignImpl (implSize n)) := by
  unfold capacityOf alignImpl implSize; omega

theorem capacity_impl (n : Nat) : capacityOf (implSize n) = n := by unfold capacityOf implSize; omega

theorem capacity_expand (n : Nat) : n ≤ capacityOf (Arr.expand (implSize n)) := by
  have : implSize n ≤ Arr.expand (implSize n) := by unfold Arr.expand; exact Nat.le_max_right ..
  have h2 := capacity_impl n
  unfold capacityOf at *
  omega

theorem newImpl_ok {size : Nat} {l : List (Item V)} (h : l.length ≤ capacityOf size) :
    newImpl size l = some ⟨l, capacityOf size⟩ := by rw [newImpl, if_pos h]

theorem withImpl_ok {w : Wld σ V} {L : List (Map V)} (h : R okV okS w L) {i : Nat} (hi : i < L.length) (ok : Bool) {size : Nat}
    {l : List (Item V)} (hl : l.length ≤ capacityOf size) {m : Map V} (hm : Lists l m) (hv : AllV okV m) {bad : Prop} (hb : ¬ bad) :
    Does okV okS ok w L (L.set i m) bad (withImpl ok w i (newImpl size l)) := by
  rw [withImpl, newImpl_ok hl]
  cases ok with
  | false => exact ⟨_, _, rfl, .inr (.inl ⟨rfl, rfl, rfl⟩)⟩
  | true =>
    obtain ⟨w', e, h1, _⟩ := rel_replace_new h 1 ⟨l, capacityOf size⟩ (by omega) i hi m ⟨hm, hl, hv⟩
    refine ⟨.success, w', ?_, .inl ⟨rfl, h1, hb⟩⟩
    simp only [if_true, Option.bind_eq_bind, Option.bind_some]
    rw [e]
    rfl

theorem reset_ok (law : Law K okV okE okS okHas okSet okRemove) {w : Wld σ V} {L : List (Map V)} (h : R okV okS w L) {i : Nat} (hi : i < L.length) :
    ∃ w', reset K w i = some (.success, w') ∧ R okV okS w' (L.set i nothing) := by
  obtain ⟨c, hc, hL, hh⟩ := var_get h hi
  -- `release; init` is `init; release`: the order of the two stores does not matter
  obtain ⟨w', e1, h1, h2, _⟩ := rel_release c (rel_swap c (.sso K.empty) ((rel_sso K.empty).2 h) i hc nothing law.empty)
  have key : ∀ x : Wld σ V, (x.setVar i (.sso K.empty)).release c = (x.release c).map (fun y => y.setVar i (.sso K.empty)) := by
    intro x
    cases c with
    | sso s => rfl
    | dyn a =>
      unfold World.release
      have : (x.setVar i (.sso K.empty)).block? a = x.block? a := rfl
      simp only [this]
      cases hb : x.block? a with
      | none => rfl
      | some b =>
        simp only [Option.bind_eq_bind, Option.bind_some]
        split <;> rfl
  rw [key] at e1
  cases hr : w.release c with
  | none => rw [hr] at e1; simp at e1
  | some y =>
    rw [hr] at e1
    simp only [Option.map_some, Option.some.injEq] at e1
    refine ⟨w', ?_, h1⟩
    simp only [reset, hc, hr, Option.bind_eq_bind, Option.bind_some, e1]

theorem clear_ok (law : Law K okV okE okS okHas okSet okRemove) {w : Wld σ V} {L : List (Map V)} (h : R okV okS w L) {i : Nat} (hi : i < L.length) :
    ∃ w', clear K w i = some (.success, w') ∧ R okV okS w' (L.set i nothing) := by
  obtain ⟨c, hc, hL, hh⟩ := var_get h hi
  cases c with
  | sso s =>
    refine ⟨_, ?_, rel_set_sso h s K.empty i hc nothing law.empty⟩
    simp only [clear, hc, Option.bind_eq_bind, Option.bind_some]
  | dyn a =>
    obtain ⟨b, hb, hm⟩ := hh
    by_cases hrc : b.rc = 1
    · obtain ⟨h1, _⟩ := rel_mutate h i a hc b hb hrc { b.val with items := [] } nothing
        ⟨lists_nil, Nat.zero_le _, fun t v hv => by simp [nothing] at hv⟩
      exact ⟨_, by simp only [clear, hc, hb, hrc, if_true, Option.bind_eq_bind, Option.bind_some], h1⟩
    · obtain ⟨w', e, h1⟩ := reset_ok law h hi
      exact ⟨w', by simp only [clear, hc, hb, hrc, if_false, Option.bind_eq_bind, Option.bind_some]; exact e, h1⟩

theorem shrink_ok (law : Law K okV okE okS okHas okSet okRemove) {w : Wld σ V} {L : List (Map V)} (h : R okV okS w L) {i : Nat} (hi : i < L.length)
    (ok : Bool) : Does okV okS ok w L L False (shrink K ok w i) := by
  obtain ⟨c, hc, hL, hh⟩ := var_get h hi
  cases c with
  | sso s => exact ⟨_, w, by simp only [shrink, hc, Option.bind_eq_bind, Option.bind_some], .inl ⟨rfl, h, id⟩⟩
  | dyn a =>
    obtain ⟨b, hb, hm, hcap, hv⟩ := hh
    have key : ∃ o, tryPack K b.val.items = some o ∧ ∀ s, o = some s → okS s (get L i) := by
      rw [tryPack]
      split
      · rename_i hle
        exact law.pack _ _ hm hv hle
      · exact ⟨none, rfl, fun s hs => by simp at hs⟩
    obtain ⟨o, e1, h1⟩ := key
    simp only [shrink, hc, hb, Option.bind_eq_bind, Option.bind_some, e1]
    cases o with
    | some s =>
      obtain ⟨w', e2, h2, _⟩ := rel_replace_sso h s i hi _ (h1 s rfl)
      refine ⟨.success, w', by simp only [e2, Option.bind_some], .inl ⟨rfl, ?_, id⟩⟩
      rw [set_get] at h2
      exact h2
    | none =>
      simp only
      split
      · exact ⟨_, w, rfl, .inl ⟨rfl, h, id⟩⟩
      · have := withImpl_ok (bad := False) h hi ok (size := implSize b.val.items.length) (by rw [capacity_impl]) hm hv id
        rw [set_get] at this
        exact this

theorem allV_put {m : Map V} (h : AllV okV m) {t : UInt32} {v : V} (hv : okV v) : AllV okV (put m t (some v)) := by
  intro t' v' h'
  rw [put] at h'
  split at h'
  · rw [← Option.some.inj h']; exact hv
  · exact h t' v' h'

theorem allV_erase {m : Map V} (h : AllV okV m) {t : UInt32} : AllV okV (put m t none) := by
  intro t' v' h'
  rw [put] at h'
  split at h'
  · simp at h'
  · exact h t' v' h'

theorem setDynamic_ok (law : Law K okV okE okS okHas okSet okRemove) {w : Wld σ V} {L : List (Map V)} (h : R okV okS w L) {i : Nat} (hi : i < L.length)
    (ok : Bool) (tag : UInt32) (v : V) (hv : okV v) (a : Nat) (hc : w.vars[i]? = some (.dyn a)) (b : Block (Impl V))
    (hb : w.block? a = some b) (hm : OkB okV b.val (get L i)) (can : Bool) (hcan : can = true → b.rc = 1)
    (hvalid : get L i tag ≠ none → isValidTag tag = true) :
    Does okV okS ok w L (L.set i (put (get L i) tag (some v))) (isValidTag tag = false) (setDynamic K ok w i tag v can) ∧
    (can = true → b.val.items.length < b.val.capacity → ∀ w', setDynamic K ok w i tag v can ≠ some (.outOfMemory, w')) := by
  obtain ⟨hm, hcap, hav⟩ := hm
  obtain ⟨k, e1, h1, h2, h3, h4⟩ := search_ok hm tag
  simp only [setDynamic, hc, hb, e1, Option.bind_eq_bind, Option.bind_some]
  cases hx : get L i tag with
  | some x =>
    have hval := hvalid (by rw [hx]; simp)
    have hk := h3 x hx
    have hl := lists_set hm hk v
    simp only
    by_cases hs : K.same x v = true
    · rw [if_pos hs]
      have := law.same x v (hav tag x hx) hv hs
      subst this
      refine ⟨⟨_, w, rfl, .inl ⟨rfl, ?_, by rw [hval]; simp⟩⟩, by simp⟩
      rw [put_same hx, set_get]
      exact h
    · rw [if_neg hs]
      cases can with
      | true =>
        simp only [if_true]
        obtain ⟨r1, _⟩ := rel_mutate h i a hc b hb (hcan rfl) { b.val with items := b.val.items.set k (tag, v) } _
          ⟨hl, by simpa using hcap, allV_put hav hv⟩
        exact ⟨⟨_, _, rfl, .inl ⟨rfl, r1, by rw [hval]; simp⟩⟩, by simp⟩
      | false =>
        simp only [Bool.false_eq_true, if_false]
        exact ⟨withImpl_ok h hi ok (by rw [capacity_impl]; simp) hl (allV_put hav hv) (by rw [hval]; simp), by simp⟩
  | none =>
    simp only
    by_cases hval : isValidTag tag = false
    · rw [if_pos hval]
      exact ⟨⟨_, w, rfl, .inr (.inr ⟨rfl, h, hval⟩)⟩, by simp⟩
    · rw [if_neg hval]
      have hl := lists_insert hm h2 (h4 hx) v
      have hlen : (b.val.items.take k ++ (tag, v) :: b.val.items.drop k).length = b.val.items.length + 1 := by
        simp only [List.length_append, List.length_take, List.length_cons, List.length_drop]; omega
      by_cases hc2 : can = true ∧ b.val.capacity > b.val.items.length
      · rw [if_pos hc2]
        obtain ⟨r1, _⟩ := rel_mutate h i a hc b hb (hcan hc2.1) { b.val with items := b.val.items.take k ++ (tag, v) :: b.val.items.drop k } _
          ⟨hl, by rw [hlen]; exact hc2.2, allV_put hav hv⟩
        exact ⟨⟨_, _, rfl, .inl ⟨rfl, r1, hval⟩⟩, by simp⟩
      · rw [if_neg hc2]
        exact ⟨withImpl_ok h hi ok (by rw [hlen]; exact capacity_expand _) hl (allV_put hav hv) hval, fun q1 q2 => absurd ⟨q1, q2⟩ hc2⟩

/-- The tags of settings are valid. -/
def ValidMap (m : Map V) : Prop := ∀ t, m t ≠ none → isValidTag t = true

theorem setValue_ok (law : Law K okV okE okS okHas okSet okRemove) {w : Wld σ V} {L : List (Map V)} (h : R okV okS w L) {i : Nat} (hi : i < L.length)
    (ok : Bool) (tag : UInt32) (v : V) (hv : okV v) (hset : ∀ s, w.vars[i]? = some (.sso s) → okSet s tag v)
    (hvalid : ValidMap (get L i)) :
    Does okV okS ok w L (L.set i (put (get L i) tag (some v))) (K.tooLarge v = true ∨ isValidTag tag = false) (setValue K ok w i tag v) := by
  rw [setValue]
  by_cases hl : K.tooLarge v = true
  · rw [if_pos hl]
    exact ⟨_, w, rfl, .inr (.inr ⟨rfl, h, .inl hl⟩)⟩
  have hl' : K.tooLarge v = false := by simpa using hl
  rw [if_neg hl]
  obtain ⟨c, hc, hL, hh⟩ := var_get h hi
  cases c with
  | sso s =>
    simp only [hc, Option.bind_eq_bind, Option.bind_some]
    rcases law.set s _ tag v hh hv (hset s hc) hl' with ⟨s', e, h1, h2⟩ | ⟨e, h1⟩ | e
    · simp only [e, Option.bind_some]
      exact ⟨_, _, rfl, .inl ⟨rfl, rel_set_sso h s s' i hc _ h1, by simp [hl', h2]⟩⟩
    · simp only [e, Option.bind_some]
      exact ⟨_, _, rfl, .inr (.inr ⟨rfl, h, .inr h1⟩)⟩
    · simp only [e, Option.bind_some]
      cases ok with
      | false => exact ⟨_, w, rfl, .inr (.inl ⟨rfl, rfl, rfl⟩)⟩
      | true =>
        simp only [if_true]
        obtain ⟨l, e1, h1, h2⟩ := law.items s _ hh
        have hcap : l.length < capacityOf (alignImpl (implSize (max (K.size s + 1) 4))) := by
          have := capacity_align (max (K.size s + 1) 4)
          omega
        rw [e1, Option.bind_some, if_pos h1, newImpl_ok (Nat.le_of_lt hcap), Option.bind_some]
        generalize hC : capacityOf (alignImpl (implSize (max (K.size s + 1) 4))) = C at *
        obtain ⟨r1, r2, r3⟩ := rel_alloc h 1 (⟨l, C⟩ : Impl V) (by omega)
        have hok : OkB okV (⟨l, C⟩ : Impl V) (get L i) := ⟨h2, Nat.le_of_lt hcap, law.vals s _ hh⟩
        have hR := (rel_sso s).1 (rel_swap _ _ r1 i hc (get L i) ⟨_, r2, hok⟩)
        rw [set_get] at hR
        have hc2 : ((w.alloc 1 (⟨l, C⟩ : Impl V)).2.setVar i (w.alloc 1 (⟨l, C⟩ : Impl V)).1).vars[i]? = some (.dyn w.heap.length) := by
          have hlt : i < w.vars.length := by rw [h.len]; exact hi
          have : (w.alloc 1 (⟨l, C⟩ : Impl V)).2.vars = w.vars := rfl
          simp only [World.setVar, this]
          rw [List.getElem?_set_self hlt]
          rfl
        obtain ⟨⟨r, w', e2, h3⟩, h4⟩ := setDynamic_ok law hR hi true tag v hv w.heap.length hc2 ⟨1, 1, true, ⟨l, C⟩⟩ r2 hok true (fun _ => rfl)
          (fun hne => hvalid tag hne)
        refine ⟨r, w', e2, ?_⟩
        rcases h3 with ⟨q1, q2, q3⟩ | ⟨q1, q2, q3⟩ | ⟨q1, q2, q3⟩
        · exact .inl ⟨q1, q2, by simp only [hl', Bool.false_eq_true, false_or]; exact q3⟩
        · simp at q3
        · exact .inr (.inr ⟨q1, q2, .inr q3⟩)
  | dyn a =>
    obtain ⟨b, hb, hm⟩ := hh
    simp only [hc, hb, Option.bind_eq_bind, Option.bind_some]
    by_cases hval : isValidTag tag = false
    · rw [if_pos hval]
      exact ⟨_, w, rfl, .inr (.inr ⟨rfl, h, .inr hval⟩)⟩
    · rw [if_neg hval]
      obtain ⟨⟨r, w', e2, h3⟩, _⟩ := setDynamic_ok law h hi ok tag v hv a hc b hb hm (b.rc == 1) (by simp) (fun _ => by simpa using hval)
      refine ⟨r, w', e2, ?_⟩
      rcases h3 with ⟨q1, q2, q3⟩ | ⟨q1, q2, q3⟩ | ⟨q1, q2, q3⟩
      · exact .inl ⟨q1, q2, by simp only [hl', Bool.false_eq_true, false_or]; exact q3⟩
      · exact .inr (.inl ⟨q1, q2, q3⟩)
      · exact .inr (.inr ⟨q1, q2, .inr q3⟩)

theorem removeValue_ok (law : Law K okV okE okS okHas okSet okRemove) {w : Wld σ V} {L : List (Map V)} (h : R okV okS w L) {i : Nat} (hi : i < L.length)
    (ok : Bool) (tag : UInt32) (hrem : ∀ s, w.vars[i]? = some (.sso s) → okRemove s tag) :
    Does okV okS ok w L (L.set i (put (get L i) tag none)) False (removeValue K ok w i tag) := by
  obtain ⟨c, hc, hL, hh⟩ := var_get h hi
  cases c with
  | sso s =>
    obtain ⟨s', e, h1⟩ := law.remove s _ tag hh (hrem s hc)
    simp only [removeValue, hc, e, Option.bind_eq_bind, Option.bind_some]
    exact ⟨_, _, rfl, .inl ⟨rfl, rel_set_sso h s s' i hc _ h1, id⟩⟩
  | dyn a =>
    obtain ⟨b, hb, hm, hcap, hav⟩ := hh
    obtain ⟨k, e1, h1, h2, h3, h4⟩ := search_ok hm tag
    simp only [removeValue, hc, hb, e1, Option.bind_eq_bind, Option.bind_some]
    cases hx : get L i tag with
    | none =>
      refine ⟨_, w, rfl, .inl ⟨rfl, ?_, id⟩⟩
      rw [put_none hx, set_get]
      exact h
    | some x =>
      have hk := h3 x hx
      have hlt := (List.getElem?_eq_some_iff.1 hk).1
      have hl := lists_erase hm hk
      have hlen : (b.val.items.eraseIdx k).length = b.val.items.length - 1 := List.length_eraseIdx_of_lt hlt
      simp only
      by_cases hrc : b.rc = 1
      · rw [if_pos hrc]
        obtain ⟨r1, _⟩ := rel_mutate h i a hc b hb hrc { b.val with items := b.val.items.eraseIdx k } _
          ⟨hl, by simp only [hlen]; omega, allV_erase hav⟩
        exact ⟨_, _, rfl, .inl ⟨rfl, r1, id⟩⟩
      · rw [if_neg hrc]
        exact withImpl_ok h hi ok (by rw [hlen]; exact capacity_expand _) hl (allV_erase hav) id

/-! ### Queries -/

theorem getView_ok (law : Law K okV okE okS okHas okSet okRemove) {w : Wld σ V} {L : List (Map V)} (h : R okV okS w L) {i : Nat} (hi : i < L.length) :
    ∃ l, getView K w i = some l ∧ Lists l (get L i) ∧ getSize K w i = some l.length := by
  obtain ⟨c, hc, hL, hh⟩ := var_get h hi
  cases c with
  | sso s =>
    obtain ⟨l, e1, h1, h2⟩ := law.items s _ hh
    have h3 := law.size s _ hh
    refine ⟨l, ?_, h2, by simp only [getSize, hc, Option.bind_eq_bind, Option.bind_some, h1]⟩
    simp only [getView, hc, e1, Option.bind_eq_bind, Option.bind_some]
    split
    · rename_i hz
      rw [hz] at h1
      rw [List.length_eq_zero_iff.1 h1]
    · rw [if_pos (by omega), ← h1, List.take_length]
  | dyn a =>
    obtain ⟨b, hb, hm, _⟩ := hh
    exact ⟨_, by simp only [getView, hc, hb, Option.bind_eq_bind, Option.bind_some], hm,
      by simp only [getSize, hc, hb, Option.bind_eq_bind, Option.bind_some]⟩

theorem hasValue_ok (law : Law K okV okE okS okHas okSet okRemove) {w : Wld σ V} {L : List (Map V)} (h : R okV okS w L) {i : Nat} (hi : i < L.length)
    (tag : UInt32) (hhas : ∀ s, w.vars[i]? = some (.sso s) → okHas s tag) : hasValue K w i tag = some (get L i tag).isSome := by
  obtain ⟨c, hc, hL, hh⟩ := var_get h hi
  cases c with
  | sso s =>
    simp only [hasValue, hc, Option.bind_eq_bind, Option.bind_some]
    exact law.has s _ tag hh (hhas s hc)
  | dyn a =>
    obtain ⟨b, hb, hm, _⟩ := hh
    obtain ⟨k, e1, _⟩ := search_ok hm tag
    simp only [hasValue, hc, hb, e1, Option.bind_eq_bind, Option.bind_some]

theorem getValue_ok (law : Law K okV okE okS okHas okSet okRemove) {w : Wld σ V} {L : List (Map V)} (h : R okV okS w L) {i : Nat} (hi : i < L.length)
    (tag : UInt32) : getValue K w i tag = some ((get L i tag).getD K.absent) := by
  obtain ⟨c, hc, hL, hh⟩ := var_get h hi
  cases c with
  | sso s =>
    simp only [getValue, hc, Option.bind_eq_bind, Option.bind_some]
    exact law.get s _ tag hh
  | dyn a =>
    obtain ⟨b, hb, hm, _⟩ := hh
    obtain ⟨k, e1, _⟩ := search_ok hm tag
    simp only [getValue, hc, hb, e1, Option.bind_eq_bind, Option.bind_some]

theorem equals_ok [DecidableEq σ] [DecidableEq V] (law : Law K okV okE okS okHas okSet okRemove) {w : Wld σ V} {L : List (Map V)}
    (h : R okV okS w L) {i j : Nat} (hi : i < L.length) (hj : j < L.length) :
    ∃ b, equals K w i j = some b ∧ (b = true → get L i = get L j) ∧ (AllV okE (get L i) → get L i = get L j → b = true) := by
  obtain ⟨c, hc, hL, hh⟩ := var_get h hi
  obtain ⟨d, hd, hL', hh'⟩ := var_get h hj
  simp only [equals, hc, hd, Option.bind_eq_bind, Option.bind_some]
  have dd : ∀ m m' : Map V, (∃ l, Lists l m ∧ Lists l m') → m = m' := fun m m' ⟨l, h1, h2⟩ => lists_map h1 h2
  by_cases hcd : c = d
  · rw [if_pos hcd]
    subst hcd
    refine ⟨true, rfl, fun _ => ?_, fun _ _ => rfl⟩
    cases c with
    | sso s =>
      obtain ⟨l, e1, _, h1⟩ := law.items s _ hh
      obtain ⟨l', e2, _, h2⟩ := law.items s _ hh'
      rw [e1] at e2
      rw [← Option.some.inj e2] at h2
      exact lists_map h1 h2
    | dyn a =>
      obtain ⟨b, hb, hm, _⟩ := hh
      obtain ⟨b', hb', hm', _⟩ := hh'
      rw [hb] at hb'
      rw [← Option.some.inj hb'] at hm'
      exact lists_map hm hm'
  · rw [if_neg hcd]
    cases c with
    | sso s =>
      cases d with
      | sso s' =>
        refine ⟨false, rfl, by simp, fun _ he => ?_⟩
        rw [he] at hh
        exact absurd (by rw [law.eqS s s' _ hh hh']) hcd
      | dyn a =>
        obtain ⟨b, hb, hm, _, hv⟩ := hh'
        simp only [hb, Option.bind_some]
        by_cases hz : K.size s ≠ b.val.items.length
        · rw [if_pos hz]
          refine ⟨false, rfl, by simp, fun _ he => ?_⟩
          obtain ⟨l, e1, h1, h2⟩ := law.items s _ hh
          rw [he] at h2
          exact absurd (by rw [← h1, lists_unique h2 hm]) hz
        · rw [if_neg hz]
          exact law.eqItems s _ _ _ hh hm hv (by omega)
    | dyn a =>
      cases d with
      | sso s =>
        obtain ⟨b, hb, hm, _, hv⟩ := hh
        simp only [hb, Option.bind_some]
        by_cases hz : K.size s ≠ b.val.items.length
        · rw [if_pos hz]
          refine ⟨false, rfl, by simp, fun _ he => ?_⟩
          obtain ⟨l, e1, h1, h2⟩ := law.items s _ hh'
          rw [← he] at h2
          exact absurd (by rw [← h1, lists_unique h2 hm]) hz
        · rw [if_neg hz]
          obtain ⟨x, e, q1, q2⟩ := law.eqItems s _ _ _ hh' hm hv (by omega)
          exact ⟨x, e, fun hx => (q1 hx).symm, fun ha he => q2 (by rw [← he]; exact ha) he.symm⟩
      | dyn a' =>
        obtain ⟨b, hb, hm, _⟩ := hh
        obtain ⟨b', hb', hm', _⟩ := hh'
        simp only [hb, hb', Option.bind_some]
        refine ⟨_, rfl, fun he => ?_, fun _ he => ?_⟩
        · rw [decide_eq_true_eq] at he
          rw [← he] at hm'
          exact lists_map hm hm'
        · rw [decide_eq_true_eq]
          rw [← he] at hm'
          exact lists_unique hm hm'

end Blend2D.Settings
