import Verif.Settings.Spec
import Verif.Algo.Search
import Verif.FontTag.Lookup
/-! # Sorted items as maps -/
namespace Blend2D.Settings
open Cow Spec
open Blend2D.Algo
open Blend2D.FontTag (isValidTag)
open Blend2D.Arr (Result)

variable {σ V : Type}

theorem lists_unique {l l' : List (Item V)} {m : Map V} (h : Lists l m) (h' : Lists l' m) : l = l' := by
  have hmem : ∀ x, x ∈ l ↔ x ∈ l' := fun ⟨t, v⟩ => (h.2 t v).symm.trans (h'.2 t v)
  have s1 := h.1
  have s2 := h'.1
  clear h h'
  induction l generalizing l' with
  | nil =>
    cases l' with
    | nil => rfl
    | cons y t => exact absurd ((hmem y).2 List.mem_cons_self) (by simp)
  | cons x t ih =>
    cases l' with
    | nil => exact absurd ((hmem x).1 List.mem_cons_self) (by simp)
    | cons y t' =>
      rw [List.pairwise_cons] at s1 s2
      have hxy : x = y := by
        rcases List.mem_cons.1 ((hmem x).1 List.mem_cons_self) with h | h
        · exact h
        · rcases List.mem_cons.1 ((hmem y).2 List.mem_cons_self) with h2 | h2
          · exact h2.symm
          · have a1 := s2.1 x h
            have a2 := s1.1 y h2
            rw [UInt32.lt_iff_toNat_lt] at a1 a2
            omega
      subst hxy
      congr 1
      refine ih (fun z => ?_) s1.2 s2.2
      constructor
      · intro hz
        rcases List.mem_cons.1 ((hmem z).1 (List.mem_cons_of_mem _ hz)) with h | h
        · have := s1.1 z hz
          rw [h, UInt32.lt_iff_toNat_lt] at this
          omega
        · exact h
      · intro hz
        rcases List.mem_cons.1 ((hmem z).2 (List.mem_cons_of_mem _ hz)) with h | h
        · have := s2.1 z hz
          rw [h, UInt32.lt_iff_toNat_lt] at this
          omega
        · exact h

theorem lists_map {l : List (Item V)} {m m' : Map V} (h : Lists l m) (h' : Lists l m') : m = m' := by
  funext t
  cases h1 : m t with
  | none =>
    cases h2 : m' t with
    | none => rfl
    | some v => rw [(h.2 t v).2 ((h'.2 t v).1 h2)] at h1; simp at h1
  | some v => rw [(h'.2 t v).2 ((h.2 t v).1 h1)]

theorem lists_nil : Lists ([] : List (Item V)) nothing := ⟨List.Pairwise.nil, fun t v => by simp [nothing]⟩

theorem pair_get {l : List (Item V)} (h : l.Pairwise (fun a b => a.1 < b.1)) {p q : Nat} (hpq : p < q) (hq : q < l.length) :
    (l[p]'(by omega)).1 < l[q].1 := List.pairwise_iff_getElem.1 h p q (by omega) hq hpq

theorem find_ok {l : List (Item V)} {m : Map V} (h : Lists l m) (tag : UInt32) :
    ∃ k, find l tag = some k ∧ k ≤ l.length ∧ (∀ p (hp : p < l.length), p < k → l[p].1 < tag) ∧
      (∀ p (hp : p < l.length), k ≤ p → tag ≤ l[p].1) := by
  obtain ⟨k, e, h1, h2, h3⟩ := C14_lower_bound l.toArray tag (fun a t => decide (a.1 < t)) (by
    intro p q hp hpq hq
    simp only [List.getElem_toArray] at *
    have := pair_get h.1 (p := p) (q := q)
    simp only [decide_eq_true_eq] at *
    rcases Nat.lt_or_ge p q with hlt | hge
    · have := this hlt hp
      rw [UInt32.lt_iff_toNat_lt] at *
      omega
    · have : p = q := by omega
      subst this
      exact hq)
  refine ⟨k, by simpa [find] using e, by simpa using h1, fun p hp hk => ?_, fun p hp hk => ?_⟩
  · have := h2 p (by simpa using hp) hk
    simpa using this
  · have := h3 p (by simpa using hp) hk
    simp only [List.getElem_toArray, decide_eq_false_iff_not] at this
    exact UInt32.not_lt.1 this

/-- The binary search finds the value of a tag, or where it would be. -/
theorem search_ok {l : List (Item V)} {m : Map V} (h : Lists l m) (tag : UInt32) :
    ∃ k, search l tag = some (k, m tag) ∧ k ≤ l.length ∧ (∀ p (hp : p < l.length), p < k → l[p].1 < tag) ∧
      (∀ v, m tag = some v → l[k]? = some (tag, v)) ∧
      (m tag = none → ∀ p (hp : p < l.length), k ≤ p → tag < l[p].1) := by
  obtain ⟨k, e, h1, h2, h3⟩ := find_ok h tag
  have hfound : ∀ v, m tag = some v → l[k]? = some (tag, v) := by
    intro v hv
    obtain ⟨p, hp, e2⟩ := List.getElem_of_mem ((h.2 tag v).1 hv)
    have hkp : k ≤ p := by
      rcases Nat.lt_or_ge p k with hlt | hge
      · have := h2 p hp hlt
        rw [e2, UInt32.lt_iff_toNat_lt] at this
        simp at this
      · exact hge
    rcases Nat.lt_or_ge k p with hlt | hge
    · have a1 := pair_get h.1 hlt hp
      have a2 := h3 k (by omega) (Nat.le_refl _)
      rw [e2, UInt32.lt_iff_toNat_lt] at a1
      rw [UInt32.le_iff_toNat_le] at a2
      simp only at a1
      omega
    · have : k = p := by omega
      subst this
      rw [List.getElem?_eq_getElem hp, e2]
  refine ⟨k, ?_, h1, h2, hfound, ?_⟩
  · rw [search, e]
    simp only [Option.bind_eq_bind, Option.bind_some]
    cases hm : m tag with
    | some v =>
      have := hfound v hm
      have hk : k < l.length := (List.getElem?_eq_some_iff.1 this).1
      rw [if_pos hk, this]
      simp
    | none =>
      by_cases hk : k < l.length
      · rw [if_pos hk, List.getElem?_eq_getElem hk]
        have : ¬ l[k].1 = tag := by
          intro hc
          have := (h.2 tag l[k].2).2 (by rw [← hc]; exact List.getElem_mem hk)
          rw [hm] at this
          simp at this
        simp [this]
      · rw [if_neg hk]
  · intro hm p hp hk
    have a := h3 p hp hk
    have : ¬ l[p].1 = tag := by
      intro hc
      have := (h.2 tag l[p].2).2 (by rw [← hc]; exact List.getElem_mem hp)
      rw [hm] at this
      simp at this
    rw [UInt32.lt_iff_toNat_lt]
    rw [UInt32.le_iff_toNat_le] at a
    have hne : ¬ l[p].1.toNat = tag.toNat := fun hc => this (UInt32.toNat_inj.1 hc)
    omega

theorem mem_unique {l : List (Item V)} {m : Map V} (h : Lists l m) {t : UInt32} {v v' : V} (h1 : (t, v) ∈ l) (h2 : (t, v') ∈ l) :
    v = v' := by
  have a := (h.2 t v).2 h1
  rw [(h.2 t v').2 h2] at a
  exact (Option.some.inj a).symm

theorem lists_set {l : List (Item V)} {m : Map V} (h : Lists l m) {k : Nat} {tag : UInt32} {x : V} (hk : l[k]? = some (tag, x)) (v : V) :
    Lists (l.set k (tag, v)) (put m tag (some v)) := by
  obtain ⟨hlt, he⟩ := List.getElem?_eq_some_iff.1 hk
  constructor
  · rw [List.pairwise_iff_getElem]
    intro p q hp hq hpq
    rw [List.length_set] at hp hq
    have := pair_get h.1 hpq hq
    rw [List.getElem_set, List.getElem_set]
    split <;> split
    · omega
    · rename_i e1 e2; subst e1; rw [he] at this; exact this
    · rename_i e1 e2; subst e2; rw [he] at this; exact this
    · exact this
  · intro t u
    rw [put]
    constructor
    · intro hm
      split at hm
      · rename_i e
        rw [e]
        rw [Option.some.inj hm]
        rw [Option.some.inj hm] at *
        exact List.mem_set hlt _
      · rename_i e
        have := (h.2 t u).1 hm
        obtain ⟨p, hp, e2⟩ := List.getElem_of_mem this
        have hne : ¬ k = p := by
          intro hc; subst hc
          rw [he] at e2
          exact e (Prod.mk.inj e2).1.symm
        exact List.mem_iff_getElem.2 ⟨p, by rw [List.length_set]; exact hp, by rw [List.getElem_set_ne hne]; exact e2⟩
    · intro hm
      obtain ⟨p, hp, e2⟩ := List.getElem_of_mem hm
      rw [List.getElem_set] at e2
      split at e2
      · obtain ⟨e3, e4⟩ := Prod.mk.inj e2
        rw [if_pos e3.symm, e4]
      · rename_i hne
        rw [List.length_set] at hp
        have hmem : (t, u) ∈ l := e2 ▸ List.getElem_mem hp
        have htne : ¬ t = tag := by
          intro hc
          subst hc
          have hlt2 : p < k ∨ k < p := by omega
          rcases hlt2 with hh | hh
          · have := pair_get h.1 hh hlt
            rw [he, e2, UInt32.lt_iff_toNat_lt] at this
            simp at this
          · have := pair_get h.1 hh (by simpa using hp)
            rw [he, e2, UInt32.lt_iff_toNat_lt] at this
            simp at this
        rw [if_neg htne]
        exact (h.2 t u).2 hmem

theorem lists_insert {l : List (Item V)} {m : Map V} (h : Lists l m) {k : Nat} {tag : UInt32}
    (h1 : ∀ p (hp : p < l.length), p < k → l[p].1 < tag) (h2 : ∀ p (hp : p < l.length), k ≤ p → tag < l[p].1) (v : V) :
    Lists (l.take k ++ (tag, v) :: l.drop k) (put m tag (some v)) := by
  have ht : ∀ x ∈ l.take k, x.1 < tag := by
    intro x hx
    obtain ⟨p, hp, e⟩ := List.getElem_of_mem hx
    rw [List.getElem_take] at e
    rw [List.length_take] at hp
    rw [← e]
    exact h1 p (by omega) (by omega)
  have hd : ∀ x ∈ l.drop k, tag < x.1 := by
    intro x hx
    obtain ⟨p, hp, e⟩ := List.getElem_of_mem hx
    rw [List.getElem_drop] at e
    rw [List.length_drop] at hp
    rw [← e]
    exact h2 (k + p) (by omega) (by omega)
  constructor
  · rw [List.pairwise_append, List.pairwise_cons]
    have hpw := h.1
    rw [← List.take_append_drop k l, List.pairwise_append] at hpw
    refine ⟨hpw.1, ⟨hd, hpw.2.1⟩, ?_⟩
    intro a ha b hb
    rcases List.mem_cons.1 hb with rfl | hb
    · exact ht a ha
    · exact hpw.2.2 a ha b hb
  · intro t u
    have hsplit : (t, u) ∈ l ↔ (t, u) ∈ l.take k ∨ (t, u) ∈ l.drop k := by
      rw [← List.mem_append, List.take_append_drop]
    rw [put, List.mem_append, List.mem_cons]
    constructor
    · intro hm
      split at hm
      · rename_i e
        rw [e, Option.some.inj hm]
        exact .inr (.inl rfl)
      · rcases hsplit.1 ((h.2 t u).1 hm) with h' | h'
        · exact .inl h'
        · exact .inr (.inr h')
    · intro hm
      have key : (t, u) ∈ l → ¬ t = tag → (if t = tag then some v else m t) = some u := by
        intro h3 h4
        rw [if_neg h4]
        exact (h.2 t u).2 h3
      rcases hm with h' | h' | h'
      · refine key (hsplit.2 (.inl h')) (fun hc => ?_)
        have := ht _ h'
        rw [UInt32.lt_iff_toNat_lt, hc] at this
        simp at this
      · obtain ⟨e1, e2⟩ := Prod.mk.inj h'
        rw [if_pos e1, e2]
      · refine key (hsplit.2 (.inr h')) (fun hc => ?_)
        have := hd _ h'
        rw [UInt32.lt_iff_toNat_lt, hc] at this
        simp at this

theorem lists_erase {l : List (Item V)} {m : Map V} (h : Lists l m) {k : Nat} {tag : UInt32} {x : V} (hk : l[k]? = some (tag, x)) :
    Lists (l.eraseIdx k) (put m tag none) := by
  obtain ⟨hlt, he⟩ := List.getElem?_eq_some_iff.1 hk
  constructor
  · exact h.1.sublist (List.eraseIdx_sublist l k)
  · intro t u
    rw [put, List.mem_eraseIdx_iff_getElem]
    constructor
    · intro hm
      split at hm
      · simp at hm
      · rename_i e
        obtain ⟨p, hp, e2⟩ := List.getElem_of_mem ((h.2 t u).1 hm)
        refine ⟨p, hp, fun hc => ?_, e2⟩
        subst hc
        rw [he] at e2
        exact e (Prod.mk.inj e2).1.symm
    · rintro ⟨p, hp, hne, e2⟩
      have hmem : (t, u) ∈ l := e2 ▸ List.getElem_mem hp
      have htne : ¬ t = tag := by
        intro hc
        subst hc
        have hlt2 : p < k ∨ k < p := by omega
        rcases hlt2 with hh | hh
        · have := pair_get h.1 hh hlt
          rw [he, e2, UInt32.lt_iff_toNat_lt] at this
          simp at this
        · have := pair_get h.1 hh hp
          rw [he, e2, UInt32.lt_iff_toNat_lt] at this
          simp at this
      rw [if_neg htne]
      exact (h.2 t u).2 hmem

theorem put_none {m : Map V} {tag : UInt32} (h : m tag = none) : put m tag none = m := by
  funext t
  rw [put]
  split
  · rename_i e; rw [e, h]
  · rfl

theorem put_same {m : Map V} {tag : UInt32} {v : V} (h : m tag = some v) : put m tag (some v) = m := by
  funext t
  rw [put]
  split
  · rename_i e; rw [e, h]
  · rfl

end Blend2D.Settings
