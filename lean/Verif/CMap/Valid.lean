import Verif.CMap.Lemmas

namespace Blend2D.CMap

open Spec

/-- A validation that reads inside of the table and accepts only what has the property. -/
def Checks (r : Result) (P : Nat → Prop) : Prop := ∃ e, r = some e ∧ ∀ c, e = .ok c → P c

theorem checks_invalid (P : Nat → Prop) : Checks invalid P := ⟨_, rfl, by intro c h; cases h⟩

theorem checks_ok {P : Nat → Prop} {c : Nat} (h : P c) : Checks (some (.ok c)) P := ⟨_, rfl, by intro c' h'; cases h'; exact h⟩

theorem checks_error (P : Nat → Prop) (e : Err) : Checks (some (.error e)) P := ⟨_, rfl, by intro c h; cases h⟩

theorem Checks.mono {r : Result} {P Q : Nat → Prop} (h : Checks r P) (hpq : ∀ c, P c → Q c) : Checks r Q := by
  obtain ⟨e, h1, h2⟩ := h
  exact ⟨e, h1, fun c hc => hpq c (h2 c hc)⟩

theorem checks_if {c : Prop} [Decidable c] {r : Result} {P : Nat → Prop} (h : ¬ c → Checks r P) : Checks (if c then invalid else r) P := by
  by_cases hc : c
  · rw [if_pos hc]; exact checks_invalid P
  · rw [if_neg hc]; exact h hc

theorem validate0_spec (d : Data) (o : Nat) : Checks (validate0 d o) fun _ => o + 262 ≤ d.length := by
  unfold validate0
  refine checks_if fun h1 => ?_
  rw [u16_some (by omega)]
  simp only [Option.bind_eq_bind, Option.bind_some]
  refine checks_if fun h2 => ?_
  exact checks_ok (by omega)

theorem validate6_spec (d : Data) (o : Nat) :
    Checks (validate6 d o) fun c => c = be16 d (o + 8) ∧ o + 20 + 2 * be16 d (o + 8) ≤ d.length ∧ be16 d (o + 6) + be16 d (o + 8) ≤ 65535 := by
  unfold validate6
  refine checks_if fun h1 => ?_
  rw [u16_some (by omega), u16_some (by omega), u16_some (by omega)]
  simp only [Option.bind_eq_bind, Option.bind_some]
  refine checks_if fun h2 => ?_
  refine checks_if fun h3 => ?_
  refine checks_if fun h4 => ?_
  exact checks_ok ⟨rfl, by omega, by omega⟩

theorem validate10_spec (d : Data) (o : Nat) :
    Checks (validate10 d o) fun c => c = be32 d (o + 16) ∧ o + 20 + 2 * be32 d (o + 16) ≤ d.length ∧ be32 d (o + 12) + be32 d (o + 16) ≤ charMax := by
  unfold validate10
  refine checks_if fun h1 => ?_
  rw [u32_some (by omega), u32_some (by omega), u32_some (by omega)]
  simp only [Option.bind_eq_bind, Option.bind_some]
  refine checks_if fun h2 => ?_
  refine checks_if fun h3 => ?_
  refine checks_if fun h4 => ?_
  exact checks_ok ⟨rfl, by omega, by omega⟩

/-! ## Formats 12 and 13 -/

theorem groups12_spec (d : Data) (o count : Nat) (hlen : o + 16 + 12 * count ≤ d.length) :
    ∀ k i last, i + k = count → 0 < i → last = groupLast d o (i - 1) → Sorted (groupFirst d o) (groupLast d o) i →
      (∀ j, j < i → groupLast d o j ≤ charMax) →
      Checks (groups12 d o count k i last) fun c => c = count ∧ Sorted (groupFirst d o) (groupLast d o) count ∧ ∀ j, j < count → groupLast d o j ≤ charMax := by
  intro k
  induction k with
  | zero =>
    intro i last hk _ _ hs hm
    obtain rfl : i = count := by omega
    exact checks_ok ⟨rfl, hs, hm⟩
  | succ k ih =>
    intro i last hk hi hl hs hm
    unfold groups12 first12 last12
    rw [u32_some (by omega), u32_some (by omega)]
    simp only [Option.bind_eq_bind, Option.bind_some]
    change Checks (if groupFirst d o i ≤ last then invalid else if groupFirst d o i > groupLast d o i ∨ groupLast d o i > charMax then invalid else _) _
    refine checks_if fun h1 => ?_
    refine checks_if fun h2 => ?_
    refine ih (i + 1) _ (by omega) (by omega) rfl ⟨?_, ?_⟩ ?_
    · intro j hj
      rcases Nat.lt_or_ge j i with h | h
      · exact hs.1 j h
      · obtain rfl : j = i := by omega
        omega
    · intro j hj
      rcases Nat.lt_or_ge (j + 1) i with h | h
      · exact hs.2 j h
      · obtain rfl : i = j + 1 := by omega
        simp only [Nat.add_sub_cancel] at hl
        omega
    · intro j hj
      rcases Nat.lt_or_ge j i with h | h
      · exact hm j h
      · obtain rfl : j = i := by omega
        omega

theorem validate12_spec (d : Data) (o : Nat) (hne : be32 d (o + 12) ≠ 0) :
    Checks (validate12 d o) fun c => c = groupCount d o ∧ o + 16 + 12 * c ≤ d.length ∧ Sorted (groupFirst d o) (groupLast d o) c ∧
      ∀ j, j < c → groupLast d o j ≤ charMax := by
  unfold validate12 first12 last12
  refine checks_if fun h1 => ?_
  rw [u32_some (i := o + 4) (by omega), u32_some (i := o + 12) (by omega)]
  simp only [Option.bind_eq_bind, Option.bind_some]
  refine checks_if fun h2 => ?_
  refine checks_if fun h3 => ?_
  rw [u32_some (by omega), u32_some (by omega)]
  simp only [Option.bind_some]
  change Checks (if groupFirst d o 0 > groupLast d o 0 ∨ groupLast d o 0 > charMax then invalid else _) _
  refine checks_if fun h4 => ?_
  refine (groups12_spec d o (be32 d (o + 12)) (by omega) _ 1 _ (by omega) (by omega) rfl ⟨?_, ?_⟩ ?_).mono ?_
  · intro j hj
    obtain rfl : j = 0 := by omega
    omega
  · intro j hj; omega
  · intro j hj
    obtain rfl : j = 0 := by omega
    omega
  · rintro c ⟨rfl, h5, h6⟩
    exact ⟨rfl, by omega, h5, h6⟩

/-- An accepted sub-table of format 12 or 13, whatever the number of groups is. -/
theorem validate12_ok {d : Data} {o c : Nat} (h : validate12 d o = some (.ok c)) :
    c = groupCount d o ∧ o + 16 + 12 * c ≤ d.length ∧ Sorted (groupFirst d o) (groupLast d o) c ∧ ∀ j, j < c → groupLast d o j ≤ charMax := by
  by_cases hne : be32 d (o + 12) = 0
  · unfold validate12 at h
    by_cases h1 : d.length - o < 16
    · rw [if_pos h1] at h; cases h
    rw [if_neg h1, u32_some (i := o + 4) (by omega), u32_some (i := o + 12) (by omega), hne] at h
    simp only [Option.bind_eq_bind, Option.bind_some] at h
    by_cases h2 : be32 d (o + 4) < 16 ∨ be32 d (o + 4) > d.length - o
    · rw [if_pos h2] at h; cases h
    rw [if_neg h2, if_neg (by omega)] at h
    have hc : c = 0 := by
      cases hf : first12 d o 0 with
      | none => rw [hf] at h; simp at h
      | some f =>
        cases hl : last12 d o 0 with
        | none => rw [hf, hl] at h; simp at h
        | some l =>
          rw [hf, hl] at h
          simp only [Option.bind_some] at h
          split at h
          · cases h
          · cases h; rfl
    subst hc
    exact ⟨by unfold groupCount; rw [hne], by omega, ⟨by omega, by omega⟩, by omega⟩
  · obtain ⟨e, h1, h2⟩ := validate12_spec d o hne
    rw [h] at h1
    exact h2 c (by cases h1; rfl)

/-! ## Format 4 -/

/-- What the segments up to `i` are like when `count` of them are searched; `prev` is the end of the last one. -/
structure Seg (d : Data) (o n i prev count : Nat) : Prop where
  sorted : Sorted (startCode d o) (endCode d o) (min i count)
  noMark : ∀ j, j < min i count → ¬ IsMark d o j
  marks : ∀ j, count ≤ j → j < i → IsMark d o j
  prev : 0 < i → prev = endCode d o (i - 1)
  count : count < i ∨ count = n

theorem segmentOk_spec {n length i prev first last off : Nat} (h : segmentOk n length i prev first last off = true) :
    first ≤ last ∧ prev ≤ first ∧ (0 < i → prev < first) := by
  unfold segmentOk at h
  by_cases h1 : first < prev ∨ first > last
  · rw [if_pos h1] at h; cases h
  rw [if_neg h1] at h
  by_cases h2 : i ≠ 0 ∧ first = prev
  · rw [if_pos h2] at h; cases h
  omega

theorem segments4_spec (d : Data) (o n length : Nat) (hn : n = segCount d o) (hlen : o + 16 + 8 * n ≤ d.length) :
    ∀ k i prev count, i + k = n → Seg d o n i prev count →
      Checks (segments4 d o n length k i prev count) fun c => ∃ p, Seg d o n n p c := by
  intro k
  induction k with
  | zero =>
    intro i prev count hk hs
    obtain rfl : i = n := by omega
    exact checks_ok ⟨prev, hs⟩
  | succ k ih =>
    intro i prev count hk hs
    unfold segments4 last4 first4 offset4
    rw [u16_some (by omega), u16_some (by omega), u16_some (by omega)]
    have e1 : be16 d (o + 14 + 2 * i) = endCode d o i := rfl
    have e2 : be16 d (o + 16 + n * 2 + 2 * i) = startCode d o i := by
      unfold startCode; rw [← hn, Nat.mul_comm n 2]
    simp only [Option.bind_eq_bind, Option.bind_some, e1, e2]
    have b1 : endCode d o i < 65536 := be16_lt _ _
    have b2 : startCode d o i < 65536 := be16_lt _ _
    by_cases hmark : startCode d o i = 65535 ∧ endCode d o i = 65535
    · rw [if_pos hmark]
      apply ih (i + 1) _ _ (by omega)
      have hmin : min (i + 1) (min count i) = min i count := by omega
      refine ⟨by rw [hmin]; exact hs.sorted, by rw [hmin]; exact hs.noMark, ?_, fun _ => rfl, by omega⟩
      intro j h1 h2
      rcases Nat.lt_or_ge j i with h | h
      · exact hs.marks j (by omega) h
      · obtain rfl : j = i := by omega
        exact hmark
    · rw [if_neg hmark]
      cases hok : segmentOk n length i prev (startCode d o i) (endCode d o i) (be16 d (o + 16 + n * 6 + 2 * i)) with
      | false => simp only [Bool.false_eq_true, if_false]; exact checks_invalid _
      | true =>
        simp only [if_true]
        obtain ⟨h1, h2, h3⟩ := segmentOk_spec hok
        apply ih (i + 1) _ _ (by omega)
        have hc : i < count := by
          rcases hs.count with h | h
          · exfalso
            have := (hs.marks (i - 1) (by omega) (by omega)).2
            have := hs.prev (by omega)
            have := h3 (by omega)
            omega
          · omega
        have hmin : min (i + 1) count = i + 1 := by omega
        have hmin' : min i count = i := by omega
        refine ⟨?_, ?_, ?_, fun _ => rfl, ?_⟩
        · rw [hmin]
          have := hs.sorted
          rw [hmin'] at this
          refine ⟨?_, ?_⟩
          · intro j hj
            rcases Nat.lt_or_ge j i with h | h
            · exact this.1 j h
            · obtain rfl : j = i := by omega
              exact h1
          · intro j hj
            rcases Nat.lt_or_ge (j + 1) i with h | h
            · exact this.2 j h
            · obtain rfl : i = j + 1 := by omega
              have hp := hs.prev (by omega)
              simp only [Nat.add_sub_cancel] at hp
              have := h3 (by omega)
              omega
        · rw [hmin]
          have := hs.noMark
          rw [hmin'] at this
          intro j hj
          rcases Nat.lt_or_ge j i with h | h
          · exact this j h
          · obtain rfl : j = i := by omega
            exact hmark
        · intro j h4 h5; omega
        · rcases hs.count with h | h
          · omega
          · exact .inr h

/-- What is known of an accepted sub-table of format 4 of which `c` segments are searched. -/
structure Valid4 (d : Data) (o c : Nat) : Prop where
  size : o + 16 + 8 * segCount d o ≤ d.length
  le : c ≤ segCount d o
  sorted : Sorted (startCode d o) (endCode d o) c
  iff : ∀ j, j < segCount d o → (j < c ↔ ¬ IsMark d o j)

theorem validate4_spec (d : Data) (o : Nat) : Checks (validate4 d o) fun c => Valid4 d o c := by
  unfold validate4
  refine checks_if fun h1 => ?_
  rw [u16_some (by omega), u16_some (by omega)]
  simp only [Option.bind_eq_bind, Option.bind_some]
  refine checks_if fun h2 => ?_
  refine checks_if fun h3 => ?_
  refine checks_if fun h4 => ?_
  have hsz : o + 16 + 8 * segCount d o ≤ d.length := by unfold segCount; omega
  obtain ⟨e, he, hP⟩ := segments4_spec d o (segCount d o) (be16 d (o + 2)) rfl hsz (segCount d o) 0 0 (segCount d o) (by omega)
    ⟨⟨by omega, by omega⟩, by omega, by omega, by omega, .inr rfl⟩
  change Checks ((segments4 d o (segCount d o) (be16 d (o + 2)) (segCount d o) 0 0 (segCount d o)).bind _) _
  rw [he]
  simp only [Option.bind_some]
  cases e with
  | error e => exact checks_error _ e
  | ok c =>
    simp only
    refine checks_if fun h5 => ?_
    obtain ⟨p, hs⟩ := hP c rfl
    have hle : c ≤ segCount d o := by rcases hs.count with h | h <;> omega
    refine checks_ok ⟨hsz, hle, ?_, ?_⟩
    · have := hs.sorted
      rwa [Nat.min_eq_right hle] at this
    · intro j hj
      constructor
      · intro h
        exact hs.noMark j (by omega)
      · intro h
        by_contra hc
        exact h (hs.marks j (by omega) hj)

/-! ## All formats -/

/-- What is known of an accepted sub-table. -/
def Valid (d : Data) (o : Nat) : (format c : Nat) → Prop
  | 0, _ => o + 262 ≤ d.length
  | 4, c => Valid4 d o c
  | 6, c => c = be16 d (o + 8) ∧ o + 20 + 2 * be16 d (o + 8) ≤ d.length ∧ be16 d (o + 6) + be16 d (o + 8) ≤ 65535
  | 10, c => c = be32 d (o + 16) ∧ o + 20 + 2 * be32 d (o + 16) ≤ d.length ∧ be32 d (o + 12) + be32 d (o + 16) ≤ charMax
  | 12, c => c = groupCount d o ∧ o + 16 + 12 * c ≤ d.length ∧ Sorted (groupFirst d o) (groupLast d o) c ∧ ∀ j, j < c → groupLast d o j ≤ charMax
  | 13, c => c = groupCount d o ∧ o + 16 + 12 * c ≤ d.length ∧ Sorted (groupFirst d o) (groupLast d o) c ∧ ∀ j, j < c → groupLast d o j ≤ charMax
  | _, _ => False

theorem Checks.ok {r : Result} {P : Nat → Prop} (h : Checks r P) {c : Nat} (hr : r = some (.ok c)) : P c := by
  obtain ⟨e, h1, h2⟩ := h
  rw [hr] at h1
  exact h2 c (by cases h1; rfl)

theorem validateFormat_ok {d : Data} {o format c : Nat} (h : validateFormat d o format = some (.ok c)) : Valid d o format c := by
  unfold validateFormat at h
  split at h
  · exact (validate0_spec d o).ok h
  · cases h
  · exact (validate4_spec d o).ok h
  · exact (validate6_spec d o).ok h
  · cases h
  · exact (validate10_spec d o).ok h
  · exact validate12_ok h
  · exact validate12_ok h
  · split at h <;> cases h
  · cases h

theorem validateFormat_total (d : Data) (o format : Nat) (h : format = 12 ∨ format = 13 → be32 d (o + 12) ≠ 0) :
    ∃ r, validateFormat d o format = some r := by
  have aux : ∀ {r : Result} {P : Nat → Prop}, Checks r P → ∃ e, r = some e := fun h => ⟨_, h.choose_spec.1⟩
  unfold validateFormat
  split
  · exact aux (validate0_spec d o)
  · exact ⟨_, rfl⟩
  · exact aux (validate4_spec d o)
  · exact aux (validate6_spec d o)
  · exact ⟨_, rfl⟩
  · exact aux (validate10_spec d o)
  · exact aux (validate12_spec d o (h (.inl rfl)))
  · exact aux (validate12_spec d o (h (.inr rfl)))
  · split <;> exact ⟨_, rfl⟩
  · exact ⟨_, rfl⟩

theorem validate_ok {d : Data} {o format c : Nat} (h : validate d o = some (.ok (format, c))) :
    format = be16 d o ∧ o + 4 ≤ d.length ∧ Valid d o format c := by
  unfold validate at h
  by_cases h1 : d.length < 4 ∨ o > d.length - 4
  · rw [if_pos h1] at h; cases h
  rw [if_neg h1, u16_some (by omega)] at h
  simp only [Option.bind_eq_bind, Option.bind_some] at h
  cases hv : validateFormat d o (be16 d o) with
  | none => rw [hv] at h; simp at h
  | some r =>
    rw [hv] at h
    simp only [Option.bind_some] at h
    cases r with
    | error e => simp at h
    | ok c' =>
      simp only [Option.some.injEq, Except.ok.injEq, Prod.mk.injEq] at h
      obtain ⟨rfl, rfl⟩ := h
      exact ⟨rfl, by omega, validateFormat_ok hv⟩

theorem validate_total (d : Data) (o : Nat) (h : NoEmptyGroups d o) : ∃ r, validate d o = some r := by
  unfold validate
  by_cases h1 : d.length < 4 ∨ o > d.length - 4
  · rw [if_pos h1]; exact ⟨_, rfl⟩
  rw [if_neg h1, u16_some (by omega)]
  simp only [Option.bind_eq_bind, Option.bind_some]
  obtain ⟨r, hr⟩ := validateFormat_total d o (be16 d o) h
  rw [hr]
  simp only [Option.bind_some]
  cases r <;> exact ⟨_, rfl⟩

end Blend2D.CMap
