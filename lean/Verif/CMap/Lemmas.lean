import Verif.CMap.Spec
import Mathlib.Data.List.Forall2

namespace Blend2D.CMap

open Spec

theorem u8_some {d : Data} {i : Nat} (h : i < d.length) : u8 d i = some (byte d i) := by
  simp [u8, byte, List.getD, List.getElem?_eq_getElem h]

theorem byte_lt (d : Data) (i : Nat) : byte d i < 256 := by
  unfold byte; exact UInt8.toNat_lt _

theorem u16_some {d : Data} {i : Nat} (h : i + 2 ≤ d.length) : u16 d i = some (be16 d i) := by
  simp [u16, be16, u8_some (show i < d.length by omega), u8_some (show i + 1 < d.length by omega)]

theorem be16_lt (d : Data) (i : Nat) : be16 d i < 65536 := by
  have h1 := byte_lt d i
  have h2 := byte_lt d (i + 1)
  unfold be16; omega

theorem u32_some {d : Data} {i : Nat} (h : i + 4 ≤ d.length) : u32 d i = some (be32 d i) := by
  simp [u32, be32, u16_some (show i + 2 ≤ d.length by omega), u16_some (show i + 2 + 2 ≤ d.length by omega)]

theorem be32_lt (d : Data) (i : Nat) : be32 d i < 4294967296 := by
  have h1 := be16_lt d i
  have h2 := be16_lt d (i + 2)
  unfold be32; omega

/-! ## Search -/

/-- Entries that are in order and do not overlap. -/
def Sorted (F L : Nat → Nat) (n : Nat) : Prop :=
  (∀ i, i < n → F i ≤ L i) ∧ ∀ i, i + 1 < n → L i < F (i + 1)

theorem Sorted.lt {F L : Nat → Nat} {n : Nat} (h : Sorted F L n) {i j : Nat} (hij : i < j) (hj : j < n) : L i < F j := by
  induction j with
  | zero => omega
  | succ j ih =>
    rcases Nat.lt_or_ge i j with h' | h'
    · have := ih h' (by omega)
      have := h.1 j (by omega)
      have := h.2 j hj
      omega
    · have : i = j := by omega
      subst this
      exact h.2 i hj

theorem Sorted.unique {F L : Nat → Nat} {n : Nat} (h : Sorted F L n) {i j c : Nat} (hi : i < n) (hj : j < n)
    (h1 : F i ≤ c) (h2 : c ≤ L i) (h3 : F j ≤ c) (h4 : c ≤ L j) : i = j := by
  rcases Nat.lt_trichotomy i j with h' | h' | h'
  · have := h.lt h' hj; omega
  · exact h'
  · have := h.lt h' hi; omega

/-- What a search finds. -/
def Found (F L : Nat → Nat) (n uc : Nat) : Option (Nat × Nat × Nat) → Prop
  | none => ∀ i, i < n → ¬ (F i ≤ uc ∧ uc ≤ L i)
  | some (m, f, l) => m < n ∧ f = F m ∧ l = L m ∧ F m ≤ uc ∧ uc ≤ L m

theorem find_spec {first last : Nat → Option Nat} {F L : Nat → Nat} {n uc : Nat}
    (hf : ∀ i, i < n → first i = some (F i)) (hl : ∀ i, i < n → last i = some (L i)) (hs : Sorted F L n) :
    ∀ fuel i base, i < fuel → base + i ≤ n → (∀ j, j < base → L j < uc) → (∀ j, base + i ≤ j → j < n → uc < F j) →
      ∃ r, find first last uc fuel i base = some r ∧ Found F L n uc r := by
  intro fuel
  induction fuel with
  | zero => intro i base h; omega
  | succ fuel ih =>
    intro i base hfu hn h1 h2
    unfold find
    by_cases hi : i = 0
    · rw [if_pos hi]
      refine ⟨none, rfl, ?_⟩
      intro j hj hc
      rcases Nat.lt_or_ge j base with h | h
      · have := h1 j h; omega
      · have := h2 j (by omega) hj; omega
    · rw [if_neg hi]
      have hp : base + i / 2 < n := by omega
      rw [hl _ hp]
      simp only [Option.bind_eq_bind, Option.bind_some]
      by_cases hlt : L (base + i / 2) < uc
      · rw [if_pos hlt]
        refine ih _ _ (by omega) (by omega) ?_ ?_
        · intro j hj
          rcases Nat.lt_or_ge j (base + i / 2) with h | h
          · have := hs.lt h hp
            have := hs.1 _ hp
            omega
          · have : j = base + i / 2 := by omega
            subst this; exact hlt
        · intro j hj hjn
          exact h2 j (by omega) hjn
      · rw [if_neg hlt, hf _ hp]
        simp only [Option.bind_some]
        by_cases hle : F (base + i / 2) ≤ uc
        · rw [if_pos hle]
          exact ⟨_, rfl, hp, rfl, rfl, hle, by omega⟩
        · rw [if_neg hle]
          refine ih _ _ (by omega) (by omega) h1 ?_
          intro j hj hjn
          rcases Nat.lt_or_ge (base + i / 2) j with h | h
          · have := hs.lt h hjn
            have := hs.1 _ hp
            omega
          · have : j = base + i / 2 := by omega
            subst this; omega

theorem find_top {first last : Nat → Option Nat} {F L : Nat → Nat} {n : Nat} (uc : Nat)
    (hf : ∀ i, i < n → first i = some (F i)) (hl : ∀ i, i < n → last i = some (L i)) (hs : Sorted F L n) :
    ∃ r, find first last uc (n + 1) n 0 = some r ∧ Found F L n uc r :=
  find_spec hf hl hs (n + 1) n 0 (by omega) (by omega) (by omega) (by omega)

/-! ## Mapping loops -/

theorem push_stateOf (out : List Nat) (g : Nat) : (stateOf out).push g = stateOf (out ++ [g]) := by
  unfold stateOf State.push
  by_cases hg : g = 0
  · subst hg
    rw [if_pos rfl]
    simp only [List.length_append, List.length_singleton, List.count_append, List.count_singleton_self, List.findIdx?_append, State.mk.injEq, true_and]
    by_cases hc : List.count 0 out = 0
    · rw [if_pos hc]
      have : List.findIdx? (fun x => x == 0) out = none := by
        rw [List.findIdx?_eq_none_iff]
        intro x hx
        have := List.count_eq_zero.mp hc
        simp only [beq_eq_false_iff_ne, ne_eq]
        intro h; subst h; exact this hx
      rw [this]
      simp [List.findIdx?_cons]
    · rw [if_neg hc]
      have : (List.findIdx? (fun x => x == 0) out).isSome := by
        rw [List.findIdx?_isSome, List.any_eq_true]
        exact ⟨0, List.count_pos_iff.mp (by omega), by simp⟩
      obtain ⟨v, hv⟩ := Option.isSome_iff_exists.mp this
      simp [hv]
  · rw [if_neg hg]
    simp only [List.length_append, List.length_singleton, List.count_append, List.findIdx?_append, State.mk.injEq, true_and]
    refine ⟨?_, ?_⟩
    · simp [hg]
    · simp [List.findIdx?_cons, hg]

/-- The glyphs and the state that a mapping loop leaves, when each glyph is related to its character. -/
def Mapped (P : Nat → Nat → Prop) (text : List Nat) (r : List Nat × State) : Prop :=
  List.Forall₂ P text r.1 ∧ r.2 = stateOf r.1

theorem forall₂_snoc {P : Nat → Nat → Prop} {a b : List Nat} {x y : Nat} (h : List.Forall₂ P a b) (hxy : P x y) :
    List.Forall₂ P (a ++ [x]) (b ++ [y]) := by
  induction h with
  | nil => exact .cons hxy .nil
  | cons h _ ih => exact .cons h ih

theorem mapEach_spec {glyph : Nat → Option Nat} {P : Nat → Nat → Prop} (hP : ∀ uc, uc < 4294967296 → ∃ g, glyph uc = some g ∧ P uc g) :
    ∀ (text : List Nat) (done out : List Nat), (∀ c ∈ text, c < 4294967296) → List.Forall₂ P done out →
      ∃ r, mapEach glyph text (stateOf out) out.reverse = some r ∧ Mapped P (done ++ text) r := by
  intro text
  induction text with
  | nil =>
    intro done out _ h
    exact ⟨_, rfl, by simpa using h, by simp⟩
  | cons c text ih =>
    intro done out ht h
    obtain ⟨g, hg, hp⟩ := hP c (ht c (by simp))
    obtain ⟨r, hr, hm⟩ := ih (done ++ [c]) (out ++ [g]) (fun x hx => ht x (by simp [hx])) (forall₂_snoc h hp)
    refine ⟨r, ?_, by simpa using hm⟩
    unfold mapEach
    rw [hg]
    simp only [Option.bind_eq_bind, Option.bind_some]
    rw [push_stateOf]
    simpa using hr

theorem mapRanges_spec {search : Nat → Option (Option (Nat × Nat × Nat))} {glyph : Nat → Nat → Nat → Option Nat} {F L : Nat → Nat} {n : Nat}
    {P : Nat → Nat → Prop}
    (hsearch : ∀ uc, ∃ r, search uc = some r ∧ Found F L n uc r)
    (hnone : ∀ uc, Found F L n uc none → P uc 0)
    (hsome : ∀ uc m f l, Found F L n uc (some (m, f, l)) → ∃ g, glyph m f uc = some g ∧ P uc g) :
    ∀ (text : List Nat) (cache : Option (Nat × Nat × Nat)) (done out : List Nat),
      (∀ m f l, cache = some (m, f, l) → m < n ∧ f = F m ∧ l = L m) → List.Forall₂ P done out →
      ∃ r, mapRanges search glyph cache text (stateOf out) out.reverse = some r ∧ Mapped P (done ++ text) r := by
  intro text
  induction text with
  | nil =>
    intro cache done out _ h
    refine ⟨_, by unfold mapRanges; rfl, by simpa using h, by simp⟩
  | cons c text ih =>
    intro cache done out hc h
    have hlook : ∃ r, lookup search cache c = some r ∧ Found F L n c r := by
      match cache, hc with
      | none, _ => exact hsearch c
      | some (m, f, l), hc =>
        obtain ⟨h1, h2, h3⟩ := hc m f l rfl
        unfold lookup
        simp only
        by_cases hr : c < f ∨ c > l
        · rw [if_pos hr]; exact hsearch c
        · rw [if_neg hr]
          exact ⟨_, rfl, h1, h2, h3, by omega, by omega⟩
    obtain ⟨r, hr, hfound⟩ := hlook
    unfold mapRanges
    rw [hr]
    simp only [Option.bind_eq_bind, Option.bind_some]
    match r, hfound with
    | none, hfound =>
      simp only
      rw [push_stateOf]
      obtain ⟨r, hr, hm⟩ := ih none (done ++ [c]) (out ++ [0]) (by simp) (forall₂_snoc h (hnone c hfound))
      exact ⟨r, by simpa using hr, by simpa using hm⟩
    | some (m, f, l), hfound =>
      obtain ⟨g, hg, hp⟩ := hsome c m f l hfound
      simp only
      rw [hg]
      simp only [Option.bind_some]
      by_cases h0 : g = 0
      · subst h0
        rw [if_pos rfl, push_stateOf]
        obtain ⟨r, hr, hm⟩ := ih none (done ++ [c]) (out ++ [0]) (by simp) (forall₂_snoc h hp)
        exact ⟨r, by simpa using hr, by simpa using hm⟩
      · rw [if_neg h0, push_stateOf]
        obtain ⟨r, hr, hm⟩ := ih (some (m, f, l)) (done ++ [c]) (out ++ [g])
          (by intro m' f' l' he; cases he; exact ⟨hfound.1, hfound.2.1, hfound.2.2.1⟩) (forall₂_snoc h hp)
        exact ⟨r, by simpa using hr, by simpa using hm⟩

/-! ## Coverage loops -/

theorem coverEach_spec {glyph : Nat → Option Nat} {G : Nat → Nat} {first : Nat} :
    ∀ k i acc, (∀ j, i ≤ j → j < i + k → glyph j = some (G j)) →
      ∃ cs, coverEach glyph first k i acc = some cs ∧ ∀ c, c ∈ cs ↔ c ∈ acc ∨ ∃ j, i ≤ j ∧ j < i + k ∧ c = first + j ∧ G j ≠ 0 := by
  intro k
  induction k with
  | zero => intro i acc _; exact ⟨_, rfl, by intro c; simp; intro j h1 h2; omega⟩
  | succ k ih =>
    intro i acc hg
    unfold coverEach
    rw [hg i (by omega) (by omega)]
    simp only [Option.bind_eq_bind, Option.bind_some]
    obtain ⟨cs, hcs, hm⟩ := ih (i + 1) (if G i ≠ 0 then (first + i) :: acc else acc) (fun j h1 h2 => hg j (by omega) (by omega))
    refine ⟨cs, hcs, ?_⟩
    intro c
    rw [hm]
    constructor
    · rintro (h | ⟨j, h1, h2, h3⟩)
      · by_cases hz : G i = 0
        · simp only [hz, ne_eq, not_true_eq_false, if_false] at h
          exact .inl h
        · simp only [hz, ne_eq, not_false_eq_true, if_true, List.mem_cons] at h
          rcases h with h | h
          · exact .inr ⟨i, by omega, by omega, h, hz⟩
          · exact .inl h
      · exact .inr ⟨j, by omega, by omega, h3⟩
    · rintro (h | ⟨j, h1, h2, h3, h4⟩)
      · left; split
        · exact List.mem_cons_of_mem _ h
        · exact h
      · rcases Nat.lt_or_ge i j with h | h
        · exact .inr ⟨j, by omega, by omega, h3, h4⟩
        · have : j = i := by omega
          subst this
          left
          simp [h4, h3]

theorem coverRanges_spec {first endOf : Nat → Option Nat} {F E : Nat → Nat} :
    ∀ k i rs re acc, (∀ j, i ≤ j → j < i + k → first j = some (F j) ∧ endOf j = some (E j) ∧ F j < E j) → rs ≤ re →
      (∀ r ∈ acc, r.1 < r.2) →
      ∃ cs, coverRanges first endOf k i rs re acc = some cs ∧ (∀ r ∈ cs, r.1 < r.2) ∧
        ∀ c, (∃ r ∈ cs, r.1 ≤ c ∧ c < r.2) ↔ (∃ r ∈ acc, r.1 ≤ c ∧ c < r.2) ∨ (rs ≤ c ∧ c < re) ∨ ∃ j, i ≤ j ∧ j < i + k ∧ F j ≤ c ∧ c < E j := by
  intro k
  induction k with
  | zero =>
    intro i rs re acc _ hrs hacc
    unfold coverRanges
    by_cases h : rs < re
    · rw [if_pos h]
      refine ⟨_, rfl, ?_, ?_⟩
      · intro r hr
        rw [List.mem_reverse, List.mem_cons] at hr
        rcases hr with hr | hr
        · subst hr; exact h
        · exact hacc r hr
      · intro c
        simp only [List.mem_reverse, List.mem_cons, exists_eq_or_imp, Nat.add_zero]
        constructor
        · rintro (h | h)
          · exact .inr (.inl h)
          · exact .inl h
        · rintro (h | h | ⟨j, h1, h2, _⟩)
          · exact .inr h
          · exact .inl h
          · omega
    · rw [if_neg h]
      refine ⟨_, rfl, by simpa using hacc, ?_⟩
      intro c
      simp only [List.mem_reverse, Nat.add_zero]
      constructor
      · exact .inl
      · rintro (h | h | ⟨j, h1, h2, _⟩)
        · exact h
        · omega
        · omega
  | succ k ih =>
    intro i rs re acc hj hrs hacc
    obtain ⟨hf, he, hfe⟩ := hj i (by omega) (by omega)
    unfold coverRanges
    rw [hf, he]
    simp only [Option.bind_eq_bind, Option.bind_some]
    by_cases hm : F i = re
    · rw [if_pos hm]
      obtain ⟨cs, hcs, hpos, hiff⟩ := ih (i + 1) rs (E i) acc (fun j h1 h2 => hj j (by omega) (by omega)) (by omega) hacc
      refine ⟨cs, hcs, hpos, ?_⟩
      intro c
      rw [hiff]
      constructor
      · rintro (h | h | ⟨j, h1, h2, h3⟩)
        · exact .inl h
        · by_cases hc : c < re
          · exact .inr (.inl ⟨h.1, hc⟩)
          · exact .inr (.inr ⟨i, by omega, by omega, by omega, by omega⟩)
        · exact .inr (.inr ⟨j, by omega, by omega, h3⟩)
      · rintro (h | h | ⟨j, h1, h2, h3⟩)
        · exact .inl h
        · exact .inr (.inl ⟨h.1, by omega⟩)
        · rcases Nat.lt_or_ge i j with h | h
          · exact .inr (.inr ⟨j, by omega, by omega, h3⟩)
          · have : j = i := by omega
            subst this
            exact .inr (.inl ⟨by omega, by omega⟩)
    · rw [if_neg hm]
      obtain ⟨cs, hcs, hpos, hiff⟩ := ih (i + 1) (F i) (E i) (if rs < re then (rs, re) :: acc else acc)
        (fun j h1 h2 => hj j (by omega) (by omega)) (by omega) (by
          intro r hr
          split at hr
          · rw [List.mem_cons] at hr
            rcases hr with hr | hr
            · subst hr; assumption
            · exact hacc r hr
          · exact hacc r hr)
      refine ⟨cs, hcs, hpos, ?_⟩
      intro c
      rw [hiff]
      have hacc' : (∃ r ∈ (if rs < re then (rs, re) :: acc else acc), r.1 ≤ c ∧ c < r.2) ↔ (∃ r ∈ acc, r.1 ≤ c ∧ c < r.2) ∨ (rs ≤ c ∧ c < re) := by
        split
        · simp only [List.mem_cons, exists_eq_or_imp]; exact Or.comm
        · constructor
          · exact .inl
          · rintro (h | h)
            · exact h
            · omega
      rw [hacc']
      constructor
      · rintro ((h | h) | h | ⟨j, h1, h2, h3⟩)
        · exact .inl h
        · exact .inr (.inl h)
        · exact .inr (.inr ⟨i, by omega, by omega, h⟩)
        · exact .inr (.inr ⟨j, by omega, by omega, h3⟩)
      · rintro (h | h | ⟨j, h1, h2, h3⟩)
        · exact .inl (.inl h)
        · exact .inl (.inr h)
        · rcases Nat.lt_or_ge i j with h | h
          · exact .inr (.inr ⟨j, by omega, by omega, h3⟩)
          · have : j = i := by omega
            subst this
            exact .inr (.inl h3)

end Blend2D.CMap
