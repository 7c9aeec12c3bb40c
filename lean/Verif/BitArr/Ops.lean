import Verif.BitArr.Lemmas
/-! # The operations of bit arrays keep the relation -/
namespace Blend2D.BitArr
open Cow Spec
open Blend2D.BitOps (bitAt startMask C41_single_bit C41_range hasBit hasBit_and)
open Blend2D.Arr (Result)

/-- The operation succeeds and variable `i` becomes `x`, or it reports that it is out of memory, because `malloc` failed or
the bit array would be too large, and changes nothing. -/
def Good (w : Wld) (L : List (List Bool)) (i : Nat) (x : List Bool) (ok : Bool) (n : Nat) (r : Option (Result × Wld)) : Prop :=
  ∃ res w', r = some (res, w') ∧ ((res = .success ∧ R w' (L.set i x)) ∨
    (res = .outOfMemory ∧ w' = w ∧ (ok = false ∨ 2 ^ 32 ≤ n)))

section
variable (ok : Bool) {w : Wld} {L : List (List Bool)} (h : R w L) {i : Nat} (hi : i < L.length)
include h hi

theorem reset_ok : ∃ w', reset w i = some (.success, w') ∧ R w' (L.set i []) := by
  obtain ⟨w', r1, r2, _⟩ := place_ok h hi _ _ (initSso_ok 0 (by omega))
  exact ⟨w', by simp only [reset, r1, Option.bind_eq_bind, Option.bind_some]; rfl, r2⟩

theorem clear_ok : ∃ w', clear w i = some (.success, w') ∧ R w' (L.set i []) := by
  obtain ⟨V⟩ := view h i hi
  simp only [clear, V.hv, V.hd, V.hm, Option.bind_eq_bind, Option.bind_some]
  by_cases hs : isSso V.v = true
  · rw [if_pos hs]
    obtain ⟨w', r1, r2, _⟩ := commit_ok h hi V (V.hsm hs) (initSso 0) [] (by rw [hs]; exact initSso_ok 0 (by omega))
    exact ⟨w', by rw [r1]; rfl, r2⟩
  · rw [if_neg hs]
    by_cases hm : V.m = true
    · rw [if_pos hm]
      have hsf : isSso V.v = false := by simpa using hs
      obtain ⟨w', r1, r2, _⟩ := commit_ok h hi V hm { V.d with size := 0, words := [] } [] (by
        rw [hsf]; exact ⟨rfl, fun k => by rw [bit_ge _ _ (by simp)]; rfl, by simp [wordCount]⟩)
      exact ⟨w', by rw [r1]; rfl, r2⟩
    · rw [if_neg hm]
      obtain ⟨w', r1, r2, _⟩ := place_ok h hi _ _ (initSso_ok 0 (by omega))
      exact ⟨w', by rw [r1]; rfl, r2⟩

theorem reserve_ok (n : Nat) (hn : n < 2 ^ 32) (hr : Own w i ∨ wordCount L[i].length ≤ wordCount n) :
    Good w L i L[i] ok 0 (reserve ok w i n) ∧ ∀ w', reserve ok w i n = some (.success, w') → Room w' i n := by
  obtain ⟨V⟩ := view h i hi
  simp only [reserve, V.hv, V.hd, V.hm, Option.bind_eq_bind, Option.bind_some]
  by_cases hfit : (if isSso V.v = true then decide (n ≤ ssoBits) else if V.m = true then decide (n ≤ V.d.cap) else false) = true
  · rw [if_pos hfit]
    refine ⟨⟨_, w, rfl, .inl ⟨rfl, by rw [List.set_getElem_self]; exact h⟩⟩, ?_⟩
    intro w' hw'
    cases hw'
    refine ⟨V.v, V.d, V.hv, V.hd, ?_, ?_⟩
    · rw [V.hm]
      by_cases hs : isSso V.v = true
      · rw [V.hsm hs]
      · rw [if_neg hs] at hfit
        by_cases hm : V.m = true
        · rw [hm]
        · rw [if_neg hm] at hfit; simp at hfit
    · by_cases hs : isSso V.v = true
      · rw [if_pos hs] at hfit
        have := V.sso hs
        have h1 : n ≤ ssoBits := by simpa using hfit
        have h2 : ssoBits = 96 := rfl
        unfold Data.cap bitCount; omega
      · rw [if_neg hs] at hfit
        by_cases hm : V.m = true
        · rw [if_pos hm] at hfit; simpa using hfit
        · rw [if_neg hm] at hfit; simp at hfit
  · rw [if_neg hfit]
    cases ok with
    | false =>
      exact ⟨⟨_, w, rfl, .inr ⟨rfl, rfl, .inl rfl⟩⟩, fun w' hw' => by simp [pure] at hw'⟩
    | true =>
      obtain ⟨t1, t2, t3⟩ := V.taken
      have hw : wordCount L[i].length ≤ wordCount n := by
        rcases hr with hr | hr
        · have hm := own_view V hr
          by_cases hs : isSso V.v = true
          · rw [if_pos hs] at hfit
            have := V.sso hs
            have h2 : ssoBits = 96 := rfl
            have : ¬ n ≤ ssoBits := by simpa using hfit
            unfold wordCount; omega
          · rw [if_neg hs, if_pos hm] at hfit
            have : ¬ n ≤ V.d.cap := by simpa using hfit
            have := V.cap
            unfold wordCount; omega
        · exact hr
      obtain ⟨d, d1, d2, d3⟩ := fresh_ok _ L[i] t2 t3 0 (wordCount n) (by simpa using hw) (by have := V.cap; omega)
      simp only [Nat.add_zero, List.replicate_zero, List.append_nil] at d1 d3
      obtain ⟨w', r1, r2, ⟨v, q1, q2, q3, _⟩⟩ := install_ok h hi d _ d3
      simp only [if_true, V.hok.size, t1, d1, r1, Option.bind_some]
      refine ⟨⟨_, w', rfl, .inl ⟨rfl, r2⟩⟩, ?_⟩
      intro w'' hw''
      cases hw''
      refine ⟨v, d, q1, q2, q3, ?_⟩
      unfold Data.cap bitCount; rw [d2]; unfold wordCount; omega

theorem shrink_ok : Good w L i L[i] ok 0 (shrink ok w i) := by
  obtain ⟨V⟩ := view h i hi
  simp only [shrink, V.hv, V.hd, Option.bind_eq_bind, Option.bind_some]
  have hsame : R w (L.set i L[i]) := by rw [List.set_getElem_self]; exact h
  by_cases hs : isSso V.v = true
  · rw [if_pos hs]; exact ⟨_, w, rfl, .inl ⟨rfl, hsame⟩⟩
  · rw [if_neg hs]
    obtain ⟨t1, t2, t3⟩ := V.taken
    rw [V.hok.size]
    by_cases h96 : L[i].length ≤ ssoBits
    · rw [if_pos h96]
      have h2 : ssoBits = 96 := rfl
      have hwc : wordCount L[i].length ≤ 3 := by unfold wordCount; omega
      obtain ⟨w', r1, r2, _⟩ := place_ok h hi ⟨L[i].length, V.d.words.take (wordCount L[i].length) ++ List.replicate (ssoWords - (V.d.words.take (wordCount L[i].length)).length) 0, ssoWords⟩ L[i] (by
        refine ⟨rfl, ?_, ?_⟩
        · intro k
          show bit (_ ++ _) k = _
          rw [bit_append, bit_zeros, t3, t2]
          by_cases hk : k < 32 * wordCount L[i].length
          · rw [if_pos hk]
          · rw [if_neg hk, lb_ge _ _ (by unfold wordCount at hk; omega)]
        · have h3 : ssoWords = 3 := rfl
          simp only [if_true, List.length_append, List.length_replicate, t2]
          omega)
      exact ⟨_, w', by simp only [t1, r1, Option.bind_some]; rfl, .inl ⟨rfl, r2⟩⟩
    · rw [if_neg h96]
      by_cases hq : 8 + wordCount L[i].length * 4 + 16 ≤ 8 + wordCount V.d.cap * 4
      · rw [if_pos hq]
        cases ok with
        | false => exact ⟨_, w, rfl, .inr ⟨rfl, rfl, .inl rfl⟩⟩
        | true =>
          obtain ⟨d, d1, d2, d3⟩ := fresh_ok _ L[i] t2 t3 0 (wordCount L[i].length) (by simp) (by have := V.cap; omega)
          simp only [Nat.add_zero, List.replicate_zero, List.append_nil] at d1 d3
          obtain ⟨w', r1, r2, _⟩ := install_ok h hi d _ d3
          exact ⟨_, w', by simp only [if_true, t1, d1, r1, Option.bind_some]; rfl, .inl ⟨rfl, r2⟩⟩
      · rw [if_neg hq]; exact ⟨_, w, rfl, .inl ⟨rfl, hsame⟩⟩

/-- A modification of a bit array that is not shared. -/
theorem modifyWith_ok (start : Nat) (hown : Own w i) (f : Nat → List W → Option (List W)) (x : List Bool)
    (hx : start < L[i].length → x.length = L[i].length)
    (hf : ∀ ws : List W, start < L[i].length → L[i].length ≤ 32 * ws.length → (∀ k, bit ws k = lb L[i] k) →
      ∃ r, f L[i].length ws = some r ∧ r.length = ws.length ∧ ∀ k, bit r k = lb x k) :
    ∃ res w', modifyWith ok w i start f = some (res, w') ∧
      ((res = .success ∧ start < L[i].length ∧ R w' (L.set i x)) ∨ (res = .invalidValue ∧ w' = w ∧ L[i].length ≤ start)) := by
  obtain ⟨V⟩ := view h i hi
  have hm := own_view V hown
  simp only [modifyWith, makeModify, V.hv, V.hd, V.hm, Option.bind_eq_bind, Option.bind_some, V.hok.size]
  by_cases hs : start ≥ L[i].length
  · rw [if_pos hs]
    exact ⟨_, w, rfl, .inr ⟨rfl, rfl, hs⟩⟩
  · rw [if_neg hs, if_pos hm]
    have hlt : start < L[i].length := by omega
    obtain ⟨r, r1, r2, r3⟩ := hf V.d.words hlt V.cap.2.2.1 V.hok.val
    obtain ⟨w', q1, q2⟩ := onWords_ok h hi V hm f x (hx hlt) r (by rw [V.hok.size]; exact r1) r2 r3
    exact ⟨_, w', by simp only [pure, Option.bind_some, if_true, q1], .inl ⟨rfl, hlt, q2⟩⟩

theorem setBit_ok (k : Nat) (hown : Own w i) : ∃ res w', setBit ok w i k = some (res, w') ∧
    ((res = .success ∧ k < L[i].length ∧ R w' (L.set i (L[i].set k true))) ∨ (res = .invalidValue ∧ w' = w ∧ L[i].length ≤ k)) := by
  refine modifyWith_ok ok h hi k hown _ _ (by simp) ?_
  intro ws hk hl hb
  obtain ⟨_, ⟨r, r1, r2, r3⟩, _⟩ := C41_single_bit .msb ws k (by omega)
  refine ⟨r, r1, r2, ?_⟩
  intro p
  rw [lb_set _ _ _ _ hk, bit, r3]
  by_cases hp : p = k
  · rw [if_pos hp, if_pos hp]
  · rw [if_neg hp, if_neg hp]; exact hb p

theorem clearBit_ok (k : Nat) (hown : Own w i) : ∃ res w', clearBit ok w i k = some (res, w') ∧
    ((res = .success ∧ k < L[i].length ∧ R w' (L.set i (L[i].set k false))) ∨ (res = .invalidValue ∧ w' = w ∧ L[i].length ≤ k)) := by
  refine modifyWith_ok ok h hi k hown _ _ (by simp) ?_
  intro ws hk hl hb
  obtain ⟨_, _, ⟨r, r1, r2, r3⟩⟩ := C41_single_bit .msb ws k (by omega)
  refine ⟨r, r1, r2, ?_⟩
  intro p
  rw [lb_set _ _ _ _ hk, bit, r3]
  by_cases hp : p = k
  · rw [if_pos hp, if_pos hp]
  · rw [if_neg hp, if_neg hp]; exact hb p

omit h hi in
theorem setRange_len (l : List Bool) (a b : Nat) (x : Bool) : (setRange l a b x).length = l.length := by simp [setRange]

omit h hi in
theorem lb_setRange (l : List Bool) (a b : Nat) (x : Bool) (k : Nat) :
    lb (setRange l a b x) k = if a ≤ k ∧ k < min b l.length then x else lb l k := by
  unfold setRange
  rw [lb_mapIdx]
  by_cases hk : k < l.length
  · rw [if_pos hk]
    by_cases hc : a ≤ k ∧ k < b
    · rw [if_pos hc, if_pos (by omega)]
    · rw [if_neg hc, if_neg (by omega)]
  · rw [if_neg hk, if_neg (by omega), lb_ge _ _ (by omega)]

theorem fillRange_ok (a b : Nat) (hown : Own w i) : ∃ res w', fillRange ok w i a b = some (res, w') ∧
    ((res = .success ∧ ¬ (b ≤ a ∨ L[i].length ≤ a) ∧ R w' (L.set i (setRange L[i] a b true))) ∨
     (res = .invalidValue ∧ w' = w ∧ (b ≤ a ∨ L[i].length ≤ a))) := by
  unfold fillRange
  by_cases hab : a ≥ b
  · rw [if_pos hab]; exact ⟨_, w, rfl, .inr ⟨rfl, rfl, .inl hab⟩⟩
  · rw [if_neg hab]
    obtain ⟨res, w', r1, r2⟩ := modifyWith_ok ok h hi a hown (fun size ws => BitOps.fill .msb ws a (min b size - a)) (setRange L[i] a b true)
      (fun _ => setRange_len ..) (by
        intro ws hk hl hb
        obtain ⟨⟨r, q1, q2, q3⟩, _⟩ := C41_range .msb ws a (min b L[i].length - a) (by omega)
        refine ⟨r, q1, q2, ?_⟩
        intro p
        rw [lb_setRange, bit, q3]
        have e : a + (min b L[i].length - a) = min b L[i].length := by omega
        rw [e]
        by_cases hp : a ≤ p ∧ p < min b L[i].length
        · rw [if_pos hp, if_pos hp]
        · rw [if_neg hp, if_neg hp]; exact hb p)
    refine ⟨res, w', r1, ?_⟩
    rcases r2 with ⟨e1, e2, e3⟩ | ⟨e1, e2, e3⟩
    · exact .inl ⟨e1, by omega, e3⟩
    · exact .inr ⟨e1, e2, .inr e3⟩

theorem clearRange_ok (a b : Nat) (hown : Own w i) : ∃ res w', clearRange ok w i a b = some (res, w') ∧
    ((res = .success ∧ ¬ (b ≤ a ∨ L[i].length ≤ a) ∧ R w' (L.set i (setRange L[i] a b false))) ∨
     (res = .invalidValue ∧ w' = w ∧ (b ≤ a ∨ L[i].length ≤ a))) := by
  unfold clearRange
  by_cases hab : a ≥ b
  · rw [if_pos hab]; exact ⟨_, w, rfl, .inr ⟨rfl, rfl, .inl hab⟩⟩
  · rw [if_neg hab]
    obtain ⟨res, w', r1, r2⟩ := modifyWith_ok ok h hi a hown (fun size ws => BitOps.clear .msb ws a (min b size - a)) (setRange L[i] a b false)
      (fun _ => setRange_len ..) (by
        intro ws hk hl hb
        obtain ⟨_, ⟨r, q1, q2, q3⟩⟩ := C41_range .msb ws a (min b L[i].length - a) (by omega)
        refine ⟨r, q1, q2, ?_⟩
        intro p
        rw [lb_setRange, bit, q3]
        have e : a + (min b L[i].length - a) = min b L[i].length := by omega
        rw [e]
        by_cases hp : a ≤ p ∧ p < min b L[i].length
        · rw [if_pos hp, if_pos hp]
        · rw [if_neg hp, if_neg hp]; exact hb p)
    refine ⟨res, w', r1, ?_⟩
    rcases r2 with ⟨e1, e2, e3⟩ | ⟨e1, e2, e3⟩
    · exact .inl ⟨e1, by omega, e3⟩
    · exact .inr ⟨e1, e2, .inr e3⟩

omit h hi in
theorem f_eq (c : Comb) (x y : Bool) : c.f x y = combineBit c x y := by cases c <;> rfl

omit h hi in
theorem lb_combineBits (c : Comb) (l : List Bool) (k : Nat) (ws : List W) (p : Nat) :
    lb (combineBits c l k (bits ws)) p =
      if k ≤ p ∧ p < k + min (ws.length * 32) (l.length - k) then c.f (lb l p) (bit ws (p - k)) else lb l p := by
  unfold combineBits
  rw [lb_mapIdx, bits_len]
  by_cases hp : p < l.length
  · rw [if_pos hp]
    by_cases hc : k ≤ p ∧ p - k < 32 * ws.length
    · rw [if_pos hc, if_pos (by omega), f_eq]
      have := lb_bits ws (p - k)
      unfold lb at this
      rw [this]
    · rw [if_neg hc, if_neg (by omega)]
  · rw [if_neg hp, if_neg (by omega), lb_ge _ _ (by omega)]

theorem combineAt_ok (c : Comb) (k : Nat) (ws : List W) (hown : Own w i) (hok : L[i].length ≤ k ∨ CombineOk L[i].length k ws) :
    ∃ res w', combineAt ok w i c k ws = some (res, w') ∧
    ((res = .success ∧ k < L[i].length ∧ R w' (L.set i (combineBits c L[i] k (bits ws)))) ∨ (res = .invalidValue ∧ w' = w ∧ L[i].length ≤ k)) := by
  refine modifyWith_ok ok h hi k hown _ _ (by simp [combineBits]) ?_
  intro dst hk hl hb
  obtain ⟨r, r1, r2⟩ := combine_ok c L[i].length dst k ws hl hk (by rcases hok with h | h; omega; exact h)
  refine ⟨r, r1, r2.len, ?_⟩
  intro p
  rw [r2.val, lb_combineBits, hb]

/-- Making room for `n > 0` more bits, which are zero. -/
theorem makeAppend_ok (n : Nat) (hn : 0 < n) (hlim : L[i].length + n < 2 ^ 32 ∨ InPlace w i) :
    ∃ res w', makeAppend ok w i n = some (res, w') ∧
      ((res = .success ∧ R w' (L.set i (L[i] ++ List.replicate n false)) ∧ Own w' i) ∨
       (res = .outOfMemory ∧ w' = w ∧ (ok = false ∨ 2 ^ 32 ≤ L[i].length + n))) := by
  obtain ⟨V⟩ := view h i hi
  have hsz := V.hok.size
  simp only [makeAppend, V.hv, V.hd, V.hm, Option.bind_eq_bind, Option.bind_some, hsz]
  have h96 : ssoBits = 96 := rfl
  have hgrow : L[i].length + n < 2 ^ 32 → ∃ res w', makeAppend.grow ok w i n V.d = some (res, w') ∧
      ((res = .success ∧ R w' (L.set i (L[i] ++ List.replicate n false)) ∧ Own w' i) ∨
       (res = .outOfMemory ∧ w' = w ∧ (ok = false ∨ 2 ^ 32 ≤ L[i].length + n))) := by
    intro hl
    unfold makeAppend.grow
    cases ok with
    | false => exact ⟨_, w, rfl, .inr ⟨rfl, rfl, .inl rfl⟩⟩
    | true =>
      obtain ⟨t1, t2, t3⟩ := V.taken
      obtain ⟨d, d1, d2, d3⟩ := fresh_ok _ L[i] t2 t3 n (expandWords (wordCount (L[i].length + n))) (expandWords_ge _) hl
      obtain ⟨w', r1, r2, ⟨v, q1, q2, q3, _⟩⟩ := install_ok h hi d _ d3
      refine ⟨_, w', ?_, .inl ⟨rfl, r2, ⟨v, q1, q3⟩⟩⟩
      simp only [if_true, hsz, hl, t1, d1, r1, Option.bind_eq_bind, Option.bind_some]; rfl
  by_cases hs : isSso V.v = true
  · rw [if_pos hs]
    have hv := V.sso hs
    by_cases hfit : n ≤ ssoBits - L[i].length
    · rw [if_pos hfit]
      obtain ⟨w', r1, r2, ⟨v, q1, q2, q3, _⟩⟩ := commit_ok h hi V (V.hsm hs) { V.d with size := L[i].length + n } (L[i] ++ List.replicate n false) (by
        rw [hs]
        refine ⟨by simp, ?_, ?_⟩
        · intro k
          show bit V.d.words k = _
          rw [V.hok.val, lb_append, lb_replicate]
          by_cases hk : k < L[i].length
          · rw [if_pos hk]
          · rw [if_neg hk, lb_ge _ _ (by omega)]
        · simp only [if_true, List.length_append, List.length_replicate]; omega)
      exact ⟨_, w', by simp only [r1, Option.bind_some]; rfl, .inl ⟨rfl, r2, ⟨v, q1, q3⟩⟩⟩
    · rw [if_neg hfit]
      by_cases hbig : n > 2 ^ 32 - 1 - L[i].length
      · rw [if_pos hbig]
        exact ⟨_, w, rfl, .inr ⟨rfl, rfl, .inr (by omega)⟩⟩
      · rw [if_neg hbig]; exact hgrow (by omega)
  · rw [if_neg hs]
    have hsf : isSso V.v = false := by simpa using hs
    have hv := V.dyn hs
    have hl : L[i].length + n < 2 ^ 32 := by
      rcases hlim with h1 | h1
      · exact h1
      · exact absurd ((inPlace_iff V).1 h1) hs
    by_cases hfit : n ≤ (if V.m = true then V.d.cap - L[i].length else 0)
    · rw [if_pos hfit]
      have hm : V.m = true := by
        by_cases hm : V.m = true
        · exact hm
        · rw [if_neg hm] at hfit; omega
      rw [if_pos hm] at hfit
      obtain ⟨d, d1, d2, d3⟩ := fresh_ok V.d.words L[i] hv.1 V.hok.val n V.d.room (by unfold Data.cap bitCount at hfit; unfold wordCount; omega) hl
      obtain ⟨w', r1, r2, ⟨v, q1, q2, q3, _⟩⟩ := commit_ok h hi V hm d _ (by rw [hsf]; exact d3)
      exact ⟨_, w', by simp only [d1, r1, Option.bind_some]; rfl, .inl ⟨rfl, r2, ⟨v, q1, q3⟩⟩⟩
    · rw [if_neg hfit]; exact hgrow hl

/-- Appending `n > 0` bits. -/
theorem appendWith_ok (n : Nat) (hn : 0 < n) (hlim : L[i].length + n < 2 ^ 32 ∨ InPlace w i)
    (f : Nat → Nat → List W → Option (List W)) (xs : List Bool) (hxs : xs.length = n)
    (hf : ∀ ws : List W, L[i].length + n ≤ 32 * ws.length → (∀ k, bit ws k = lb L[i] k) →
      ∃ r, f L[i].length (L[i].length + n) ws = some r ∧ r.length = ws.length ∧ ∀ k, bit r k = lb (L[i] ++ xs) k) :
    Good w L i (L[i] ++ xs) ok (L[i].length + n) (appendWith ok w i n f) := by
  obtain ⟨V⟩ := view h i hi
  obtain ⟨res, w', r1, r2⟩ := makeAppend_ok ok h hi n hn hlim
  simp only [appendWith, V.hv, V.hd, Option.bind_eq_bind, Option.bind_some, r1]
  rcases r2 with ⟨e1, e2, e3⟩ | ⟨e1, e2, e3⟩
  · subst e1
    have hi' : i < (L.set i (L[i] ++ List.replicate n false)).length := by rw [List.length_set]; exact hi
    obtain ⟨V'⟩ := view e2 i hi'
    have hget : (L.set i (L[i] ++ List.replicate n false))[i] = L[i] ++ List.replicate n false := by simp
    have hsz' : V'.d.size = L[i].length + n := by rw [V'.hok.size, hget]; simp
    have hb' : ∀ k, bit V'.d.words k = lb L[i] k := by
      intro k
      rw [V'.hok.val, hget, lb_append, lb_replicate]
      by_cases hk : k < L[i].length
      · rw [if_pos hk]
      · rw [if_neg hk, lb_ge _ _ (by omega)]
    have hlen' : L[i].length + n ≤ 32 * V'.d.words.length := by
      have h1 := V'.cap.2.2.1
      have h2 : (L.set i (L[i] ++ List.replicate n false))[i].length = L[i].length + n := by rw [hget]; simp
      omega
    obtain ⟨r, q1, q2, q3⟩ := hf V'.d.words hlen' hb'
    obtain ⟨w2, p1, p2⟩ := onWords_ok e2 hi' V' (own_view V' e3) (f V.d.size) (L[i] ++ xs) (by rw [hget]; simp [hxs]) r
      (by rw [V.hok.size, hsz']; exact q1) q2 q3
    rw [List.set_set] at p2
    exact ⟨_, w2, by simp only [if_true, p1, Option.bind_some]; rfl, .inl ⟨rfl, p2⟩⟩
  · subst e1
    exact ⟨_, w', by simp only [reduceCtorEq, if_false]; rfl, .inr ⟨rfl, e2, e3⟩⟩

theorem appendBit_ok (x : Bool) (hlim : L[i].length + 1 < 2 ^ 32 ∨ InPlace w i) :
    Good w L i (L[i] ++ [x]) ok (L[i].length + 1) (appendBit ok w i x) := by
  refine appendWith_ok ok h hi 1 (by omega) hlim _ [x] rfl ?_
  intro ws hl hb
  have hk : L[i].length / 32 < ws.length := by omega
  have hx := List.getElem?_eq_getElem hk
  refine ⟨_, by simp only [orBit, hx, Option.bind_eq_bind, Option.bind_some]; rfl, by simp, ?_⟩
  intro p
  rw [bit, BitOps.bitAt_set .msb ws hk, lb_append]
  have hp : p = 32 * (p / 32) + p % 32 := by omega
  have hpm : p % 32 < 32 := by omega
  have hmask : ∀ j, j < 32 → hasBit .msb (((if x = true then 1#32 else 0#32) <<< 31) >>> (L[i].length % 32)) j = (decide (j = L[i].length % 32) && x) := by
    intro j hj
    cases x with
    | false =>
      simp only [Bool.false_eq_true, if_false, Bool.and_false]
      rw [BitVec.zero_shiftLeft, BitVec.zero_ushiftRight]
      exact BitOps.hasBit_zero _ _
    | true =>
      simp only [if_true, Bool.and_true]
      obtain ⟨m, m1, m2⟩ := BitOps.hasBit_indexMask (N := 32) .msb (k := L[i].length % 32) (by omega)
      simp only [BitOps.indexMask, if_pos (show L[i].length % 32 < 32 by omega), Option.some.injEq] at m1
      rw [← m2 j hj, ← m1]
  by_cases hq : p / 32 = L[i].length / 32
  · rw [if_pos hq, BitOps.hasBit_or, hmask _ hpm]
    have hold : hasBit .msb ws[L[i].length / 32] (p % 32) = lb L[i] p := by
      rw [← hb p]
      conv => rhs; rw [hp]
      rw [hq, bit_split ws _ _ hpm _ hx]
    rw [hold]
    by_cases h1 : p < L[i].length
    · rw [if_pos h1]
      have : ¬ p % 32 = L[i].length % 32 := by omega
      simp [this]
    · rw [if_neg h1, lb_ge L[i] p (by omega), Bool.false_or]
      by_cases h2 : p = L[i].length
      · subst h2; simp [lb]
      · have : ¬ p % 32 = L[i].length % 32 := by omega
        rw [lb_ge _ _ (by simp; omega)]
        simp [this]
  · rw [if_neg hq]
    show bit ws p = _
    rw [hb]
    by_cases h1 : p < L[i].length
    · rw [if_pos h1]
    · rw [if_neg h1, lb_ge L[i] p (by omega), lb_ge _ _ (by simp; omega)]

theorem appendWords_ok (ws : List W) (hlim : L[i].length + ws.length * 32 < 2 ^ 32 ∨ InPlace w i)
    (hok : ws = [] ∨ CombineOk (L[i].length + ws.length * 32) L[i].length ws) :
    Good w L i (L[i] ++ bits ws) ok (L[i].length + 32 * ws.length) (appendWords ok w i ws) := by
  unfold appendWords
  by_cases hz : ws.length = 0
  · rw [if_pos hz]
    have : ws = [] := List.length_eq_zero_iff.1 hz
    subst this
    refine ⟨_, w, rfl, .inl ⟨rfl, ?_⟩⟩
    simp only [bits, List.flatMap_nil, List.append_nil, List.set_getElem_self]; exact h
  · rw [if_neg hz]
    have hcomm : 32 * ws.length = ws.length * 32 := by omega
    rw [hcomm]
    refine appendWith_ok ok h hi (ws.length * 32) (by omega) hlim _ _ (by rw [bits_len]; omega) ?_
    intro dst hl hb
    obtain ⟨r, r1, r2⟩ := combine_ok .or (L[i].length + ws.length * 32) dst L[i].length ws hl (by omega) (by
      rcases hok with h0 | h0
      · rw [h0] at hz; simp at hz
      · exact h0)
    refine ⟨r, r1, r2.len, ?_⟩
    intro p
    rw [r2.val, lb_append, lb_bits, hb]
    have e : min (ws.length * 32) (L[i].length + ws.length * 32 - L[i].length) = ws.length * 32 := by omega
    rw [e]
    by_cases h1 : p < L[i].length
    · rw [if_pos h1, if_neg (by omega)]
    · rw [if_neg h1, lb_ge L[i] p (by omega)]
      by_cases h2 : p < L[i].length + ws.length * 32
      · rw [if_pos (by omega)]; simp [Comb.f]
      · rw [if_neg (by omega), bit_ge _ _ (by omega)]

omit h hi in
theorem words_ok (ws : List W) (hws : ws.length ≤ 3) :
    Ok true ⟨ws.length * 32, ws ++ List.replicate (ssoWords - ws.length) 0, ssoWords⟩ (bits ws) := by
  refine ⟨by rw [bits_len]; simp; omega, ?_, ?_⟩
  · intro k
    show bit (_ ++ _) k = _
    rw [bit_append, bit_zeros, lb_bits]
    by_cases hk : k < 32 * ws.length
    · rw [if_pos hk]
    · rw [if_neg hk, bit_ge _ _ (by omega)]
  · have h3 : ssoWords = 3 := rfl
    simp only [if_true, List.length_append, List.length_replicate, bits_len]; omega

theorem assignWords_ok (ws : List W) (hr : ws = [] ∨ ws.length ≤ 3 ∧ (InPlace w i ∨ ¬ Own w i)) :
    Good w L i (bits ws) ok 0 (assignWords ok w i ws) := by
  obtain ⟨V⟩ := view h i hi
  simp only [assignWords, V.hv, V.hd, V.hm, Option.bind_eq_bind, Option.bind_some]
  have h3 : ssoWords = 3 := rfl
  have hle : ws.length ≤ 3 := by
    rcases hr with hr | hr
    · subst hr; simp
    · exact hr.1
  by_cases hs : isSso V.v = true
  · rw [if_pos hs, if_pos (show ws.length ≤ ssoWords by omega)]
    obtain ⟨w', r1, r2, _⟩ := commit_ok h hi V (V.hsm hs) _ _ (by rw [hs]; exact words_ok ws hle)
    exact ⟨_, w', by simp only [r1, Option.bind_some]; rfl, .inl ⟨rfl, r2⟩⟩
  · rw [if_neg hs]
    by_cases hq : (if V.m = true then decide (ws.length > wordCount V.d.cap) else true) = true
    · rw [if_pos hq, if_pos (show ws.length ≤ ssoWords by omega)]
      obtain ⟨w', r1, r2, _⟩ := place_ok h hi _ _ (words_ok ws hle)
      exact ⟨_, w', by simp only [r1, Option.bind_some]; rfl, .inl ⟨rfl, r2⟩⟩
    · rw [if_neg hq]
      have hm : V.m = true := by
        by_cases hm : V.m = true
        · exact hm
        · rw [if_neg hm] at hq; simp at hq
      have hnil : ws = [] := by
        rcases hr with hr | ⟨_, hr | hr⟩
        · exact hr
        · exact absurd ((inPlace_iff V).1 hr) hs
        · exact absurd ((own_iff V).2 hm) hr
      subst hnil
      unfold assignWords.dynamic
      cases ok with
      | false => exact ⟨_, w, rfl, .inr ⟨rfl, rfl, .inl rfl⟩⟩
      | true =>
        obtain ⟨w', r1, r2, _⟩ := install_ok h hi ⟨0, [], 0⟩ [] ⟨rfl, fun k => by rw [bit_ge _ _ (by simp)]; rfl, by simp [wordCount]⟩
        exact ⟨_, w', by simp only [if_true, List.length_nil, r1, Option.bind_eq_bind, Option.bind_some]; rfl, .inl ⟨rfl, r2⟩⟩

end

/-! ### Resizing -/

/-- Clearing the bits from `n` on in a word. -/
theorem mask_bits (ws : List W) (k n : Nat) (hk : k < ws.length) (h0 : 0 < n) (hn : n ≤ 32) :
    ∃ m x, startMask .msb 32 n = some m ∧ ws[k]? = some x ∧ (ws.set k (x &&& m)).length = ws.length ∧
      ∀ p, bit (ws.set k (x &&& m)) p = if p / 32 = k ∧ n ≤ p % 32 then false else bit ws p := by
  obtain ⟨m, m1, m2⟩ := startMask_ok n h0 hn
  have hx := List.getElem?_eq_getElem hk
  refine ⟨m, _, m1, hx, by simp, ?_⟩
  intro p
  have hp : p = 32 * (p / 32) + p % 32 := by omega
  have hpm : p % 32 < 32 := by omega
  rw [bit, BitOps.bitAt_set .msb ws hk]
  by_cases hq : p / 32 = k
  · rw [if_pos hq, hasBit_and, m2 _ hpm]
    have hold : hasBit .msb ws[k] (p % 32) = bit ws p := by
      conv => rhs; rw [hp]
      rw [hq, bit_split ws _ _ hpm _ hx]
    rw [hold]
    by_cases h1 : n ≤ p % 32
    · rw [if_pos ⟨hq, h1⟩]; simp; omega
    · rw [if_neg (by omega)]
      have : p % 32 < n := by omega
      simp [this]
  · rw [if_neg hq, if_neg (by omega)]

theorem cutWord_ok (ws : List W) (n : Nat) (hn : n < 32 * ws.length) :
    ∃ r, cutWord ws n = some r ∧ r.length = ws.length ∧
      ∀ p, p < 32 * wordCount n → bit r p = if n ≤ p then false else bit ws p := by
  unfold cutWord
  by_cases hz : n % 32 ≠ 0
  · rw [if_pos hz]
    obtain ⟨m, x, h1, h2, h3, h4⟩ := mask_bits ws (n / 32) (n % 32) (by omega) (by omega) (by omega)
    refine ⟨_, by simp only [h1, h2, Option.bind_eq_bind, Option.bind_some]; rfl, h3, ?_⟩
    intro p hp
    rw [h4]
    by_cases hc : n ≤ p
    · rw [if_pos hc, if_pos (by unfold wordCount at hp; omega)]
    · rw [if_neg hc, if_neg (by omega)]
  · rw [if_neg hz]
    refine ⟨ws, rfl, rfl, ?_⟩
    intro p hp
    rw [if_neg (by unfold wordCount at hp; omega)]

theorem resize_ok (ok : Bool) {w : Wld} {L : List (List Bool)} (h : R w L) {i : Nat} (hi : i < L.length) (n : Nat) (hn : n < 2 ^ 32)
    (hr : wordCount n ≤ wordCount L[i].length ∨ n ≤ 96 ∨ Room w i n) :
    Good w L i (L[i].take n ++ List.replicate (n - L[i].length) false) ok 0 (resize ok w i n) := by
  obtain ⟨V⟩ := view h i hi
  have hsz := V.hok.size
  simp only [resize, V.hv, V.hd, V.hm, Option.bind_eq_bind, Option.bind_some, hsz]
  have h96 : ssoBits = 96 := rfl
  have h3 : ssoWords = 3 := rfl
  have hxl : (L[i].take n ++ List.replicate (n - L[i].length) false).length = n := by
    rw [List.length_append, List.length_take, List.length_replicate]; omega
  have hxb : ∀ k, lb (L[i].take n ++ List.replicate (n - L[i].length) false) k = if n ≤ k then false else lb L[i] k := by
    intro k
    rw [lb_append, lb_replicate, lb_take, List.length_take]
    by_cases hk : n ≤ k
    · rw [if_pos hk, if_neg (show ¬ k < n by omega), ite_self]
    · rw [if_neg hk, if_pos (show k < n by omega)]
      by_cases hk2 : k < min n L[i].length
      · rw [if_pos hk2]
      · rw [if_neg hk2, lb_ge _ _ (by omega)]
  generalize L[i].take n ++ List.replicate (n - L[i].length) false = x at hxl hxb ⊢
  have hmove : (wordCount n ≤ wordCount L[i].length ∨ n ≤ 96) → Good w L i x ok 0 (resize.move ok w i n V.d) := by
    intro hr
    unfold resize.move
    have hc := V.cap
    obtain ⟨hb, hb'⟩ : ∃ b, b = min n L[i].length := ⟨_, rfl⟩
    rw [hsz, ← hb']
    have hwle : wordCount hb ≤ wordCount L[i].length := by unfold wordCount; omega
    have t1 : takeWords V.d (wordCount hb) = some (V.d.words.take (wordCount hb)) := by unfold takeWords; rw [if_pos (by omega)]
    have t2 : (V.d.words.take (wordCount hb)).length = wordCount hb := by rw [List.length_take]; omega
    have t3 : ∀ k, bit (V.d.words.take (wordCount hb)) k = if k < 32 * wordCount hb then lb L[i] k else false := by
      intro k; rw [bit_take, V.hok.val]
    generalize V.d.words.take (wordCount hb) = ts at t1 t2 t3
    simp only [t1, Option.bind_eq_bind, Option.bind_some]
    obtain ⟨us, u1, u2, u3⟩ : ∃ us, (if hb % 32 ≠ 0 then
          ts[wordCount hb - 1]?.bind fun x => (startMask .msb 32 (hb % 32)).bind fun m => pure (ts.set (wordCount hb - 1) (x &&& m))
        else some ts) = some us ∧ us.length = wordCount hb ∧ ∀ k, bit us k = if n ≤ k then false else lb L[i] k := by
      by_cases hz : hb % 32 ≠ 0
      · rw [if_pos hz]
        obtain ⟨m, y, h1, h2, h3, h4⟩ := mask_bits ts (wordCount hb - 1) (hb % 32) (by unfold wordCount at *; omega) (by omega) (by omega)
        refine ⟨_, by simp only [h1, h2, Option.bind_some]; rfl, by rw [h3, t2], ?_⟩
        intro k
        rw [h4, t3]
        by_cases hk : k < hb
        · rw [if_neg (by unfold wordCount; omega), if_neg (show ¬ n ≤ k by omega), if_pos (by unfold wordCount; omega)]
        · have hkl : k < n → lb L[i] k = false := fun _ => lb_ge _ _ (by omega)
          have e : (if n ≤ k then false else lb L[i] k) = false := by
            by_cases h1 : n ≤ k
            · rw [if_pos h1]
            · rw [if_neg h1, hkl (by omega)]
          rw [e]
          by_cases hk2 : k / 32 = wordCount hb - 1 ∧ hb % 32 ≤ k % 32
          · rw [if_pos hk2]
          · rw [if_neg hk2, if_neg (by unfold wordCount at *; omega)]
      · rw [if_neg hz]
        refine ⟨ts, rfl, t2, ?_⟩
        intro k
        rw [t3]
        by_cases hk : k < hb
        · rw [if_neg (show ¬ n ≤ k by omega), if_pos (by unfold wordCount; omega)]
        · rw [if_neg (show ¬ k < 32 * wordCount hb by unfold wordCount; omega)]
          by_cases h1 : n ≤ k
          · rw [if_pos h1]
          · rw [if_neg h1, lb_ge _ _ (by omega)]
    simp only [u1, Option.bind_some]
    by_cases hsm : n ≤ ssoBits
    · rw [if_pos hsm]
      have hwc : wordCount hb ≤ 3 := by unfold wordCount; omega
      obtain ⟨w', r1, r2, _⟩ := place_ok h hi ⟨n, us ++ List.replicate (ssoWords - wordCount hb) 0, ssoWords⟩ x (by
        refine ⟨hxl.symm, ?_, ?_⟩
        · intro k
          show bit (_ ++ _) k = _
          rw [bit_append, bit_zeros, u3, hxb]
          by_cases hk : k < 32 * us.length
          · rw [if_pos hk]
          · rw [if_neg hk]
            by_cases h1 : n ≤ k
            · rw [if_pos h1]
            · rw [if_neg h1, lb_ge _ _ (by rw [u2] at hk; unfold wordCount at hk; omega)]
        · simp only [if_true, List.length_append, List.length_replicate]; omega)
      exact ⟨_, w', by simp only [r1, Option.bind_some]; rfl, .inl ⟨rfl, r2⟩⟩
    · rw [if_neg hsm]
      cases ok with
      | false => exact ⟨_, w, rfl, .inr ⟨rfl, rfl, .inl rfl⟩⟩
      | true =>
        have he : wordCount hb = wordCount n := by
          rcases hr with hr | hr
          · unfold wordCount at *; omega
          · omega
        simp only [if_true, he]
        obtain ⟨w', r1, r2, _⟩ := install_ok h hi ⟨n, us, wordCount n⟩ x (by
          refine ⟨hxl.symm, fun k => by rw [hxb]; exact u3 k, ?_⟩
          simp only [Bool.false_eq_true, if_false]
          rw [hxl]; omega)
        exact ⟨_, w', by simp only [r1, Option.bind_some]; rfl, .inl ⟨rfl, r2⟩⟩
  by_cases hs : isSso V.v = true
  · rw [if_pos hs]
    have hv := V.sso hs
    by_cases hsm : n ≤ ssoBits
    · rw [if_pos hsm]
      by_cases hlt : n < L[i].length
      · rw [if_pos hlt]
        obtain ⟨r, c1, c2, c3⟩ := cutWord_ok V.d.words n (by omega)
        have hwc : wordCount n ≤ 3 := by unfold wordCount; omega
        obtain ⟨w', r1, r2, _⟩ := commit_ok h hi V (V.hsm hs) ⟨n, r.take (wordCount n) ++ List.replicate (ssoWords - wordCount n) 0, V.d.room⟩ x (by
          rw [hs]
          refine ⟨hxl.symm, ?_, ?_⟩
          · intro k
            show bit (_ ++ _) k = _
            rw [bit_append, bit_zeros, bit_take, hxb, List.length_take]
            have e : min (wordCount n) r.length = wordCount n := by omega
            rw [e]
            by_cases hk : k < 32 * wordCount n
            · rw [if_pos hk, if_pos hk, c3 k hk, V.hok.val]
            · rw [if_neg hk, if_pos (by unfold wordCount at hk; omega)]
          · simp only [if_true, List.length_append, List.length_replicate, List.length_take]; omega)
        exact ⟨_, w', by simp only [c1, r1, Option.bind_some]; rfl, .inl ⟨rfl, r2⟩⟩
      · rw [if_neg hlt]
        obtain ⟨w', r1, r2, _⟩ := commit_ok h hi V (V.hsm hs) { V.d with size := n } x (by
          rw [hs]
          refine ⟨hxl.symm, ?_, ?_⟩
          · intro k
            show bit V.d.words k = _
            rw [V.hok.val, hxb]
            by_cases h1 : n ≤ k
            · rw [if_pos h1, lb_ge _ _ (by omega)]
            · rw [if_neg h1]
          · simp only [if_true]; omega)
        exact ⟨_, w', by simp only [r1, Option.bind_some]; rfl, .inl ⟨rfl, r2⟩⟩
    · rw [if_neg hsm]
      refine hmove ?_
      rcases hr with hr | hr | ⟨v, d, q1, q2, q3, q4⟩
      · exact .inl hr
      · exact .inr hr
      · rw [V.hv] at q1; cases q1
        rw [V.hd] at q2; cases q2
        unfold Data.cap bitCount at q4
        omega
  · rw [if_neg hs]
    have hsf : isSso V.v = false := by simpa using hs
    have hv := V.dyn hs
    by_cases hfit : (if V.m = true then decide (n ≤ V.d.cap) else false) = true
    · rw [if_pos hfit]
      have hm : V.m = true := by
        by_cases hm : V.m = true
        · exact hm
        · rw [if_neg hm] at hfit; simp at hfit
      have hcap : n ≤ V.d.cap := by rw [if_pos hm] at hfit; simpa using hfit
      by_cases hlt : n < L[i].length
      · rw [if_pos hlt]
        obtain ⟨r, c1, c2, c3⟩ := cutWord_ok V.d.words n (by have := V.cap; omega)
        have hwc : wordCount n ≤ wordCount L[i].length := by unfold wordCount; omega
        obtain ⟨w', r1, r2, _⟩ := commit_ok h hi V hm ⟨n, r.take (wordCount n), V.d.room⟩ x (by
          rw [hsf]
          refine ⟨hxl.symm, ?_, ?_⟩
          · intro k
            show bit (r.take _) k = _
            rw [bit_take, hxb]
            by_cases hk : k < 32 * wordCount n
            · rw [if_pos hk, c3 k hk, V.hok.val]
            · rw [if_neg hk, if_pos (by unfold wordCount at hk; omega)]
          · simp only [Bool.false_eq_true, if_false, List.length_take]; rw [hxl]; omega)
        exact ⟨_, w', by simp only [c1, r1, Option.bind_some]; rfl, .inl ⟨rfl, r2⟩⟩
      · rw [if_neg hlt]
        obtain ⟨d, d1, d2, d3⟩ := fresh_ok V.d.words L[i] hv.1 V.hok.val (n - L[i].length) V.d.room
          (by unfold Data.cap bitCount at hcap; unfold wordCount; omega) (by omega)
        have e : L[i].length + (n - L[i].length) = n := by omega
        rw [e] at d1
        have ex : L[i] ++ List.replicate (n - L[i].length) false = x := by
          apply lb_ext
          · rw [hxl, List.length_append, List.length_replicate]; omega
          · intro k
            rw [hxb, lb_append, lb_replicate]
            by_cases h1 : k < L[i].length
            · rw [if_pos h1, if_neg (by omega)]
            · rw [if_neg h1, lb_ge _ _ (by omega), ite_self]
        rw [ex] at d3
        obtain ⟨w', r1, r2, _⟩ := commit_ok h hi V hm d x (by rw [hsf]; exact d3)
        exact ⟨_, w', by simp only [d1, r1, Option.bind_some]; rfl, .inl ⟨rfl, r2⟩⟩
    · rw [if_neg hfit]
      refine hmove ?_
      rcases hr with hr | hr | ⟨v, d, q1, q2, q3, q4⟩
      · exact .inl hr
      · exact .inr hr
      · rw [V.hv] at q1; cases q1
        rw [V.hd] at q2; cases q2
        rw [V.hm] at q3
        have hm : V.m = true := by simpa using q3
        rw [if_pos hm] at hfit
        exact absurd q4 (by simpa using hfit)

theorem replaceOp_ok (ok : Bool) {w : Wld} {L : List (List Bool)} (h : R w L) {i : Nat} (hi : i < L.length) (n : Nat) (hn : n < 2 ^ 32) :
    ∃ res w', replaceOp ok w i n = some (res, w') ∧
      ((res = .success ∧ R w' (L.set i (List.replicate n false)) ∧ Own w' i) ∨ (res = .outOfMemory ∧ w' = w ∧ ok = false)) := by
  obtain ⟨V⟩ := view h i hi
  simp only [replaceOp, V.hv, V.hd, V.hm, Option.bind_eq_bind, Option.bind_some]
  have h96 : ssoBits = 96 := rfl
  have hfresh : ∀ room, wordCount n ≤ room → ∃ d, fresh [] n room = some d ∧ Ok false d (List.replicate n false) := by
    intro room hroom
    obtain ⟨d, d1, _, d3⟩ := fresh_ok [] [] rfl (fun k => by rw [bit_ge _ _ (by simp)]; rfl) n room (by simpa using hroom) (by simpa using hn)
    simp only [List.length_nil, Nat.zero_add, List.nil_append] at d1 d3
    exact ⟨d, d1, d3⟩
  have hdyn : ∃ res w', replaceOp.dynamic ok w i n = some (res, w') ∧
      ((res = .success ∧ R w' (L.set i (List.replicate n false)) ∧ Own w' i) ∨ (res = .outOfMemory ∧ w' = w ∧ ok = false)) := by
    unfold replaceOp.dynamic
    cases ok with
    | false => exact ⟨_, w, rfl, .inr ⟨rfl, rfl, rfl⟩⟩
    | true =>
      obtain ⟨d, d1, d3⟩ := hfresh (wordCount n) (Nat.le_refl _)
      obtain ⟨w', r1, r2, ⟨v, q1, q2, q3, _⟩⟩ := install_ok h hi d _ d3
      exact ⟨_, w', by simp only [if_true, d1, r1, Option.bind_eq_bind, Option.bind_some]; rfl, .inl ⟨rfl, r2, ⟨v, q1, q3⟩⟩⟩
  by_cases hs : isSso V.v = true
  · rw [if_pos hs]
    by_cases hsm : n ≤ ssoBits
    · rw [if_pos hsm]
      obtain ⟨w', r1, r2, ⟨v, q1, q2, q3, _⟩⟩ := commit_ok h hi V (V.hsm hs) _ _ (by rw [hs]; exact initSso_ok n (by omega))
      exact ⟨_, w', by simp only [r1, Option.bind_some]; rfl, .inl ⟨rfl, r2, ⟨v, q1, q3⟩⟩⟩
    · rw [if_neg hsm]; exact hdyn
  · rw [if_neg hs]
    have hsf : isSso V.v = false := by simpa using hs
    by_cases hfit : (if V.m = true then decide (n ≤ V.d.cap) else false) = true
    · rw [if_pos hfit]
      have hm : V.m = true := by
        by_cases hm : V.m = true
        · exact hm
        · rw [if_neg hm] at hfit; simp at hfit
      have hcap : n ≤ V.d.cap := by rw [if_pos hm] at hfit; simpa using hfit
      obtain ⟨d, d1, d3⟩ := hfresh V.d.room (by unfold Data.cap bitCount at hcap; unfold wordCount; omega)
      obtain ⟨w', r1, r2, ⟨v, q1, q2, q3, _⟩⟩ := commit_ok h hi V hm d _ (by rw [hsf]; exact d3)
      exact ⟨_, w', by simp only [d1, r1, Option.bind_some]; rfl, .inl ⟨rfl, r2, ⟨v, q1, q3⟩⟩⟩
    · rw [if_neg hfit]
      by_cases hsm : n ≤ ssoBits
      · rw [if_pos hsm]
        obtain ⟨w', r1, r2, ⟨v, q1, q2, q3, _⟩⟩ := place_ok h hi _ _ (initSso_ok n (by omega))
        exact ⟨_, w', by simp only [r1, Option.bind_some]; rfl, .inl ⟨rfl, r2, ⟨v, q1, q3⟩⟩⟩
      · rw [if_neg hsm]; exact hdyn

end Blend2D.BitArr
