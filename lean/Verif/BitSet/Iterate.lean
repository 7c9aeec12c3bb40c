import Verif.BitSet.Query

/-!
# Iteration over the words of a set
-/

namespace Blend2D.BitSet

open Blend2D.BitOps

/-- Calling `next_word` again and again returns the words of `l`, with their indexes, and then zero. -/
def Yields (it : WordIter) : List (Nat × Word) → Prop
  | [] => ∃ it', it.next = some (0, it')
  | (k, x) :: l => ∃ it', it.next = some (x, it') ∧ it'.word = k ∧ Yields it' l

/-- The word `k` of a segment. -/
def Seg.wordAt (g : Seg) (k : Nat) : Word :=
  match g with
  | .dense _ d => (d[k % 4]?).getD 0
  | .range _ _ => BitVec.allOnes 32

/-- The non-zero words of a segment among the `n` words from `w` on. -/
def Seg.wordsFrom (g : Seg) (w n : Nat) : List (Nat × Word) :=
  (List.range' w n).filterMap fun k => if g.wordAt k = 0 then none else some (k, g.wordAt k)

/-- The words that remain. -/
def remaining (segs : List Seg) (w : Nat) : List (Nat × Word) :=
  match segs with
  | [] => []
  | g :: gs => g.wordsFrom w (g.endWord - w) ++ gs.flatMap fun g => g.wordsFrom g.startWord (g.endWord - g.startWord)

theorem remaining_next (gs : List Seg) (w : Nat) :
    remaining gs (nextStart gs w) = gs.flatMap fun g => g.wordsFrom g.startWord (g.endWord - g.startWord) := by
  cases gs with
  | nil => rfl
  | cons g gs => rfl

theorem wordsFrom_succ_zero {g : Seg} {w n : Nat} (h : g.wordAt w = 0) : g.wordsFrom w (n + 1) = g.wordsFrom (w + 1) n := by
  simp [Seg.wordsFrom, List.range'_succ, h]

theorem wordsFrom_succ {g : Seg} {w n : Nat} (h : g.wordAt w ≠ 0) : g.wordsFrom w (n + 1) = (w, g.wordAt w) :: g.wordsFrom (w + 1) n := by
  unfold Seg.wordsFrom
  rw [List.range'_succ]
  exact List.filterMap_cons_some (by rw [if_neg h])

theorem scanDense_spec {s : Nat} {d : List Word} (hd : d.length = 4) : ∀ (n w : Nat),
    (scanDense d n w = some none ∧ (Seg.dense s d).wordsFrom w n = []) ∨
    ∃ x w', scanDense d n w = some (some (x, w')) ∧ x ≠ 0 ∧ w ≤ w' ∧ w' < w + n ∧
      (Seg.dense s d).wordsFrom w n = (w', x) :: (Seg.dense s d).wordsFrom (w' + 1) (w + n - (w' + 1)) := by
  intro n
  induction n with
  | zero => exact fun w => .inl ⟨rfl, rfl⟩
  | succ n ih =>
    intro w
    have hx : d[w % 4]? = some d[w % 4] := List.getElem?_eq_getElem (by omega)
    generalize d[w % 4] = x at hx
    have hwa : (Seg.dense s d).wordAt w = x := by simp [Seg.wordAt, hx]
    rw [scanDense, hx]
    by_cases h0 : x = 0
    · simp only [h0, ne_eq, not_true_eq_false, if_false]
      rw [wordsFrom_succ_zero (hwa.trans h0)]
      rcases ih (w + 1) with ⟨e, h⟩ | ⟨y, w', e, h1, h2, h3, h4⟩
      · exact .inl ⟨e, h⟩
      · exact .inr ⟨y, w', e, h1, by omega, by omega, by rw [h4, show w + 1 + n = w + (n + 1) by omega]⟩
    · simp only [ne_eq, h0, not_false_eq_true, if_true]
      refine .inr ⟨x, w, rfl, h0, Nat.le_refl _, by omega, ?_⟩
      rw [wordsFrom_succ (by rw [hwa]; exact h0), hwa, show w + (n + 1) - (w + 1) = n by omega]

/-- The state between two calls: the next word to look at is `w`. -/
structure Between (segs : List Seg) (w : Nat) : Prop where
  ok : SegsOK segs
  le : ∀ g gs, segs = g :: gs → w ≤ g.endWord

theorem between_next {g : Seg} {gs : List Seg} (h : SegsOK (g :: gs)) (w : Nat) : Between gs (nextStart gs w) := by
  obtain ⟨_, h2, _⟩ := SegsOK.cons.1 h
  refine ⟨h2, ?_⟩
  intro b bs e
  subst e
  have := (SegsOK.cons.1 h2).1.start_lt
  simp only [nextStart]
  omega

theorem nextLoop_spec : ∀ (segs : List Seg) (w : Nat), Between segs w →
    (∃ w', nextLoop segs w = some (0, [], w') ∧ remaining segs w = []) ∨
    ∃ x segs' w', nextLoop segs w = some (x, segs', w') ∧ x ≠ 0 ∧ segs' ≠ [] ∧ Between segs' (w' + 1) ∧ w' < 134217732 ∧
      remaining segs w = (w', x) :: remaining segs' (w' + 1) := by
  intro segs
  induction segs with
  | nil => exact fun w _ => .inl ⟨w, rfl, rfl⟩
  | cons g gs ih =>
    intro w hb
    obtain ⟨hg, _, _⟩ := SegsOK.cons.1 hb.ok
    have hlt := hg.start_lt
    have hle := hb.le g gs rfl
    have hnext : ∀ w', remaining (g :: gs) w = remaining gs (nextStart gs w') →
        ((∃ w'', nextLoop gs (nextStart gs w') = some (0, [], w'') ∧ remaining (g :: gs) w = []) ∨
        ∃ x segs' w'', nextLoop gs (nextStart gs w') = some (x, segs', w'') ∧ x ≠ 0 ∧ segs' ≠ [] ∧ Between segs' (w'' + 1) ∧ w'' < 134217732 ∧
          remaining (g :: gs) w = (w'', x) :: remaining segs' (w'' + 1)) := by
      intro w' h
      rw [h]
      exact ih _ (between_next hb.ok w')
    cases g with
    | range s e =>
      rw [nextLoop]
      have hle' : w ≤ e := hle
      by_cases h1 : w < e
      · rw [if_pos h1]
        have hlt' : e ≤ 134217732 := hlt.2.1
        refine .inr ⟨_, _, w, rfl, by decide, by simp, ⟨hb.ok, ?_⟩, by omega, ?_⟩
        · intro g' gs' e'
          obtain ⟨rfl, rfl⟩ := List.cons.inj e'
          exact h1
        · simp only [remaining, Seg.endWord]
          rw [show e - w = (e - (w + 1)) + 1 by omega, wordsFrom_succ (by simp [Seg.wordAt])]
          rfl
      · rw [if_neg h1]
        apply hnext
        rw [remaining_next, remaining]
        simp only [Seg.endWord]
        rw [show e - w = 0 by omega]
        rfl
    | dense s d =>
      rw [nextLoop]
      have hle' : w ≤ s + 4 := hle
      have hlt' : s + 4 ≤ 134217732 := hlt.2.1
      rcases scanDense_spec (s := s) hg.2.2 (s + 4 - w) w with ⟨e, h⟩ | ⟨x, w', e, h1, h2, h3, h4⟩
      · rw [e]
        apply hnext
        rw [remaining_next, remaining]
        simp only [Seg.endWord, h]
        rfl
      · rw [e]
        refine .inr ⟨x, _, w', rfl, h1, by simp, ⟨hb.ok, ?_⟩, by omega, ?_⟩
        · intro g' gs' e'
          obtain ⟨rfl, rfl⟩ := List.cons.inj e'
          simp only [Seg.endWord]
          omega
        · simp only [remaining, Seg.endWord, h4]
          rw [show w + (s + 4 - w) - (w' + 1) = s + 4 - (w' + 1) by omega]
          rfl

theorem yields_remaining : ∀ (l : List (Nat × Word)) (it : WordIter), Between it.segs (wrap (it.word + 1)) → remaining it.segs (wrap (it.word + 1)) = l → Yields it l := by
  intro l
  induction l with
  | nil =>
    intro it hb hr
    unfold Yields WordIter.next
    cases hs : it.segs with
    | nil => exact ⟨it, rfl⟩
    | cons g gs =>
      rw [hs] at hb hr
      rcases nextLoop_spec _ _ hb with ⟨w', e, _⟩ | ⟨x, segs', w', e, h1, h2, h3, h4, h5⟩
      · simp only [e]; exact ⟨_, rfl⟩
      · rw [hr] at h5; simp at h5
  | cons p l ih =>
    intro it hb hr
    obtain ⟨k, x⟩ := p
    cases hs : it.segs with
    | nil => rw [hs] at hr; simp [remaining] at hr
    | cons g gs =>
      have hn : it.next = (nextLoop it.segs (wrap (it.word + 1))).map fun r => (r.1, ⟨r.2.1, r.2.2⟩) := by
        unfold WordIter.next; rw [hs]
      rcases nextLoop_spec _ _ hb with ⟨w', e, h⟩ | ⟨y, segs', w', e, h1, h2, h3, h4, h5⟩
      · rw [hr] at h; simp at h
      · rw [hr] at h5
        obtain ⟨hp, hl⟩ := List.cons.inj h5
        obtain ⟨rfl, rfl⟩ := Prod.mk.inj hp
        have hwr : wrap (k + 1) = k + 1 := by unfold wrap; omega
        refine ⟨⟨segs', k⟩, by rw [hn, e]; rfl, rfl, ih _ ?_ ?_⟩
        · simp only [hwr]; exact h3
        · simp only [hwr]; exact hl.symm

/-! ## The words are those of the set -/

theorem mem_wordsFrom {g : Seg} {w n k : Nat} {x : Word} : (k, x) ∈ g.wordsFrom w n ↔ w ≤ k ∧ k < w + n ∧ x ≠ 0 ∧ g.wordAt k = x := by
  unfold Seg.wordsFrom
  rw [List.mem_filterMap]
  constructor
  · intro ⟨k', hk, e⟩
    rw [List.mem_range'_1] at hk
    by_cases h0 : g.wordAt k' = 0
    · rw [if_pos h0] at e; simp at e
    · rw [if_neg h0] at e
      obtain ⟨rfl, rfl⟩ := Prod.mk.inj (Option.some.inj e)
      exact ⟨hk.1, hk.2, h0, rfl⟩
  · intro ⟨h1, h2, h3, h4⟩
    refine ⟨k, List.mem_range'_1.2 ⟨h1, h2⟩, ?_⟩
    rw [h4, if_neg h3]

theorem pairwise_wordsFrom (g : Seg) (w n : Nat) : (g.wordsFrom w n).Pairwise fun a b => a.1 < b.1 := by
  unfold Seg.wordsFrom
  rw [List.pairwise_filterMap]
  refine (List.pairwise_lt_range' (s := w) (n := n)).imp ?_
  intro a b hab x hx y hy
  split at hx
  · simp at hx
  · split at hy
    · simp at hy
    · obtain rfl := Option.some.inj hx
      obtain rfl := Option.some.inj hy
      exact hab

theorem bit_wordAt {g : Seg} (hg : SegOK g) {k j : Nat} (hj : j < 32) (hk : g.startWord ≤ k ∧ k < g.endWord) :
    g.bit (k * 32 + j) = BitOps.hasBit .msb (g.wordAt k) j := by
  cases g with
  | range s e =>
    simp only [Seg.startWord, Seg.endWord] at hk
    simp only [Seg.bit, Seg.wordAt]
    rw [decide_eq_true (by omega), decide_eq_true (by omega)]
    rw [show BitOps.hasBit .msb (BitVec.allOnes 32) j = true by simp only [BitOps.hasBit, BitVec.getMsbD_allOnes]; exact decide_eq_true hj]
    rfl
  | dense s d =>
    obtain ⟨h4, _, hd⟩ := hg
    simp only [Seg.startWord, Seg.endWord] at hk
    have hx : d[k % 4]? = some d[k % 4] := List.getElem?_eq_getElem (by omega)
    simp only [Seg.bit, Seg.wordAt]
    rw [decide_eq_true (by omega), Bool.true_and, show k * 32 + j - s * 32 = k % 4 * 32 + j by omega, bitAt_word .msb d hj, hx]
    rfl

theorem mem_words {segs : List Seg} (h : SegsOK segs) {k : Nat} {x : Word} :
    (k, x) ∈ (segs.flatMap fun g => g.wordsFrom g.startWord (g.endWord - g.startWord)) ↔
      x ≠ 0 ∧ ∀ j, j < 32 → BitOps.hasBit .msb x j = anyBit segs (k * 32 + j) := by
  rw [List.mem_flatMap]
  constructor
  · intro ⟨g, hg, hm⟩
    rw [mem_wordsFrom] at hm
    obtain ⟨h1, h2, h3, h4⟩ := hm
    refine ⟨h3, fun j hj => ?_⟩
    have hgo := h.each g hg
    have hlt := hgo.start_lt
    have hb := bit_wordAt hgo hj (k := k) ⟨h1, by omega⟩
    rw [h4] at hb
    rw [← hb]
    cases hx : anyBit segs (k * 32 + j) with
    | false =>
      rw [Bool.eq_false_iff]
      intro hc
      have : anyBit segs (k * 32 + j) = true := List.any_eq_true.2 ⟨g, hg, hc⟩
      rw [hx] at this; simp at this
    | true =>
      obtain ⟨b, hbm, hbb⟩ := List.any_eq_true.1 hx
      by_cases hgb : b = g
      · rw [← hgb]; exact hbb
      · exfalso
        have h5 := Seg.bit_iff (h.each b hbm) hbb
        rcases List.mem_iff_getElem.1 hg with ⟨p, hp, rfl⟩
        rcases List.mem_iff_getElem.1 hbm with ⟨q, hq, rfl⟩
        have hs := List.pairwise_iff_getElem.1 h.sorted
        rcases Nat.lt_trichotomy p q with hpq | hpq | hpq
        · have := hs p q hp hq hpq; omega
        · subst hpq; exact hgb rfl
        · have := hs q p hq hp hpq; omega
  · intro ⟨h0, hx⟩
    have : ∃ j, j < 32 ∧ BitOps.hasBit .msb x j = true := by
      by_contra hc
      apply h0
      apply zero_of_no_bit .msb
      intro j hj
      rw [Bool.eq_false_iff]
      exact fun hb => hc ⟨j, hj, hb⟩
    obtain ⟨j, hj, hb⟩ := this
    rw [hx j hj] at hb
    obtain ⟨g, hg, hgb⟩ := List.any_eq_true.1 hb
    have hgo := h.each g hg
    have hlt := hgo.start_lt
    have hw := Seg.bit_iff hgo hgb
    have hk : (k * 32 + j) / 32 = k := by omega
    rw [hk] at hw
    refine ⟨g, hg, mem_wordsFrom.2 ⟨hw.1, by omega, h0, ?_⟩⟩
    apply hasBit_ext .msb
    intro i hi
    rw [← bit_wordAt hgo hi hw, hx i hi]
    -- only `g` has the word
    cases hgi : g.bit (k * 32 + i) with
    | true => exact (List.any_eq_true.2 ⟨g, hg, hgi⟩).symm
    | false =>
      symm
      rw [Bool.eq_false_iff]
      intro hc
      obtain ⟨b, hbm, hbb⟩ := List.any_eq_true.1 hc
      by_cases hgb' : b = g
      · rw [hgb', hgi] at hbb; simp at hbb
      · have h5 := Seg.bit_iff (h.each b hbm) hbb
        rw [show (k * 32 + i) / 32 = k by omega] at h5
        rcases List.mem_iff_getElem.1 hg with ⟨p, hp, rfl⟩
        rcases List.mem_iff_getElem.1 hbm with ⟨q, hq, rfl⟩
        have hs := List.pairwise_iff_getElem.1 h.sorted
        rcases Nat.lt_trichotomy p q with hpq | hpq | hpq
        · have := hs p q hp hq hpq; omega
        · subst hpq; exact hgb' rfl
        · have := hs q p hq hp hpq; omega

theorem pairwise_words : ∀ {segs : List Seg}, SegsOK segs →
    (segs.flatMap fun g => g.wordsFrom g.startWord (g.endWord - g.startWord)).Pairwise fun a b => a.1 < b.1 := by
  intro segs
  induction segs with
  | nil => simp
  | cons g gs ih =>
    intro h
    obtain ⟨h1, h2, h3⟩ := SegsOK.cons.1 h
    rw [List.flatMap_cons, List.pairwise_append]
    refine ⟨pairwise_wordsFrom _ _ _, ih h2, ?_⟩
    intro a ha b hb
    obtain ⟨k, x⟩ := a
    obtain ⟨k', x'⟩ := b
    rw [mem_wordsFrom] at ha
    obtain ⟨g', hg', hm⟩ := List.mem_flatMap.1 hb
    rw [mem_wordsFrom] at hm
    have := h3 g' hg'
    have := h1.start_lt
    simp only
    omega

/-- The segments that `get_data` returns have the members of the set. -/
theorem getData_spec {s : BS} (h : OK s) : ∃ segs, getData s = some segs ∧ SegsOK segs ∧ ∀ i, anyBit segs i = member s i := by
  have hr := h.rep
  cases s with
  | range a b =>
    rcases hr with ⟨rfl, rfl⟩ | ⟨h1, h2⟩
    · refine ⟨[], by decide +kernel, SegsOK.nil, fun i => ?_⟩
      simp [member, anyBit]
    · obtain ⟨l, e, hl⟩ := segsFromRange_spec h1 h2
      exact ⟨l, e, hl.ok, fun i => hl.bits i⟩
  | dense w d =>
    have hw := segsFromWords_spec hr.1 hr.2.1
    exact ⟨_, rfl, hw.1, fun i => hw.2.2 i⟩
  | dyn segs cap card => exact ⟨segs, rfl, hr.1, fun _ => rfl⟩

/-- The iterator returns the non-zero words of the set in ascending order. -/
theorem iterate_spec {s : BS} (h : OK s) : ∃ it l, WordIter.init s = some it ∧ Yields it l ∧ l.Pairwise (fun a b => a.1 < b.1) ∧
    ∀ k x, (k, x) ∈ l ↔ x ≠ 0 ∧ ∀ j, j < 32 → BitOps.hasBit .msb x j = member s (k * 32 + j) := by
  obtain ⟨segs, e, hok, hbits⟩ := getData_spec h
  have hwords : ∀ k x, (k, x) ∈ (segs.flatMap fun g => g.wordsFrom g.startWord (g.endWord - g.startWord)) ↔
      x ≠ 0 ∧ ∀ j, j < 32 → BitOps.hasBit .msb x j = member s (k * 32 + j) := by
    intro k x
    rw [mem_words hok]
    simp only [hbits]
  cases segs with
  | nil =>
    refine ⟨⟨[], 4294967295⟩, [], by unfold WordIter.init; rw [e]; rfl, ⟨_, rfl⟩, List.Pairwise.nil, ?_⟩
    simpa using hwords
  | cons g gs =>
    have hlt := (SegsOK.cons.1 hok).1.start_lt
    have hw : wrap (sub32 g.startWord 1 + 1) = g.startWord := by unfold wrap sub32; omega
    have hb : Between (g :: gs) g.startWord := ⟨hok, fun g' gs' e' => by obtain ⟨rfl, rfl⟩ := List.cons.inj e'; omega⟩
    refine ⟨⟨g :: gs, sub32 g.startWord 1⟩, remaining (g :: gs) g.startWord, by unfold WordIter.init; rw [e]; rfl, yields_remaining _ _ ?_ ?_, ?_, ?_⟩
    · show Between (g :: gs) (wrap (sub32 g.startWord 1 + 1))
      rw [hw]; exact hb
    · show remaining (g :: gs) (wrap (sub32 g.startWord 1 + 1)) = _
      rw [hw]
    · exact pairwise_words hok
    · exact hwords

end Blend2D.BitSet
