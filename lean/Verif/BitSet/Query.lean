import Verif.BitSet.OpsClear

/-!
# Cardinality, emptiness and range
-/

namespace Blend2D.BitSet

open Blend2D.BitOps

/-! ## Counting -/

theorem count_succ (p : Nat → Bool) (n : Nat) : count p (n + 1) = count p n + if p n then 1 else 0 := rfl

theorem count_congr {p q : Nat → Bool} : ∀ {n : Nat}, (∀ i, i < n → p i = q i) → count p n = count q n
  | 0, _ => rfl
  | n + 1, h => by rw [count_succ, count_succ, count_congr (fun i hi => h i (by omega)), h n (by omega)]

theorem count_false {p : Nat → Bool} : ∀ {n : Nat}, (∀ i, i < n → p i = false) → count p n = 0
  | 0, _ => rfl
  | n + 1, h => by rw [count_succ, count_false (fun i hi => h i (by omega)), h n (by omega)]; rfl

theorem count_or {p q : Nat → Bool} : ∀ {n : Nat}, (∀ i, p i = true → q i = false) →
    count (fun i => p i || q i) n = count p n + count q n
  | 0, _ => rfl
  | n + 1, h => by
    rw [count_succ, count_succ, count_succ, count_or h]
    have := h n
    cases hp : p n <;> cases hq : q n <;> simp_all <;> omega

theorem count_le (p : Nat → Bool) : ∀ n, count p n ≤ n
  | 0 => Nat.le_refl _
  | n + 1 => by
    have := count_le p n
    rw [count_succ]
    split <;> omega

/-- Nothing is counted behind the last number. -/
theorem count_extend {p : Nat → Bool} {n : Nat} (h : ∀ i, n ≤ i → p i = false) : ∀ k, count p (n + k) = count p n
  | 0 => rfl
  | k + 1 => by rw [← Nat.add_assoc, count_succ, h _ (by omega), count_extend h k]; rfl

theorem count_pos {p : Nat → Bool} : ∀ {n : Nat}, count p n ≠ 0 → ∃ i, p i = true
  | 0, h => absurd rfl h
  | n + 1, h => by
    cases hp : p n with
    | true => exact ⟨n, hp⟩
    | false =>
      rw [count_succ, hp] at h
      exact count_pos h

theorem count_shift (q : Nat → Bool) (s : Nat) : ∀ n, count (fun i => decide (s ≤ i) && q (i - s)) (s + n) = count q n
  | 0 => count_false fun i hi => by rw [decide_eq_false (by omega)]; rfl
  | n + 1 => by
    rw [← Nat.add_assoc, count_succ, count_shift q s n, count_succ, decide_eq_true (by omega), Nat.add_sub_cancel_left]
    rfl

theorem count_true : ∀ n, count (fun _ => true) n = n
  | 0 => rfl
  | n + 1 => by rw [count_succ, count_true n]; rfl

theorem count_inRange {a b n : Nat} (hab : a ≤ b) (hn : b ≤ n) : count (inRange a b) n = b - a := by
  obtain ⟨k, rfl⟩ : ∃ k, n = b + k := ⟨n - b, by omega⟩
  rw [count_extend (fun i hi => by rw [inRange, decide_eq_false (show ¬ i < b by omega), Bool.and_false])]
  obtain ⟨m, rfl⟩ : ∃ m, b = a + m := ⟨b - a, by omega⟩
  have h1 : count (inRange a (a + m)) (a + m) = count (fun i => decide (a ≤ i) && (fun _ => true) (i - a)) (a + m) := by
    apply count_congr
    intro i hi
    rw [inRange, decide_eq_true hi]
  rw [h1, count_shift (fun _ => true) a m, count_true]
  omega

theorem count_succ' (p : Nat → Bool) : ∀ n, count p (n + 1) = (if p 0 then 1 else 0) + count (fun i => p (i + 1)) n
  | 0 => by rw [count_succ]; simp [count]
  | n + 1 => by rw [count_succ, count_succ' p n, count_succ]; omega

theorem count_reverse (p : Nat → Bool) : ∀ n, count (fun i => p (n - 1 - i)) n = count p n
  | 0 => rfl
  | n + 1 => by
    rw [count_succ', count_succ]
    have h1 : count (fun i => p (n + 1 - 1 - (i + 1))) n = count (fun i => p (n - 1 - i)) n := by
      apply count_congr
      intro i hi
      rw [show n + 1 - 1 - (i + 1) = n - 1 - i by omega]
    rw [h1, count_reverse p n]
    simp only [Nat.add_sub_cancel, Nat.sub_zero]
    omega

theorem countP_range (p : Nat → Bool) : ∀ n, (List.range n).countP p = count p n
  | 0 => rfl
  | n + 1 => by rw [List.range_succ, List.countP_append, countP_range p n, count_succ, List.countP_cons, List.countP_nil, Nat.zero_add]

theorem word_count (x : Word) : ((List.range 32).countP fun i => x.getLsbD i) = count (BitOps.hasBit .msb x) 32 := by
  rw [countP_range, ← count_reverse]
  apply count_congr
  intro i hi
  simp [BitOps.hasBit, BitVec.getMsbD, hi]

theorem bitCount_spec : ∀ d : List Word, bitCount d = count (bitAt .msb d) (d.length * 32)
  | [] => rfl
  | x :: xs => by
    have ih := bitCount_spec xs
    unfold bitCount at ih ⊢
    rw [List.map_cons, List.sum_cons, ih, word_count, List.length_cons, show (xs.length + 1) * 32 = 32 + xs.length * 32 by omega]
    have h1 : count (bitAt .msb (x :: xs)) (32 + xs.length * 32) =
        count (fun i => BitOps.hasBit .msb x i || (decide (32 ≤ i) && bitAt .msb xs (i - 32))) (32 + xs.length * 32) := by
      apply count_congr
      intro i _
      rw [bitAt_cons]
      by_cases hi : i < 32
      · rw [if_pos hi, decide_eq_false (by omega), Bool.false_and, Bool.or_false]
      · rw [if_neg hi, decide_eq_true (by omega), Bool.true_and, hasBit_ge .msb x (by omega), Bool.false_or]
    rw [h1, count_or (fun i hi => ?_), count_shift, count_extend fun i hi => hasBit_ge .msb x hi]
    have : i < 32 := Nat.lt_of_not_le fun hc => by rw [hasBit_ge .msb x hc] at hi; cases hi
    rw [decide_eq_false (by omega)]
    rfl

/-- The number of bits of a segment. -/
def segCount : Seg → Nat
  | .dense _ d => bitCount d
  | .range a b => (b - a) * 32

theorem segCount_spec {g : Seg} (hg : SegOK g) {n : Nat} (hn : g.endWord * 32 ≤ n) : count (fun i => g.bit i) n = segCount g := by
  cases g with
  | dense s d =>
    obtain ⟨_, _, h3⟩ := hg
    simp only [Seg.endWord] at hn
    obtain ⟨k, rfl⟩ : ∃ k, n = s * 32 + (128 + k) := ⟨n - s * 32 - 128, by omega⟩
    simp only [Seg.bit, segCount]
    rw [count_shift (bitAt .msb d) (s * 32), count_extend fun i hi => bitAt_len4 h3 hi, bitCount_spec, h3]
  | range a b =>
    obtain ⟨h1, h2, h3, h4⟩ := hg
    simp only [Seg.endWord] at hn
    have : count (fun i => (Seg.range a b).bit i) n = count (inRange (a * 32) (b * 32)) n := count_congr fun i _ => rfl
    rw [this, count_inRange (by omega) hn, segCount]
    omega

theorem segs_count {n : Nat} : ∀ {segs : List Seg}, SegsOK segs → (∀ g ∈ segs, g.endWord * 32 ≤ n) →
    count (anyBit segs) n = (segs.map segCount).sum
  | [], _, _ => by
    rw [count_false fun i _ => anyBit_nil i]; rfl
  | g :: r, h, hn => by
    obtain ⟨h1, h2, h3⟩ := SegsOK.cons.1 h
    have he : count (anyBit (g :: r)) n = count (fun i => g.bit i || anyBit r i) n := count_congr fun i _ => anyBit_cons g r i
    rw [he, count_or (fun i hi => ?_), segCount_spec h1 (hn g (by simp)), segs_count h2 (fun g hg => hn g (by simp [hg])), List.map_cons,
      List.sum_cons]
    have := Seg.bit_iff h1 hi
    apply any_false h2
    intro b hb
    have := h3 b hb
    omega

theorem segsCardinality_eq : ∀ (segs : List Seg), SegsOK segs → segsCardinality segs = wrap ((segs.map segCount).sum) := by
  intro segs h
  unfold segsCardinality wrap
  have : ∀ segs : List Seg, SegsOK segs → (segs.map segCount).sum =
      (segs.map Seg.denseCount).sum + (segs.map Seg.rangeWords).sum * 32 := by
    intro segs
    induction segs with
    | nil => intro _; rfl
    | cons g r ih =>
      intro h
      obtain ⟨h1, h2, _⟩ := SegsOK.cons.1 h
      simp only [List.map_cons, List.sum_cons, ih h2]
      cases g with
      | dense s d => simp only [segCount, Seg.denseCount, Seg.rangeWords]; omega
      | range a b =>
        obtain ⟨_, _, h3, h4⟩ := h1
        simp only [segCount, Seg.denseCount, Seg.rangeWords]
        rw [sub32_of_le (by omega) (by omega)]
        omega
  rw [this segs h]
  omega

theorem count_lt {p : Nat → Bool} {n m : Nat} (hm : m = n + 1) (h : p n = false) : count p m < m := by
  subst hm
  have := count_le p n
  rw [count_succ, h]
  simp only [Bool.false_eq_true, if_false]
  omega

theorem dyn_count {segs : List Seg} {cap card : Nat} (h : OK (.dyn segs cap card)) :
    count (member (.dyn segs cap card)) 4294967296 = (segs.map segCount).sum := by
  have h1 : count (member (.dyn segs cap card)) (4294967296 + 128) = count (member (.dyn segs cap card)) 4294967296 :=
    count_extend (fun i hi => h.last i (by simp only [invalidIndex]; omega)) 128
  rw [← h1]
  have h2 : count (member (.dyn segs cap card)) (4294967296 + 128) = count (anyBit segs) (4294967296 + 128) := count_congr fun i _ => rfl
  rw [h2]
  apply segs_count h.rep.1
  intro g hg
  have := (h.rep.1.each g hg).start_lt
  omega

theorem cardinality_spec {s : BS} (h : OK s) : (cardinality s).1 = count (member s) 4294967296 ∧ Holds (cardinality s).2 (member s) := by
  have hr := h.rep
  cases s with
  | range a b =>
    refine ⟨?_, h, fun _ => rfl⟩
    have h1 : count (member (.range a b)) 4294967296 = count (inRange a b) 4294967296 := count_congr fun i _ => rfl
    have hab : a ≤ b := by rcases hr with ⟨_, _⟩ | ⟨_, _⟩ <;> omega
    have hb2 : b < 4294967296 := by rcases hr with ⟨_, _⟩ | ⟨_, _⟩ <;> omega
    rw [h1, count_inRange hab (by omega), cardinality, sub32_of_le hab hb2]
  | dense w d =>
    refine ⟨?_, h, fun _ => rfl⟩
    obtain ⟨r1, r2, r3⟩ := hr
    have h1 : count (member (.dense w d)) (4294967296 + 32) = count (member (.dense w d)) 4294967296 :=
      count_extend (fun i hi => h.last i (by simp only [invalidIndex]; omega)) 32
    have h2 : count (member (.dense w d)) (4294967296 + 32) = count (fun i => decide (w * 32 ≤ i) && bitAt .msb d (i - w * 32)) (4294967296 + 32) :=
      count_congr fun i _ => rfl
    obtain ⟨k, hk⟩ : ∃ k, 4294967296 + 32 = w * 32 + (64 + k) := ⟨4294967296 + 32 - w * 32 - 64, by omega⟩
    rw [← h1, h2, hk, count_shift (bitAt .msb d) (w * 32), count_extend fun i hi => bitAt_len2 r2 hi]
    simp only [cardinality]
    rw [bitCount_spec, r2]
  | dyn segs cap card =>
    have hd := dyn_count h
    unfold cardinality
    simp only
    split
    · rename_i hc
      exact ⟨hr.2.2 hc, h, fun _ => rfl⟩
    · have hlt := count_lt (p := member (.dyn segs cap card)) (n := 4294967295) (m := 4294967296) rfl
        (h.last _ (by simp only [invalidIndex]; omega))
      have he : segsCardinality segs = count (member (.dyn segs cap card)) 4294967296 := by
        rw [segsCardinality_eq segs hr.1, wrap_of_lt (by rw [← hd]; exact hlt), hd]
      refine ⟨he, ⟨⟨hr.1, hr.2.1, fun _ => ?_⟩, h.last⟩, fun _ => rfl⟩
      rw [he]
      exact count_congr fun i _ => rfl

/-! ## Emptiness -/

theorem all_zero_iff (d : List Word) : d.all (· == 0) = true ↔ ∀ i, bitAt .msb d i = false := by
  rw [List.all_eq_true]
  constructor
  · intro h i
    unfold bitAt
    cases hx : d[i / 32]? with
    | none => rfl
    | some x =>
      have := h x (List.mem_of_getElem? hx)
      rw [beq_iff_eq] at this
      subst this
      exact hasBit_zero .msb _
  · intro h x hx
    rw [beq_iff_eq]
    apply zero_of_no_bit .msb
    intro k hk
    obtain ⟨j, hj, rfl⟩ := List.mem_iff_getElem.1 hx
    have := h (j * 32 + k)
    rw [bitAt_word .msb d hk, List.getElem?_eq_getElem hj] at this
    exact this

theorem isEmpty_spec {s : BS} (h : OK s) : isEmpty s = true ↔ ∀ i, member s i = false := by
  have hr := h.rep
  cases s with
  | range a b =>
    simp only [isEmpty, Bool.and_eq_true, beq_iff_eq]
    constructor
    · intro ⟨ha, hb⟩ i
      rw [member, ha, hb, decide_eq_false (show ¬ i < 0 by omega), Bool.and_false]
    · intro hm
      rcases hr with hr | hr
      · exact hr
      · have := hm a
        rw [member, decide_eq_true (Nat.le_refl a), decide_eq_true hr.1] at this
        cases this
  | dense w d =>
    obtain ⟨r1, r2, j, hj⟩ := hr
    constructor
    · intro ha
      rw [isEmpty] at ha
      rw [(all_zero_iff d).1 ha j] at hj
      cases hj
    · intro hm
      have := hm (w * 32 + j)
      rw [member, decide_eq_true (by omega), Nat.add_sub_cancel_left, hj] at this
      cases this
  | dyn segs cap card =>
    unfold isEmpty
    simp only
    split
    · rename_i hc
      constructor
      · intro hf; cases hf
      · intro hm
        exfalso
        have he := hr.2.2 hc
        obtain ⟨i, hi⟩ := count_pos (p := member (.dyn segs cap card)) (n := 4294967296) (by rw [← he]; exact hc)
        rw [hm i] at hi
        cases hi
    · rw [List.all_eq_true]
      constructor
      · intro ha i
        rw [member, List.any_eq_false]
        intro g hg hb
        have := ha g hg
        cases g with
        | range a b => cases this
        | dense a d =>
          rw [Seg.bit, (all_zero_iff d).1 this, Bool.and_false] at hb
          cases hb
      · intro hm g hg
        have hz : ∀ i, g.bit i = false := by
          intro i
          rw [Bool.eq_false_iff]
          intro hb
          have := hm i
          rw [member, List.any_eq_false] at this
          exact this g hg hb
        cases g with
        | range a b =>
          obtain ⟨_, _, h3, _⟩ := hr.1.each _ hg
          have := hz (a * 32)
          rw [Seg.bit, decide_eq_true (Nat.le_refl _), decide_eq_true (show a * 32 < b * 32 by omega)] at this
          cases this
        | dense a d =>
          rw [all_zero_iff]
          intro i
          have := hz (a * 32 + i)
          rw [Seg.bit, decide_eq_true (by omega), Nat.add_sub_cancel_left] at this
          exact this

/-! ## Range -/

theorem firstBitSegs_spec : ∀ {segs : List Seg}, SegsOK segs → (∀ i, 4294967295 ≤ i → anyBit segs i = false) →
    match firstBitSegs segs with
    | none => ∀ i, anyBit segs i = false
    | some a => anyBit segs a = true ∧ ∀ i, anyBit segs i = true → a ≤ i
  | [], _, _ => fun i => anyBit_nil i
  | .range a b :: r, h, hl => by
    obtain ⟨h1, h2, h3⟩ := SegsOK.cons.1 h
    obtain ⟨_, _, h5, h6⟩ := h1
    have hm : ∀ i, (Seg.range a b).bit i = inRange (a * 32) (b * 32) i := fun i => rfl
    simp only [firstBitSegs, Seg.startBit, Seg.startWord]
    rw [wrap_of_lt (by omega)]
    refine ⟨?_, fun i hi => ?_⟩
    · rw [anyBit_cons, hm, inRange_iff.2 ⟨Nat.le_refl _, by omega⟩, Bool.true_or]
    · rw [anyBit_cons, Bool.or_eq_true, hm, inRange_iff] at hi
      rcases hi with hi | hi
      · exact hi.1
      · obtain ⟨g, hg, hb⟩ := List.any_eq_true.1 hi
        have h7 := Seg.bit_iff (h2.each g hg) hb
        have h8 := h3 g hg
        simp only [Seg.endWord] at h8
        have h9 : g.startWord ≤ i / 32 := h7.1
        have h10 : b ≤ g.startWord := h8
        omega
  | .dense a d :: r, h, hl => by
    obtain ⟨h1, h2, h3⟩ := SegsOK.cons.1 h
    have hh1 := h1
    obtain ⟨_, h5, h6⟩ := h1
    obtain ⟨f1, f2, _, _⟩ := C41_first_last_bit .msb (by omega) d
    simp only [firstBitSegs]
    cases hf : firstBit .msb d 0 with
    | none =>
      simp only
      have hz : ∀ i, (Seg.dense a d).bit i = false := fun i => by rw [Seg.bit, f2 hf, Bool.and_false]
      have he : ∀ i, anyBit (.dense a d :: r) i = anyBit r i := fun i => by rw [anyBit_cons, hz, Bool.false_or]
      have := firstBitSegs_spec h2 (fun i hi => by rw [← he]; exact hl i hi)
      cases hr : firstBitSegs r with
      | none => rw [hr] at this; exact fun i => by rw [he]; exact this i
      | some k =>
        rw [hr] at this
        simp only at this ⊢
        exact ⟨by rw [he]; exact this.1, fun i hi => this.2 i (by rw [← he]; exact hi)⟩
    | some k =>
      simp only
      obtain ⟨g1, g2, g3⟩ := f1 k hf
      have hb : (Seg.dense a d).bit (a * 32 + k) = true := by
        rw [Seg.bit, decide_eq_true (by omega), Nat.add_sub_cancel_left, g2]; rfl
      have hm : anyBit (.dense a d :: r) (a * 32 + k) = true := by rw [anyBit_cons, hb, Bool.true_or]
      have hlt : a * 32 + k < 4294967295 := Nat.lt_of_not_le fun hc => by rw [hl _ hc] at hm; cases hm
      have hv : wrap (k + (Seg.dense a d).startBit) = a * 32 + k := by
        simp only [Seg.startBit, Seg.startWord]
        rw [wrap_of_lt (show a * 32 < 4294967296 by omega), wrap_of_lt (by omega)]
        omega
      rw [hv]
      refine ⟨hm, fun i hi => ?_⟩
      rw [anyBit_cons, Bool.or_eq_true] at hi
      rcases hi with hi | hi
      · rw [Seg.bit, Bool.and_eq_true, decide_eq_true_eq] at hi
        apply Nat.le_of_not_lt
        intro hc
        rw [g3 (i - a * 32) (by omega)] at hi
        cases hi.2
      · obtain ⟨g, hg, hb⟩ := List.any_eq_true.1 hi
        have h7 := Seg.bit_iff (h2.each g hg) hb
        have h8 : a + 4 ≤ g.startWord := h3 g hg
        rw [h6] at g1
        omega

theorem lastBitSegs_spec : ∀ (rs : List Seg), SegsOK rs.reverse → (∀ i, 4294967295 ≤ i → anyBit rs i = false) →
    match lastBitSegsRev rs with
    | none => ∀ i, anyBit rs i = false
    | some a => anyBit rs a = true ∧ ∀ i, anyBit rs i = true → i ≤ a
  | [], _, _ => fun i => anyBit_nil i
  | .range a b :: r, h, hl => by
    rw [List.reverse_cons] at h
    obtain ⟨h2, h1, h3⟩ := SegsOK.append.1 h
    obtain ⟨_, h5', h5, h6⟩ := (SegsOK.cons.1 h1).1
    have hm : ∀ i, (Seg.range a b).bit i = inRange (a * 32) (b * 32) i := fun i => rfl
    have hb : (Seg.range a b).bit (b * 32 - 1) = true := by rw [hm, inRange_iff]; omega
    have hmem : anyBit (.range a b :: r) (b * 32 - 1) = true := by rw [anyBit_cons, hb, Bool.true_or]
    have hlt : b * 32 - 1 < 4294967295 := Nat.lt_of_not_le fun hc => by rw [hl _ hc] at hmem; cases hmem
    simp only [lastBitSegsRev, Seg.lastBit, Seg.endWord]
    rw [wrap_of_lt (by omega), sub32_of_le (by omega) (by omega)]
    refine ⟨hmem, fun i hi => ?_⟩
    rw [anyBit_cons, Bool.or_eq_true, hm, inRange_iff] at hi
    rcases hi with hi | hi
    · omega
    · obtain ⟨g, hg, hb⟩ := List.any_eq_true.1 hi
      have h7 := Seg.bit_iff (h2.each g (by simpa using hg)) hb
      have h8 : g.endWord ≤ a := h3 g (by simpa using hg) (.range a b) (by simp)
      omega
  | .dense a d :: r, h, hl => by
    rw [List.reverse_cons] at h
    obtain ⟨h2, h1, h3⟩ := SegsOK.append.1 h
    obtain ⟨_, h5, h6⟩ := (SegsOK.cons.1 h1).1
    obtain ⟨_, _, f1, f2⟩ := C41_first_last_bit .msb (by omega) d
    simp only [lastBitSegsRev]
    cases hf : BitOps.lastBit .msb d with
    | none =>
      simp only
      have hz : ∀ i, (Seg.dense a d).bit i = false := fun i => by rw [Seg.bit, f2 hf, Bool.and_false]
      have he : ∀ i, anyBit (.dense a d :: r) i = anyBit r i := fun i => by rw [anyBit_cons, hz, Bool.false_or]
      have := lastBitSegs_spec r h2 (fun i hi => by rw [← he]; exact hl i hi)
      cases hr : lastBitSegsRev r with
      | none => rw [hr] at this; exact fun i => by rw [he]; exact this i
      | some k =>
        rw [hr] at this
        simp only at this ⊢
        exact ⟨by rw [he]; exact this.1, fun i hi => this.2 i (by rw [← he]; exact hi)⟩
    | some k =>
      simp only
      obtain ⟨g1, g2, g3⟩ := f1 k hf
      have hb : (Seg.dense a d).bit (a * 32 + k) = true := by
        rw [Seg.bit, decide_eq_true (by omega), Nat.add_sub_cancel_left, g2]; rfl
      have hm : anyBit (.dense a d :: r) (a * 32 + k) = true := by rw [anyBit_cons, hb, Bool.true_or]
      have hlt : a * 32 + k < 4294967295 := Nat.lt_of_not_le fun hc => by rw [hl _ hc] at hm; cases hm
      have hv : wrap (k + (Seg.dense a d).startBit) = a * 32 + k := by
        simp only [Seg.startBit, Seg.startWord]
        rw [wrap_of_lt (show a * 32 < 4294967296 by omega), wrap_of_lt (by omega)]
        omega
      rw [hv]
      refine ⟨hm, fun i hi => ?_⟩
      rw [anyBit_cons, Bool.or_eq_true] at hi
      rcases hi with hi | hi
      · rw [Seg.bit, Bool.and_eq_true, decide_eq_true_eq] at hi
        apply Nat.le_of_not_lt
        intro hc
        rw [g3 (i - a * 32) (by omega)] at hi
        cases hi.2
      · obtain ⟨g, hg, hb⟩ := List.any_eq_true.1 hi
        have h7 := Seg.bit_iff (h2.each g (by simpa using hg)) hb
        have h8 : g.endWord ≤ a := h3 g (by simpa using hg) (.dense a d) (by simp)
        omega

theorem getRange_spec {s : BS} (h : OK s) (hne : ∃ i, member s i = true) : ∃ a b, getRange s = some (true, a, b) ∧ a < b ∧
    member s a = true ∧ member s (b - 1) = true ∧ ∀ i, member s i = true → a ≤ i ∧ i < b := by
  have hr := h.rep
  cases s with
  | range a b =>
    obtain ⟨j, hj⟩ := hne
    have hj' : a ≤ j ∧ j < b := inRange_iff.1 hj
    refine ⟨a, b, rfl, by omega, inRange_iff.2 (by omega), inRange_iff.2 (by omega), fun i hi => inRange_iff.1 hi⟩
  | dense w d =>
    obtain ⟨r1, r2, r3⟩ := hr
    match d, r2 with
    | [x, y], _ =>
      obtain ⟨q, eq, hq⟩ := analyze_spec (ne_zero_of_bit r3) (member (.dense w [x, y])) (fun i => rfl) (fun i hi => h.last i hi)
      simp only [getRange, eq, Option.bind_eq_bind, Option.bind_some]
      cases q with
      | empty => exact absurd hq (by simp [AnalysisOK])
      | dense a b => exact ⟨a, b, rfl, hq.1, hq.2.1, hq.2.2.1, hq.2.2.2.1⟩
      | range a b => exact ⟨a, b, rfl, hq.1, hq.2.1, hq.2.2.1, hq.2.2.2.1⟩
  | dyn segs cap card =>
    obtain ⟨j, hj⟩ := hne
    have hl : ∀ i, 4294967295 ≤ i → anyBit segs i = false := fun i hi => h.last i hi
    have h1 := firstBitSegs_spec hr.1 hl
    have hrev : ∀ i, anyBit segs.reverse i = anyBit segs i := fun i => by simp [anyBit]
    have h2 := lastBitSegs_spec segs.reverse (by rw [List.reverse_reverse]; exact hr.1) (fun i hi => by rw [hrev]; exact hl i hi)
    have hj' : anyBit segs j = true := hj
    simp only [getRange]
    cases e1 : firstBitSegs segs with
    | none =>
      rw [e1] at h1
      have h1' : ∀ i, anyBit segs i = false := h1
      rw [h1' j] at hj'
      cases hj'
    | some a =>
      cases e2 : lastBitSegsRev segs.reverse with
      | none =>
        rw [e2] at h2
        have h2' : ∀ i, anyBit segs.reverse i = false := h2
        rw [← hrev, h2' j] at hj'
        cases hj'
      | some b =>
        rw [e1] at h1
        rw [e2] at h2
        simp only [hrev] at h1 h2
        have hb : b < 4294967295 := Nat.lt_of_not_le fun hc => by have := h2.1; rw [hl _ hc] at this; cases this
        simp only [Option.getD_some]
        rw [wrap_of_lt (by omega)]
        refine ⟨a, b + 1, rfl, ?_, h1.1, h2.1, fun i hi => ⟨h1.2 i hi, ?_⟩⟩
        · have := h1.2 b h2.1; omega
        · have := h2.2 i hi; omega

/-- On an empty set with an array of segments the range is not available. -/
theorem getRange_empty_dyn {segs : List Seg} {cap card : Nat} (h : OK (.dyn segs cap card)) (he : ∀ i, member (.dyn segs cap card) i = false) :
    getRange (.dyn segs cap card) = some (false, 0, 0) := by
  have hl : ∀ i, 4294967295 ≤ i → anyBit segs i = false := fun i hi => h.last i hi
  have h1 := firstBitSegs_spec h.rep.1 hl
  simp only [getRange]
  cases e1 : firstBitSegs segs with
  | none => rfl
  | some a =>
    rw [e1] at h1
    have h2 : anyBit segs a = true := h1.1
    have h3 : anyBit segs a = false := he a
    rw [h3] at h2
    cases h2

end Blend2D.BitSet
