import Verif.BitSet.Ops

/-!
# `clear_bit`, `assign_range` and `clear`
-/

namespace Blend2D.BitSet

open Blend2D.BitOps

/-- What the set contains after `bit` was cleared. -/
def minus (f : Nat → Bool) (bit i : Nat) : Bool := !decide (i = bit) && f i

theorem minus_last {s : BS} (h : OK s) (bit : Nat) : ∀ i, 4294967295 ≤ i → minus (member s) bit i = false := by
  intro i hi
  rw [minus, h.last i hi, Bool.and_false]

theorem minus_self {s : BS} (h : OK s) {bit : Nat} (hm : member s bit = false) : Holds s (minus (member s) bit) := by
  refine ⟨h, fun i => ?_⟩
  by_cases hi : i = bit
  · rw [hi, hm, minus, hm, Bool.and_false]
  · rw [minus, decide_eq_false hi]; rfl

theorem splice_dyn {newCap : Nat → Nat} (hc : ∀ n, n ≤ newCap n) (s : BS) (mut' : Bool) (l r ins : List Seg) (g : Seg) {k : Nat} (hk : l.length = k)
    {f : Nat → Bool} (h1 : SegsOK (l ++ ins ++ r)) (h2 : ∀ i, anyBit (l ++ ins ++ r) i = f i) (h3 : ∀ i, 4294967295 ≤ i → f i = false) :
    Holds (splice newCap s mut' (l ++ g :: r) k 1 ins) f := by
  have e1 : (l ++ g :: r).take k = l := by rw [← hk, List.take_left']; rfl
  have e2 : (l ++ g :: r).drop (k + 1) = r := by rw [← hk]; simp
  unfold splice
  rw [e1, e2]
  cases s with
  | dyn segs cap card =>
    simp only
    split
    · rename_i hm
      rw [Bool.and_eq_true, decide_eq_true_eq] at hm
      exact holds_dyn h1 hm.2 h2 h3
    · exact holds_dyn h1 (hc _) h2 h3
  | range a b => exact holds_dyn h1 (hc _) h2 h3
  | dense w d => exact holds_dyn h1 (hc _) h2 h3

theorem onesSeg_spec {s e : Nat} (hs : s % 4 = 0) (he : e % 4 = 0) (h : s + 4 ≤ e) (hb : e ≤ 134217728) (g : Seg)
    (hg : g = if e - s ≤ 4 then Seg.dense s ones4 else rangeSeg s e) :
    SegOK g ∧ g.startWord = s ∧ g.endWord = e ∧ ∀ i, g.bit i = inRange (s * 32) (e * 32) i := by
  have : g = rangeSeg s e := by
    rw [hg]
    split
    · rw [rangeSeg, sub32_of_le (by omega) (by omega), if_pos (by omega)]
    · rfl
  rw [this]
  exact rangeSeg_spec hs he h hb

theorem clearBitSegs_spec {newCap : Nat → Nat} (hc : ∀ n, n ≤ newCap n) {s : BS} (h : OK s) {segs : List Seg} (hs : SegsOK segs)
    (hbits : ∀ i, anyBit segs i = member s i) {mut' : Bool} {cap : Nat} (hcap : mut' = true → segs.length ≤ cap) {bit : Nat}
    (hb : bit < 4294967295) : ∃ s', clearBitSegs newCap s mut' segs cap bit = some (true, s') ∧ Holds s' (minus (member s) bit) := by
  obtain ⟨k, ek, f⟩ := lowerBound_spec hs (bit / 32)
  unfold clearBitSegs
  rw [ek]
  simp only [Option.bind_eq_bind, Option.bind_some]
  rcases f.split hs with ⟨rfl, hbf⟩ | ⟨l, g, r, he, hk, hget, hbf, hg, haf, hlg, hgr, ok, okl, okr⟩
  · rw [if_pos (Nat.le_refl _)]
    refine ⟨s, rfl, minus_self h ?_⟩
    rw [← hbits]
    exact any_false hs fun g hg => .inl (hbf g hg)
  · rw [if_neg (by rw [he]; simp; omega), hget]
    simp only
    have hw := segHasWord_iff ok (w := bit / 32) (by omega)
    have hlf : anyBit l bit = false := any_false okl fun a ha => .inl (hbf a ha)
    have hrf : anyBit r bit = false := any_false okr fun a ha => .inr (haf a ha)
    by_cases hhas : segHasWord g (bit / 32) = true
    · rw [hhas]
      simp only [Bool.not_true, Bool.false_eq_true, if_false]
      have hwr := hw.1 hhas
      cases g with
      | range a b =>
        obtain ⟨q1, q2, q3, q4⟩ := ok
        simp only [Seg.startWord, Seg.endWord] at hwr
        replace hlg : ∀ x ∈ l, x.endWord ≤ a := hlg
        replace hgr : ∀ x ∈ r, b ≤ x.startWord := hgr
        obtain ⟨d, e, hl, hd⟩ := (C41_single_bit .msb ones4 (bit % 128)
          (by simp only [ones4, List.length_replicate]; omega)).2.2
        rw [e]
        simp only [Option.bind_some]
        refine ⟨_, rfl, ?_⟩
        rw [he]
        generalize hl1 : (if a < bit / 128 * 4 then [if bit / 128 * 4 - a ≤ 4 then Seg.dense a ones4 else rangeSeg a (bit / 128 * 4)] else []) = l1
        generalize hl3 : (if bit / 128 * 4 + 4 < b then [if b - (bit / 128 * 4 + 4) ≤ 4 then Seg.dense (bit / 128 * 4 + 4) ones4
          else rangeSeg (bit / 128 * 4 + 4) b] else []) = l3
        have p1 : SegsOK l1 ∧ (∀ g ∈ l1, a ≤ g.startWord ∧ g.endWord ≤ bit / 128 * 4) ∧ ∀ i, anyBit l1 i = inRange (a * 32) (bit / 128 * 4 * 32) i := by
          rw [← hl1]
          split
          · obtain ⟨g1, g2, g3, g4⟩ := onesSeg_spec (s := a) (e := bit / 128 * 4) q1 (by omega) (by omega) (by omega) _ rfl
            refine ⟨SegsOK.cons.2 ⟨g1, SegsOK.nil, by simp⟩, ?_, ?_⟩
            · intro g hgm; rw [List.mem_singleton] at hgm; subst hgm; rw [g2, g3]; omega
            · intro i; rw [anyBit_cons, anyBit_nil, Bool.or_false, g4]
          · refine ⟨SegsOK.nil, by simp, fun i => ?_⟩
            rw [anyBit_nil]
            symm
            rw [Bool.eq_false_iff]
            intro hcn
            have := inRange_iff.1 hcn
            omega
        have p3 : SegsOK l3 ∧ (∀ g ∈ l3, bit / 128 * 4 + 4 ≤ g.startWord ∧ g.endWord ≤ b) ∧
            ∀ i, anyBit l3 i = inRange ((bit / 128 * 4 + 4) * 32) (b * 32) i := by
          rw [← hl3]
          split
          · obtain ⟨g1, g2, g3, g4⟩ := onesSeg_spec (s := bit / 128 * 4 + 4) (e := b) (by omega) q2 (by omega) q4 _ rfl
            refine ⟨SegsOK.cons.2 ⟨g1, SegsOK.nil, by simp⟩, ?_, ?_⟩
            · intro g hgm; rw [List.mem_singleton] at hgm; subst hgm; rw [g2, g3]; omega
            · intro i; rw [anyBit_cons, anyBit_nil, Bool.or_false, g4]
          · refine ⟨SegsOK.nil, by simp, fun i => ?_⟩
            rw [anyBit_nil]
            symm
            rw [Bool.eq_false_iff]
            intro hcn
            have := inRange_iff.1 hcn
            omega
        have pm : ∀ i, (Seg.dense (bit / 128 * 4) d).bit i = (!decide (i = bit) && inRange (bit / 128 * 4 * 32) ((bit / 128 * 4 + 4) * 32) i) := by
          intro i
          simp only [Seg.bit, hd, bitAt_ones4]
          rw [Bool.eq_iff_iff]
          by_cases hi : i - bit / 128 * 4 * 32 = bit % 128
          · rw [if_pos hi]; simp [inRange]; omega
          · rw [if_neg hi]; simp [inRange]; omega
        have hmid : SegsOK (l1 ++ [.dense (bit / 128 * 4) d] ++ l3) ∧
            ∀ g ∈ l1 ++ [.dense (bit / 128 * 4) d] ++ l3, a ≤ g.startWord ∧ g.endWord ≤ b := by
          rw [List.append_assoc, List.singleton_append]
          refine ⟨SegsOK.append.2 ⟨p1.1, SegsOK.cons.2 ⟨⟨by omega, by omega, hl⟩, p3.1, fun g hgm => (p3.2.1 g hgm).1⟩, ?_⟩, ?_⟩
          · intro x hx y hy
            have h1 := p1.2.1 x hx
            rcases List.mem_cons.1 hy with rfl | hy
            · exact h1.2
            · have := p3.2.1 y hy; omega
          · intro g hgm
            rcases List.mem_append.1 hgm with hgm | hgm
            · have := p1.2.1 g hgm; omega
            · rcases List.mem_cons.1 hgm with rfl | hgm
              · simp only [Seg.startWord, Seg.endWord]; omega
              · have := p3.2.1 g hgm; omega
        refine splice_dyn hc s mut' l r _ _ hk ?_ ?_ (minus_last h bit)
        · refine SegsOK.append.2 ⟨SegsOK.append.2 ⟨okl, hmid.1, ?_⟩, okr, ?_⟩
          · intro x hx y hy
            have := hlg x hx
            have := hmid.2 y hy
            omega
          · intro x hx y hy
            have h1 := hgr y hy
            rcases List.mem_append.1 hx with hx | hx
            · have := hlg x hx; omega
            · have := hmid.2 x hx; omega
        · intro i
          rw [minus, ← hbits i, he]
          simp only [anyBit_append, anyBit_cons, anyBit_nil, p1.2.2, p3.2.2, pm, Bool.or_false]
          have hrange : (Seg.range a b).bit i = inRange (a * 32) (b * 32) i := rfl
          rw [hrange]
          by_cases hi : i = bit
          · subst hi
            rw [hlf, hrf, Bool.eq_iff_iff]
            simp [inRange]
            omega
          · have hsplit : inRange (a * 32) (b * 32) i = (inRange (a * 32) (bit / 128 * 4 * 32) i ||
                (inRange (bit / 128 * 4 * 32) ((bit / 128 * 4 + 4) * 32) i || inRange ((bit / 128 * 4 + 4) * 32) (b * 32) i)) := by
              rw [Bool.eq_iff_iff]
              simp only [Bool.or_eq_true, inRange_iff]
              omega
            rw [hsplit, decide_eq_false hi]
            simp [Bool.or_assoc]
      | dense w d =>
        obtain ⟨q1, q2, q3⟩ := ok
        simp only [Seg.startWord, Seg.endWord] at hwr
        obtain ⟨d', e', l', b'⟩ := (C41_single_bit .msb d (bit % 128) (by rw [q3]; omega)).2.2
        simp only [e', Option.bind_some]
        have hbit' : ∀ i, (Seg.dense w d').bit i = (!decide (i = bit) && (Seg.dense w d).bit i) := by
          intro i
          simp only [Seg.bit, b']
          by_cases hi : i = bit
          · rw [if_pos (by omega), decide_eq_true hi]; simp
          · by_cases hwi : w * 32 ≤ i
            · rw [if_neg (by omega), decide_eq_false hi]; simp
            · rw [decide_eq_false hwi, decide_eq_false hi]; simp
        have hset : segs.set k (.dense w d') = l ++ .dense w d' :: r := by rw [he]; exact set_split hk
        have hok : SegsOK (l ++ .dense w d' :: r) :=
          segsOK_replace (g := .dense w d) okl okr hlg hgr (by simp only [Seg.startWord, Seg.endWord]; omega) ⟨q1, q2, l'.trans q3⟩ rfl rfl
        have hbt : ∀ i, anyBit (l ++ .dense w d' :: r) i = minus (member s) bit i := by
          intro i
          rw [minus, ← hbits i, he]
          simp only [anyBit_append, anyBit_cons, hbit']
          by_cases hi : i = bit
          · subst hi; rw [hlf, hrf]; simp
          · rw [decide_eq_false hi]; simp
        have hlen : (l ++ Seg.dense w d' :: r).length = segs.length := by rw [he]; simp
        rw [hset]
        cases hmt : mut' with
        | true => exact ⟨_, rfl, holds_dyn hok (by rw [hlen]; exact hcap hmt) hbt (minus_last h bit)⟩
        | false => exact ⟨_, rfl, holds_dyn hok (by rw [hlen]; exact hc _) hbt (minus_last h bit)⟩
    · rw [Bool.not_eq_true] at hhas
      rw [hhas]
      refine ⟨s, rfl, minus_self h ?_⟩
      rw [← hbits, he, anyBit_append, anyBit_cons, hlf, hrf, Bool.false_or, Bool.or_false, Bool.eq_false_iff]
      intro hcn
      have := hw.2 (Seg.bit_iff ok hcn)
      rw [hhas] at this
      cases this

theorem normalizeSso_spec {w : Nat} {d : List Word} (hw : w ≤ 134217727) (hd : d.length = 2) {f : Nat → Bool}
    (hf : ∀ i, f i = (decide (w * 32 ≤ i) && bitAt .msb d (i - w * 32))) (hl : ∀ i, 4294967295 ≤ i → f i = false) :
    ∃ s, normalizeSso w d = some s ∧ Holds s f := by
  match d, hd with
  | [x, y], _ =>
    unfold normalizeSso
    simp only
    have hword : ∀ (z : Word), z ≠ 0 → ∃ k, k < 32 ∧ BitOps.hasBit .msb z k = true := fun z hz => exists_bit .msb hz
    by_cases hx : x ≠ 0
    · rw [if_pos hx]
      obtain ⟨k, hk, hb⟩ := hword x hx
      refine ⟨_, rfl, holds_dense (j := w * 32 + k) hw rfl ?_ (fun i => (hf i).symm) hl⟩
      rw [hf, decide_eq_true (by omega), Nat.add_sub_cancel_left, bitAt_cons, if_pos hk, hb]
      rfl
    · rw [if_neg hx]
      have hx0 : x = 0 := Classical.not_not.1 hx
      subst hx0
      by_cases hy : y = 0
      · rw [if_pos hy]
        refine ⟨_, rfl, holds_empty fun i => ?_⟩
        rw [hf, hy, bitAt_zeros2, Bool.and_false]
      · rw [if_neg hy]
        obtain ⟨k, hk, hb⟩ := hword y hy
        have hj : f (w * 32 + 32 + k) = true := by
          rw [hf, decide_eq_true (by omega), show w * 32 + 32 + k - w * 32 = k + 32 by omega, bitAt_cons, if_neg (by omega), bitAt_cons,
            if_pos (by omega), Nat.add_sub_cancel, hb]
          rfl
        have hlt : w * 32 + 32 + k < 4294967295 := Nat.lt_of_not_le fun hc => by rw [hl _ hc] at hj; cases hj
        by_cases hc : w + 1 ≤ ssoLastWord
        · have hs : sub32 (min (w + 1) ssoLastWord) w = 1 := by
            simp only [ssoLastWord] at *
            rw [sub32_of_le (by omega) (by omega)]; omega
          rw [hs, show min (w + 1) ssoLastWord = w + 1 by omega]
          refine ⟨_, rfl, holds_dense (j := w * 32 + 32 + k) (by omega) rfl hj ?_ hl⟩
          intro i
          rw [hf]
          simp only [List.drop_succ_cons, List.drop_zero, List.replicate, List.cons_append, List.nil_append, bitAt_cons, bitAt_nil, hasBit_zero]
          by_cases hi : (w + 1) * 32 ≤ i
          · rw [decide_eq_true hi, decide_eq_true (show w * 32 ≤ i by omega), if_neg (show ¬ i - w * 32 < 32 by omega),
              show i - w * 32 - 32 = i - (w + 1) * 32 by omega]
            simp
          · rw [decide_eq_false hi]
            by_cases hi2 : w * 32 ≤ i
            · rw [if_pos (show i - w * 32 < 32 by omega)]; simp
            · rw [decide_eq_false hi2]; simp
        · have hw2 : w = ssoLastWord := by simp only [ssoLastWord] at *; omega
          have hs : sub32 (min (w + 1) ssoLastWord) w = 0 := by
            simp only [ssoLastWord] at *
            rw [sub32_of_le (by omega) (by omega)]; omega
          rw [hs, show min (w + 1) ssoLastWord = w by omega]
          refine ⟨_, rfl, holds_dense (j := w * 32 + 32 + k) (by omega) rfl hj ?_ hl⟩
          intro i
          rw [hf]
          rfl

theorem clearBit_spec {newCap : Nat → Nat} (hc : ∀ n, n ≤ newCap n) {s : BS} (h : OK s) (mut' : Bool) {bit : Nat} (hb : bit < 4294967295) :
    ∃ s', clearBit newCap s mut' bit = some (true, s') ∧ Holds s' (minus (member s) bit) := by
  have hr := h.rep
  unfold clearBit
  rw [if_neg (by simp only [invalidIndex]; omega)]
  cases s with
  | range a b =>
    simp only
    have hab : a ≤ b := by rcases hr with ⟨_, _⟩ | ⟨_, _⟩ <;> omega
    have hb2 : b < 4294967296 := by rcases hr with ⟨_, _⟩ | ⟨_, _⟩ <;> omega
    rw [rangeHas_iff hab hb2 (by omega)]
    by_cases h1 : (decide (a ≤ bit) && decide (bit < b)) = true
    · rw [h1]
      simp only [Bool.not_true, Bool.false_eq_true, if_false]
      simp only [Bool.and_eq_true, decide_eq_true_eq] at h1
      rw [wrap_of_lt (by omega), sub32_of_le (show 1 ≤ b by omega) hb2]
      have hmem : ∀ i, minus (member (.range a b)) bit i = true ↔ i ≠ bit ∧ a ≤ i ∧ i < b := by
        intro i; simp [minus, member]
      by_cases h2 : bit = a
      · rw [if_pos h2]
        by_cases h3 : bit + 1 = b
        · rw [if_pos h3]
          refine ⟨_, rfl, holds_empty fun i => ?_⟩
          rw [Bool.eq_false_iff]
          intro hcn
          have := (hmem i).1 hcn
          omega
        · rw [if_neg h3]
          refine ⟨_, rfl, holds_range (by omega) (by omega) fun i => ?_⟩
          rw [Bool.eq_iff_iff, hmem, inRange_iff]
          omega
      rw [if_neg h2]
      by_cases h3 : bit = b - 1
      · rw [if_pos h3]
        refine ⟨_, rfl, holds_range (by omega) (by omega) fun i => ?_⟩
        rw [Bool.eq_iff_iff, hmem, inRange_iff]
        omega
      rw [if_neg h3]
      by_cases h4 : sub32 ((b - 1) / 32) (a / 32) < 2
      · rw [if_pos h4]
        rw [sub32_of_le (by omega) (by omega)] at h4
        rw [sub32_of_le hab hb2, sub32_of_le (show a / 32 * 32 ≤ bit by omega) (by omega)]
        obtain ⟨d, e, hl, hd⟩ := (C41_range .msb ([0, 0] : List Word) (a % 32) (b - a)
          (by simp only [List.length_cons, List.length_nil]; omega)).1
        have hl2 : d.length = 2 := hl
        obtain ⟨d', e', hl', hd'⟩ := (C41_single_bit .msb d (bit - a / 32 * 32) (by rw [hl2]; omega)).2.2
        rw [e]
        simp only [Option.bind_eq_bind, Option.bind_some, e']
        refine ⟨_, rfl, holds_dense (j := a) (by omega) (hl'.trans hl2) ((hmem a).2 (by omega)) ?_ (minus_last h bit)⟩
        intro i
        rw [hd', hd, bitAt_zeros2, Bool.eq_iff_iff, hmem]
        by_cases hi : i - a / 32 * 32 = bit - a / 32 * 32
        · rw [if_pos hi]; simp; omega
        · rw [if_neg hi]
          by_cases hi2 : a % 32 ≤ i - a / 32 * 32 ∧ i - a / 32 * 32 < a % 32 + (b - a)
          · rw [if_pos hi2]; simp; omega
          · rw [if_neg hi2]; simp; omega
      · rw [if_neg h4]
        obtain ⟨segs, e, g1, g2, g3⟩ := makeSegs_spec h (by simp) (by simp [empty]; omega)
        rw [e]
        exact clearBitSegs_spec hc h g1 g3 (by simp) hb
    · rw [Bool.not_eq_true] at h1
      rw [h1]
      exact ⟨_, rfl, minus_self h h1⟩
  | dense w d =>
    obtain ⟨r1, r2, r3⟩ := hr
    simp only
    by_cases h1 : sub32 (bit / 32) w < 2
    · rw [decide_eq_true h1]
      simp only [Bool.not_true, Bool.false_eq_true, if_false]
      have hw : w ≤ bit / 32 ∧ bit / 32 < w + 2 := by unfold sub32 at h1; omega
      rw [sub32_of_le (show w * 32 ≤ bit by omega) (by omega)]
      obtain ⟨d', e', hl', hd'⟩ := (C41_single_bit .msb d (bit - w * 32) (by rw [r2]; omega)).2.2
      rw [e']
      simp only [Option.bind_eq_bind, Option.bind_some]
      obtain ⟨s', es, hs⟩ := normalizeSso_spec (f := minus (member (.dense w d)) bit) r1 (hl'.trans r2) (by
        intro i
        rw [minus, member, hd']
        by_cases hi : i = bit
        · rw [if_pos (by omega), decide_eq_true hi]; simp
        · by_cases hi2 : w * 32 ≤ i
          · rw [if_neg (by omega), decide_eq_false hi]; simp
          · rw [decide_eq_false hi2]; simp) (minus_last h bit)
      rw [es]
      exact ⟨s', rfl, hs⟩
    · rw [decide_eq_false h1]
      refine ⟨_, rfl, minus_self h ?_⟩
      rw [member, Bool.eq_false_iff]
      intro hcn
      rw [Bool.and_eq_true, decide_eq_true_eq] at hcn
      have : ¬ 64 ≤ bit - w * 32 := fun hc => by rw [bitAt_len2 r2 hc] at hcn; cases hcn.2
      unfold sub32 at h1
      omega
  | dyn segs cap card =>
    obtain ⟨r1, r2, _⟩ := hr
    exact clearBitSegs_spec hc h r1 (fun i => rfl) (fun _ => r2) hb

theorem clear_spec {s : BS} (mut' : Bool) : Holds (clear s mut') (fun _ => false) := by
  unfold clear
  cases s with
  | dyn segs cap card =>
    simp only
    split
    · exact holds_dyn SegsOK.nil (by simp) (fun _ => rfl) (fun _ _ => rfl)
    · exact holds_empty fun _ => rfl
  | range a b => exact holds_empty fun _ => rfl
  | dense w d => exact holds_empty fun _ => rfl

/-- `assign_range` on a set whose array of segments, if it has one, has room for two segments. -/
theorem assignRange_spec {s : BS} (mut' : Bool) {a b : Nat} (hab : a ≤ b) (hb : b < 4294967296)
    (hroom : ∀ segs cap card, s = .dyn segs cap card → 2 ≤ cap) :
    ∃ s', assignRange s mut' a b = some (true, s') ∧ Holds s' (inRange a b) := by
  unfold assignRange
  by_cases h1 : a = b
  · rw [if_pos (by omega), if_neg (by omega)]
    refine ⟨_, rfl, (clear_spec mut').congr fun i => ?_⟩
    symm
    rw [Bool.eq_false_iff]
    intro hcn
    have := inRange_iff.1 hcn
    omega
  rw [if_neg (by omega)]
  have hr : ∃ s', (some (true, .range a b) : Option (Bool × BS)) = some (true, s') ∧ Holds s' (inRange a b) :=
    ⟨_, rfl, holds_range (by omega) (by omega) fun _ => rfl⟩
  cases s with
  | range _ _ => exact hr
  | dense _ _ => exact hr
  | dyn segs cap card =>
    simp only
    split
    · rename_i hm
      rw [Bool.and_eq_true, decide_eq_true_eq] at hm
      obtain ⟨l, e, f⟩ := segsFromRange_spec (show a < b by omega) hb
      have hcap := hroom segs cap card rfl
      have hlen : l.length ≤ cap := by
        have h3 := f.len
        by_cases hl : l.length = 3
        · have h4 := f.len3 hl
          have h5 : segCountFromRange a b = 3 := by
            unfold segCountFromRange
            simp only
            rw [sub32_of_le (by omega) hb, sub32_of_le (by omega) (by omega)]
            simp only [h4.1, h4.2.1, if_false, Nat.add_zero]
            split <;> omega
          omega
        · omega
      rw [e]
      simp only [Option.bind_eq_bind, Option.bind_some]
      rw [if_pos hlen]
      exact ⟨_, rfl, holds_dyn f.ok hlen f.bits (fun i hi => by
        rw [Bool.eq_false_iff]
        intro hcn
        have := inRange_iff.1 hcn
        omega)⟩
    · exact hr

end Blend2D.BitSet
