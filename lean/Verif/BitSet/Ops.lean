import Verif.BitSet.Analyze

/-!
# The operations that change a bit set
-/

namespace Blend2D.BitSet

open Blend2D.BitOps

/-- `s` is valid and contains what `f` says. -/
def Holds (s : BS) (f : Nat → Bool) : Prop := OK s ∧ ∀ i, member s i = f i

theorem Holds.congr {s : BS} {f g : Nat → Bool} (h : Holds s f) (e : ∀ i, f i = g i) : Holds s g :=
  ⟨h.1, fun i => by rw [h.2, e]⟩

theorem holds_dyn {segs : List Seg} {cap : Nat} {f : Nat → Bool} (h : SegsOK segs) (hc : segs.length ≤ cap)
    (hb : ∀ i, anyBit segs i = f i) (hl : ∀ i, 4294967295 ≤ i → f i = false) : Holds (.dyn segs cap 0) f := by
  refine ⟨⟨⟨h, hc, fun hz => absurd rfl hz⟩, fun i hi => ?_⟩, hb⟩
  exact (hb i).trans (hl i hi)

theorem holds_range {a b : Nat} {f : Nat → Bool} (h : a < b) (hb : b ≤ 4294967295) (hf : ∀ i, inRange a b i = f i) :
    Holds (.range a b) f := by
  refine ⟨⟨.inr ⟨h, by omega⟩, fun i hi => ?_⟩, hf⟩
  rw [Bool.eq_false_iff]
  intro hm
  have := inRange_iff.1 hm
  simp only [invalidIndex] at hi
  omega

theorem holds_empty {f : Nat → Bool} (hf : ∀ i, f i = false) : Holds empty f := by
  have : ∀ i, member empty i = false := by intro i; simp [empty, member]
  exact ⟨⟨.inl ⟨rfl, rfl⟩, fun i _ => this i⟩, fun i => (this i).trans (hf i).symm⟩

theorem holds_dense {w : Nat} {d : List Word} {f : Nat → Bool} (hw : w ≤ 134217727) (hd : d.length = 2) {j : Nat} (hj : f j = true)
    (hb : ∀ i, (decide (w * 32 ≤ i) && bitAt .msb d (i - w * 32)) = f i) (hl : ∀ i, 4294967295 ≤ i → f i = false) :
    Holds (.dense w d) f := by
  refine ⟨⟨⟨hw, hd, j - w * 32, ?_⟩, fun i hi => ?_⟩, hb⟩
  · rw [← hb j, Bool.and_eq_true] at hj
    exact hj.2
  · exact (hb i).trans (hl i hi)

theorem set_split {l r : List Seg} {g g' : Seg} {k : Nat} (h : l.length = k) : (l ++ g :: r).set k g' = l ++ g' :: r := by
  subst h; simp

theorem segsOK_replace {l r : List Seg} {g g' : Seg} (okl : SegsOK l) (okr : SegsOK r) (hl : ∀ a ∈ l, a.endWord ≤ g.startWord)
    (hr : ∀ b ∈ r, g.endWord ≤ b.startWord) (hlr : g.startWord ≤ g.endWord) (ok : SegOK g') (h1 : g'.startWord = g.startWord) (h2 : g'.endWord = g.endWord) :
    SegsOK (l ++ g' :: r) := by
  refine SegsOK.append.2 ⟨okl, SegsOK.cons.2 ⟨ok, okr, by rw [h2]; exact hr⟩, ?_⟩
  intro a ha b hb
  rcases List.mem_cons.1 hb with rfl | hb
  · rw [h1]; exact hl a ha
  · have := hl a ha
    have := hr b hb
    omega

/-! ## `add_bit` -/

/-- What the set contains after `bit` was added. -/
def plus (f : Nat → Bool) (bit i : Nat) : Bool := decide (i = bit) || f i

theorem plus_last {s : BS} (h : OK s) {bit : Nat} (hb : bit < 4294967295) : ∀ i, 4294967295 ≤ i → plus (member s) bit i = false := by
  intro i hi
  rw [plus, h.last i hi, decide_eq_false (by omega)]
  rfl

theorem plus_self {s : BS} (h : OK s) {bit : Nat} (hm : member s bit = true) : Holds s (plus (member s) bit) := by
  refine ⟨h, fun i => ?_⟩
  by_cases hi : i = bit
  · rw [hi, hm, plus, hm, Bool.or_true]
  · rw [plus, decide_eq_false hi, Bool.false_or]

theorem addBitSegs_spec {newCap : Nat → Nat} (hc : ∀ n, n ≤ newCap n) {s : BS} (h : OK s) {segs : List Seg} (hs : SegsOK segs)
    (hbits : ∀ i, anyBit segs i = member s i) {mut' : Bool} {cap : Nat} (hcap : mut' = true → segs.length ≤ cap) {bit : Nat}
    (hb : bit < 4294967295) : ∃ s', addBitSegs newCap s mut' segs cap bit = some (true, s') ∧ Holds s' (plus (member s) bit) := by
  obtain ⟨k, ek, f⟩ := findSeg_spec hs (bit / 32)
  unfold addBitSegs
  rw [ek]
  simp only [Option.bind_eq_bind, Option.bind_some]
  obtain ⟨d0, e0, l0, b0⟩ := (C41_single_bit .msb zeros4 (bit % 128) (by simp only [zeros4, List.length_cons, List.length_nil]; omega)).2.1
  -- a new segment
  have hnew : SegOK (.dense (bit / 128 * 4) d0) := ⟨by omega, by omega, l0⟩
  have hnewb : ∀ i, (Seg.dense (bit / 128 * 4) d0).bit i = decide (i = bit) := by
    intro i
    simp only [Seg.bit, b0, bitAt_zeros4]
    rw [Bool.eq_iff_iff]
    by_cases hi : i - bit / 128 * 4 * 32 = bit % 128
    · rw [if_pos hi]; simp; omega
    · rw [if_neg hi]; simp; omega
  have hins : ∀ l r, segs = l ++ r → (∀ a ∈ l, a.endWord ≤ bit / 32) → (∀ b ∈ r, bit / 32 < b.startWord) → l.length = k →
      ∃ s', (if mut' && decide (cap > segs.length) then some (true, .dyn (segs.take k ++ [.dense (bit / 128 * 4) d0] ++ segs.drop k) cap 0)
        else some (true, .dyn (segs.take k ++ [.dense (bit / 128 * 4) d0] ++ segs.drop k) (newCap (segs.length + 1)) 0) : Option (Bool × BS))
        = some (true, s') ∧ Holds s' (plus (member s) bit) := by
    intro l r he hl hr hk
    obtain ⟨o1, o2, o3⟩ := SegsOK.append.1 (he ▸ hs)
    have e1 : segs.take k = l := by rw [he, ← hk, List.take_left']; rfl
    have e2 : segs.drop k = r := by rw [he, ← hk, List.drop_left']; rfl
    rw [e1, e2]
    have hok : SegsOK (l ++ [.dense (bit / 128 * 4) d0] ++ r) := by
      rw [List.append_assoc, List.singleton_append]
      refine SegsOK.append.2 ⟨o1, SegsOK.cons.2 ⟨hnew, o2, ?_⟩, ?_⟩
      · intro b hbm
        have := hr b hbm
        have := (o2.each b hbm).start_lt
        simp only [Seg.endWord]
        omega
      · intro a ha b hbm
        have h1 := hl a ha
        have h2 := (o1.each a ha).start_lt
        rcases List.mem_cons.1 hbm with rfl | hbm
        · simp only [Seg.startWord]; omega
        · have := hr b hbm; omega
    have hbt : ∀ i, anyBit (l ++ [.dense (bit / 128 * 4) d0] ++ r) i = plus (member s) bit i := by
      intro i
      rw [plus, ← hbits i, he]
      simp only [anyBit_append, anyBit_cons, anyBit_nil, hnewb, Bool.or_false]
      cases anyBit l i <;> cases anyBit r i <;> simp
    split
    · rename_i hm
      refine ⟨_, rfl, holds_dyn hok ?_ hbt (plus_last h hb)⟩
      rw [Bool.and_eq_true, decide_eq_true_eq, he] at hm
      have := hm.2
      simp only [List.length_append, List.length_cons, List.length_nil] at this ⊢
      omega
    · refine ⟨_, rfl, holds_dyn hok ?_ hbt (plus_last h hb)⟩
      refine Nat.le_trans (Nat.le_of_eq ?_) (hc _)
      rw [he]
      simp only [List.length_append, List.length_cons, List.length_nil]
      omega
  rw [e0]
  simp only [Option.bind_some]
  rcases f.split hs with ⟨rfl, hbf⟩ | ⟨l, g, r, he, hk, hget, hbf, hg, haf, hlg, hgr, ok, okl, okr⟩
  · rw [if_neg (by omega)]
    exact hins segs [] (by simp) hbf (by simp) rfl
  · rw [if_pos (by rw [he]; simp; omega), hget]
    simp only
    have hw := segHasWord_iff ok (w := bit / 32) (by omega)
    by_cases hhas : segHasWord g (bit / 32) = true
    · rw [if_pos hhas]
      have hwr := hw.1 hhas
      cases g with
      | range a b =>
        refine ⟨s, rfl, plus_self h ?_⟩
        rw [← hbits bit, he, anyBit_append, anyBit_cons]
        simp only [Seg.startWord, Seg.endWord] at hwr
        have : (Seg.range a b).bit bit = true := by
          simp only [Seg.bit, Bool.and_eq_true, decide_eq_true_eq]; omega
        rw [this, Bool.true_or, Bool.or_true]
      | dense w d =>
        obtain ⟨q1, q2, q3⟩ := ok
        simp only [Seg.startWord, Seg.endWord] at hwr
        obtain ⟨t1, ⟨d', e', l', b'⟩, _⟩ := C41_single_bit .msb d (bit % 128) (by rw [q3]; omega)
        simp only [e', t1, Option.bind_some]
        have hoff : w * 32 + bit % 128 = bit := by omega
        have hbit' : ∀ i, (Seg.dense w d').bit i = (decide (i = bit) || (Seg.dense w d).bit i) := by
          intro i
          simp only [Seg.bit, b']
          by_cases hi : i = bit
          · rw [if_pos (by omega), decide_eq_true (show w * 32 ≤ i by omega), decide_eq_true hi]; simp
          · by_cases hwi : w * 32 ≤ i
            · rw [if_neg (by omega), decide_eq_false hi, Bool.false_or]
            · rw [decide_eq_false hwi, decide_eq_false hi]; simp
        have hset : segs.set k (.dense w d') = l ++ .dense w d' :: r := by rw [he]; exact set_split hk
        have hok : SegsOK (l ++ .dense w d' :: r) :=
          segsOK_replace (g := .dense w d) okl okr hlg hgr (by simp only [Seg.startWord, Seg.endWord]; omega) ⟨q1, q2, l'.trans q3⟩ rfl rfl
        have hbt : ∀ i, anyBit (l ++ .dense w d' :: r) i = plus (member s) bit i := by
          intro i
          rw [plus, ← hbits i, he]
          simp only [anyBit_append, anyBit_cons, hbit']
          cases anyBit l i <;> cases anyBit r i <;> simp
        have hlen : (l ++ Seg.dense w d' :: r).length = segs.length := by rw [he]; simp
        rw [hset]
        cases hmt : mut' with
        | true => exact ⟨_, rfl, holds_dyn hok (by rw [hlen]; exact hcap hmt) hbt (plus_last h hb)⟩
        | false =>
          simp only [Bool.false_eq_true, if_false]
          cases htb : bitAt .msb d (bit % 128) with
          | true =>
            refine ⟨s, rfl, plus_self h ?_⟩
            rw [← hbits bit, he, anyBit_append, anyBit_cons]
            have : (Seg.dense w d).bit bit = true := by
              simp only [Seg.bit]
              rw [show bit - w * 32 = bit % 128 by omega, htb, decide_eq_true (by omega)]; rfl
            rw [this, Bool.true_or, Bool.or_true]
          | false =>
            simp only [Bool.false_eq_true, if_false]
            exact ⟨_, rfl, holds_dyn hok (by rw [hlen]; exact hc _) hbt (plus_last h hb)⟩
    · rw [if_neg hhas]
      have hns : bit / 32 < g.startWord := by
        apply Nat.lt_of_not_le
        intro hcon
        exact hhas (hw.2 ⟨hcon, hg⟩)
      refine hins l (g :: r) he hbf ?_ hk
      intro b hbm
      rcases List.mem_cons.1 hbm with rfl | hbm
      · exact hns
      · exact haf b hbm

theorem makeSegs_spec {s : BS} (h : OK s) (hs : ∀ segs cap card, s ≠ .dyn segs cap card) (hne : s ≠ empty) :
    ∃ segs, makeSegs s = some segs ∧ SegsOK segs ∧ segs.length ≤ 3 ∧ ∀ i, anyBit segs i = member s i := by
  have hr := h.rep
  cases s with
  | range a b =>
    rcases hr with ⟨rfl, rfl⟩ | ⟨h1, h2⟩
    · exact absurd rfl hne
    · obtain ⟨l, e, f⟩ := segsFromRange_spec h1 h2
      exact ⟨l, e, f.ok, f.len, f.bits⟩
  | dense w d =>
    obtain ⟨h1, h2, _⟩ := hr
    obtain ⟨h3, h4, h5⟩ := segsFromWords_spec h1 h2
    exact ⟨_, rfl, h3, h4, h5⟩
  | dyn segs cap card => exact absurd rfl (hs segs cap card)

theorem ne_zero_of_bit {x y : Word} (h : ∃ i, bitAt .msb [x, y] i = true) : x ≠ 0 ∨ y ≠ 0 := by
  obtain ⟨i, hi⟩ := h
  by_cases hx : x = 0
  · by_cases hy : y = 0
    · rw [hx, hy, bitAt_zeros2] at hi; cases hi
    · exact .inr hy
  · exact .inl hx

theorem addBit_spec {newCap : Nat → Nat} (hc : ∀ n, n ≤ newCap n) {s : BS} (h : OK s) (mut' : Bool) {bit : Nat} (hb : bit < 4294967295) :
    ∃ s', addBit newCap s mut' bit = some (true, s') ∧ Holds s' (plus (member s) bit) := by
  have hr := h.rep
  unfold addBit
  rw [if_neg (by simp only [invalidIndex]; omega)]
  cases s with
  | range a b =>
    simp only
    by_cases h1 : bit = b
    · rw [if_pos h1, wrap_of_lt (by omega)]
      refine ⟨_, rfl, holds_range ?_ (by omega) ?_⟩
      · rcases hr with ⟨_, _⟩ | ⟨_, _⟩ <;> omega
      · intro i
        rw [plus, member, Bool.eq_iff_iff, inRange_iff]
        simp only [Bool.or_eq_true, Bool.and_eq_true, decide_eq_true_eq]
        rcases hr with ⟨_, _⟩ | ⟨_, _⟩ <;> omega
    rw [if_neg h1, wrap_of_lt (by omega)]
    by_cases h2 : bit + 1 = a
    · rw [if_pos h2]
      have hab : a < b := by rcases hr with ⟨_, _⟩ | ⟨_, _⟩ <;> omega
      have hbb : b ≤ 4294967295 := by rcases hr with ⟨_, _⟩ | ⟨_, _⟩ <;> omega
      refine ⟨_, rfl, holds_range (by omega) hbb ?_⟩
      intro i
      rw [plus, member, Bool.eq_iff_iff, inRange_iff]
      simp only [Bool.or_eq_true, Bool.and_eq_true, decide_eq_true_eq]
      omega
    rw [if_neg h2]
    by_cases h3 : a ≥ b
    · rw [if_pos h3]
      refine ⟨_, rfl, holds_range (by omega) (by omega) ?_⟩
      intro i
      rw [plus, member, Bool.eq_iff_iff, inRange_iff]
      simp only [Bool.or_eq_true, Bool.and_eq_true, decide_eq_true_eq]
      omega
    rw [if_neg h3]
    have hb2 : b < 4294967296 := by rcases hr with ⟨_, _⟩ | ⟨_, _⟩ <;> omega
    rw [rangeHas_iff (by omega) hb2 (by omega)]
    by_cases h4 : (decide (a ≤ bit) && decide (bit < b)) = true
    · rw [if_pos h4]
      exact ⟨_, rfl, plus_self h h4⟩
    rw [if_neg h4]
    have h4' : bit < a ∨ b < bit := by
      simp only [Bool.and_eq_true, decide_eq_true_eq] at h4
      omega
    have hdyn : ∃ s', (do
        let segs ← makeSegs (.range a b)
        addBitSegs newCap (.range a b) false segs 0 bit : Option (Bool × BS)) = some (true, s') ∧ Holds s' (plus (member (.range a b)) bit) := by
      obtain ⟨segs, e, g1, g2, g3⟩ := makeSegs_spec h (by simp) (by simp [empty]; omega)
      rw [e]
      exact addBitSegs_spec hc h g1 g3 (by simp) hb
    by_cases h5 : sub32 (max (sub32 b 1) bit / 32) (min (min a bit / 32) ssoLastWord) < 2
    · rw [if_pos h5]
      rw [sub32_of_le (show 1 ≤ b by omega) hb2] at h5
      have hfirst : min (min a bit / 32) ssoLastWord * 32 ≤ min a bit := by omega
      rw [sub32_of_le (by omega) (by omega)] at h5
      have hF : min (min a bit / 32) ssoLastWord ≤ 134217726 := by simp only [ssoLastWord]; omega
      generalize min (min a bit / 32) ssoLastWord = F at *
      rw [sub32_of_le (show F * 32 ≤ a by omega) (by omega), sub32_of_le (show a ≤ b by omega) hb2,
        sub32_of_le (show F * 32 ≤ bit by omega) (by omega)]
      obtain ⟨d, e, hl, hd⟩ := (C41_range .msb ([0, 0] : List Word) (a - F * 32) (b - a)
        (by simp only [List.length_cons, List.length_nil]; omega)).1
      have hl2 : d.length = 2 := hl
      obtain ⟨d', e', hl', hd'⟩ := (C41_single_bit .msb d (bit - F * 32) (by rw [hl2]; omega)).2.1
      rw [e]
      simp only [Option.bind_eq_bind, Option.bind_some, e']
      refine ⟨_, rfl, holds_dense (j := bit) (by omega) (hl'.trans hl2) (by simp [plus]) ?_ (plus_last h hb)⟩
      intro i
      rw [plus, member, hd', hd, bitAt_zeros2, Bool.eq_iff_iff]
      by_cases hi : F * 32 ≤ i
      · by_cases hi1 : i = bit
        · rw [if_pos (by omega)]; simp [hi1]
          omega
        · rw [if_neg (by omega)]
          by_cases hi2 : a - F * 32 ≤ i - F * 32 ∧ i - F * 32 < a - F * 32 + (b - a)
          · rw [if_pos hi2]; simp [hi1]; omega
          · rw [if_neg hi2]; simp [hi1]; omega
      · simp [hi]; omega
    · rw [if_neg h5]
      exact hdyn
  | dense w d =>
    obtain ⟨r1, r2, r3⟩ := hr
    match d, r2 with
    | [x, y], _ =>
    simp only
    have hdyn : ∃ s', (do
        let segs ← makeSegs (.dense w [x, y])
        addBitSegs newCap (.dense w [x, y]) false segs 0 bit : Option (Bool × BS)) = some (true, s') ∧
        Holds s' (plus (member (.dense w [x, y])) bit) := by
      obtain ⟨segs, e, g1, g2, g3⟩ := makeSegs_spec h (by simp) (by simp [empty])
      rw [e]
      exact addBitSegs_spec hc h g1 g3 (by simp) hb
    have hdyn' : ∃ s', (do
        match ← analyze w [x, y] with
        | .range a b =>
          if bit = b then some (true, .range a (wrap (bit + 1)))
          else if bit = sub32 a 1 then some (true, .range bit b)
          else do
            let segs ← makeSegs (.dense w [x, y])
            addBitSegs newCap (.dense w [x, y]) false segs 0 bit
        | _ => do
          let segs ← makeSegs (.dense w [x, y])
          addBitSegs newCap (.dense w [x, y]) false segs 0 bit : Option (Bool × BS)) = some (true, s') ∧
        Holds s' (plus (member (.dense w [x, y])) bit) := by
      obtain ⟨q, eq, hq⟩ := analyze_spec (ne_zero_of_bit r3) (member (.dense w [x, y])) (fun i => rfl) (fun i hi => h.last i hi)
      rw [eq]
      simp only [Option.bind_eq_bind, Option.bind_some]
      cases q with
      | empty => exact absurd hq (by simp [AnalysisOK])
      | dense a b => exact hdyn
      | range a b =>
        obtain ⟨k1, k2, k3, k4, k5⟩ := hq
        have hmem : ∀ i, member (.dense w [x, y]) i = inRange a b i := by
          intro i
          rw [Bool.eq_iff_iff, inRange_iff]
          exact ⟨k4 i, fun hi => k5 i hi.1 hi.2⟩
        have hb' := member_lt h k3
        have ha' := member_lt h k2
        simp only
        by_cases h1 : bit = b
        · rw [if_pos h1, wrap_of_lt (by omega)]
          refine ⟨_, rfl, holds_range (by omega) (by omega) ?_⟩
          intro i
          rw [plus, hmem, Bool.eq_iff_iff, inRange_iff]
          simp only [Bool.or_eq_true, decide_eq_true_eq, inRange_iff]
          omega
        rw [if_neg h1]
        by_cases h2 : bit = sub32 a 1
        · rw [if_pos h2]
          have ha0 : bit + 1 = a := by
            unfold sub32 at h2; omega
          refine ⟨_, rfl, holds_range (by omega) (by omega) ?_⟩
          intro i
          rw [plus, hmem, Bool.eq_iff_iff, inRange_iff]
          simp only [Bool.or_eq_true, decide_eq_true_eq, inRange_iff]
          omega
        rw [if_neg h2]
        exact hdyn
    by_cases h1 : bit / 32 < w + 2
    · rw [if_pos h1]
      by_cases h2 : bit / 32 ≥ w
      · rw [if_pos h2, sub32_of_le (by omega) (by omega)]
        obtain ⟨d', e', hl', hd'⟩ := (C41_single_bit .msb [x, y] (bit - w * 32) (by simp only [List.length_cons, List.length_nil]; omega)).2.1
        rw [e']
        refine ⟨_, rfl, holds_dense (j := bit) r1 hl' (by simp [plus]) ?_ (plus_last h hb)⟩
        intro i
        rw [plus, member, hd']
        by_cases hi : w * 32 ≤ i
        · by_cases hi1 : i = bit
          · rw [if_pos (by omega), decide_eq_true hi, decide_eq_true hi1]; rfl
          · rw [if_neg (by omega), decide_eq_false hi1]; rfl
        · rw [decide_eq_false hi, decide_eq_false (by omega)]; rfl
      · rw [if_neg h2]
        by_cases h3 : bit / 32 + 2 ≥ w + ssoWordCount [x, y]
        · rw [if_pos h3]
          have hone : y = 0 ∧ x ≠ 0 ∧ w = bit / 32 + 1 := by
            unfold ssoWordCount at h3
            simp only at h3
            have hnz := ne_zero_of_bit r3
            by_cases hy : y = 0
            · by_cases hx : x = 0
              · simp [hx, hy] at hnz
              · simp only [hy, hx, ne_eq, not_false_eq_true, not_true_eq_false, if_true, if_false] at h3
                exact ⟨hy, hx, by omega⟩
            · simp only [hy, ne_eq, not_false_eq_true, if_true] at h3
              omega
          obtain ⟨rfl, hx, hw1⟩ := hone
          obtain ⟨m, em, hm⟩ := hasBit_indexMask (N := 32) .msb (k := bit % 32) (by omega)
          have hcount : ssoWordCount [x, 0] = 1 := by simp only [ssoWordCount, ne_eq, not_true_eq_false, if_false, hx, not_false_eq_true, if_true]
          rw [hcount, em]
          simp only [Option.bind_eq_bind, Option.bind_some]
          have hoff : w - bit / 32 = 1 := by omega
          rw [hoff]
          simp only [Nat.reduceAdd, Nat.le_refl, if_true, List.replicate, List.take_succ_cons, List.take_zero, List.cons_append, List.nil_append,
            Nat.reduceSub]
          refine ⟨_, rfl, holds_dense (j := bit) (by omega) rfl (by simp [plus]) ?_ (plus_last h hb)⟩
          intro i
          rw [plus, member]
          simp only [bitAt_cons, bitAt_nil, hasBit_or, hasBit_zero, Bool.false_or]
          by_cases hi : bit / 32 * 32 ≤ i
          · rw [decide_eq_true hi, Bool.true_and]
            by_cases hi1 : i - bit / 32 * 32 < 32
            · rw [if_pos hi1, hm _ hi1, decide_eq_false (show ¬ w * 32 ≤ i by omega), Bool.false_and, Bool.or_false, decide_eq_decide]
              omega
            · rw [if_neg hi1, decide_eq_false (show ¬ i = bit by omega), decide_eq_true (show w * 32 ≤ i by omega), Bool.true_and, Bool.false_or,
                show i - bit / 32 * 32 - 32 = i - w * 32 by omega]
              simp
          · rw [decide_eq_false hi, decide_eq_false (show ¬ i = bit by omega), decide_eq_false (show ¬ w * 32 ≤ i by omega)]
            rfl
        · rw [if_neg h3]
          exact hdyn'
    · rw [if_neg h1]
      exact hdyn'
  | dyn segs cap card =>
    obtain ⟨r1, r2, _⟩ := hr
    exact addBitSegs_spec hc h r1 (fun i => rfl) (fun _ => r2) hb

end Blend2D.BitSet
