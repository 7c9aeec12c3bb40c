import Verif.ZeroAlloc.Model
import Verif.BitOps.Props

/-!
# Proofs about one block of the zeroed memory allocator
-/

namespace Blend2D.ZeroAlloc

open BitOps

variable {N : Nat}

/-- Number of `i < n` with `f i`. -/
def cnt (f : Nat → Bool) : Nat → Nat
  | 0 => 0
  | n + 1 => cnt f n + (if f n then 1 else 0)

theorem cnt_range {f g : Nat → Bool} {i a : Nat} (hf : ∀ k, i ≤ k → k < i + a → f k = false)
    (hg : ∀ k, g k = if i ≤ k ∧ k < i + a then true else f k) :
    ∀ n, cnt g n = cnt f n + (min n (i + a) - min n i) := by
  intro n
  induction n with
  | zero => simp [cnt]
  | succ n ih =>
    rw [cnt, cnt, ih, hg n]
    by_cases h : i ≤ n ∧ n < i + a
    · rw [if_pos h, hf n h.1 h.2]; simp; omega
    · rw [if_neg h]; split <;> omega

theorem cnt_le (f : Nat → Bool) : ∀ n, cnt f n ≤ n := by
  intro n
  induction n with
  | zero => simp [cnt]
  | succ n ih => rw [cnt]; split <;> omega

theorem cnt_lt_exists {f : Nat → Bool} : ∀ {n}, cnt f n < n → ∃ k, k < n ∧ f k = false := by
  intro n
  induction n with
  | zero => intro h; omega
  | succ n ih =>
    intro h
    rw [cnt] at h
    cases hf : f n with
    | false => exact ⟨n, by omega, hf⟩
    | true =>
      rw [hf] at h
      obtain ⟨k, h1, h2⟩ := ih (by simpa using h)
      exact ⟨k, by omega, h2⟩

theorem cnt_zero {f : Nat → Bool} : ∀ {n}, cnt f n = 0 → ∀ k, k < n → f k = false := by
  intro n
  induction n with
  | zero => intro _ k hk; omega
  | succ n ih =>
    intro h k hk
    rw [cnt] at h
    cases hf : f n with
    | false =>
      rw [hf] at h
      by_cases hkn : k = n
      · subst hkn; exact hf
      · exact ih (by simpa using h) k (by omega)
    | true => rw [hf] at h; simp at h

theorem cnt_congr {f g : Nat → Bool} : ∀ {n}, (∀ k, k < n → f k = g k) → cnt f n = cnt g n := by
  intro n
  induction n with
  | zero => intro _; rfl
  | succ n ih => intro h; rw [cnt, cnt, ih (fun k hk => h k (by omega)), h n (by omega)]

theorem le_numGranularized_mul (hN : 0 < N) (a : Nat) : a ≤ numGranularized a N * N := by
  have h1 := Nat.div_add_mod (a + N - 1) N
  have h2 := Nat.mod_lt (a + N - 1) hN
  unfold numGranularized
  rw [Nat.mul_comm] at h1
  omega

theorem numGranularized_mono (g : Nat) {a b : Nat} (h : a ≤ b) : numGranularized a g ≤ numGranularized b g := by
  unfold numGranularized
  exact Nat.div_le_div_right (by omega)

theorem numGranularized_mul {g : Nat} (hg : 0 < g) (a : Nat) : numGranularized (a * g) g = a := by
  unfold numGranularized
  rw [Nat.add_sub_assoc hg, Nat.mul_comm a g, Nat.mul_add_div hg, Nat.div_eq_of_lt (by omega), Nat.add_zero]

/-- Well-formedness of a block; `except` is the range that is about to be occupied. -/
structure Wf (o : Order) (b : Block N) (i area : Nat) : Prop where
  len : b.bits.length = numGranularized b.areaSize N
  send : b.searchEnd ≤ b.areaSize
  free : ∀ k, k < b.areaSize → ¬ (i ≤ k ∧ k < i + area) → bitAt o b.bits k = false →
    b.searchStart ≤ k ∧ k < b.searchEnd
  used : b.areaUsed = cnt (bitAt o b.bits) b.areaSize

/-- The parts of a block an allocation search does not change. -/
def SameArea (b b' : Block N) : Prop :=
  b'.base = b.base ∧ b'.areaSize = b.areaSize ∧ b'.areaUsed = b.areaUsed ∧ b'.static = b.static ∧ b'.bits = b.bits

theorem target_true (o : Order) (bits : List (BitVec N)) (k : Nat) :
    target o bits true k = !bitAt o bits k := by unfold target; cases bitAt o bits k <;> rfl

theorem target_false (o : Order) (bits : List (BitVec N)) (k : Nat) :
    target o bits false k = bitAt o bits k := by unfold target; cases bitAt o bits k <;> rfl

/-- A hole large enough. -/
def GoodIndex (o : Order) (bits : List (BitVec N)) (start searchEnd area j : Nat) : Prop :=
  start ≤ j ∧ j + area ≤ searchEnd ∧ ∀ k, j ≤ k → k < j + area → bitAt o bits k = false

theorem holeLoop_spec (o : Order) {bits : List (BitVec N)} {n : Nat} (hN : 0 < N) (hn : n ≤ bits.length)
    {searchEnd area start : Nat} (hse : searchEnd ≤ n * N) :
    ∀ (fuel : Nat) (it : Iter N) (pos holeEnd best largest : Nat) (index : Option Nat),
    Repr o bits n pos true it → it.hasNext = true → 0 < fuel → searchEnd + 1 ≤ fuel + pos → start ≤ pos →
    (∀ k, start ≤ k → k < pos → k < searchEnd → bitAt o bits k = false → k < holeEnd) →
    (holeEnd ≤ searchEnd ∨ ∃ k, pos ≤ k ∧ k < searchEnd ∧ bitAt o bits k = false) →
    (∀ j, index = some j → GoodIndex o bits start searchEnd area j) →
    ∃ best' largest' index' holeEnd',
      holeLoop o bits searchEnd area fuel it holeEnd best largest index = some (best', largest', index', holeEnd') ∧
      holeEnd' ≤ searchEnd ∧
      (∀ k, start ≤ k → k < searchEnd → bitAt o bits k = false → k < holeEnd') ∧
      (∀ j, index' = some j → GoodIndex o bits start searchEnd area j) := by
  intro fuel
  induction fuel with
  | zero => intro it pos holeEnd best largest index _ _ h; omega
  | succ fuel ih =>
    intro it pos holeEnd best largest index hr hh _ hf hsp hpre hor hidx
    obtain ⟨hi, it1, e1, ⟨f1, f2, f3, f4⟩, r1⟩ := nextAndFlip_spec o hN hn hr hh
    rw [target_true] at f3
    have f3' : bitAt o bits hi = false := by simpa using f3
    rw [holeLoop, e1]
    simp only
    by_cases hbreak : hi ≥ searchEnd
    · rw [if_pos hbreak]
      refine ⟨_, _, _, _, rfl, ?_, ?_, hidx⟩
      · rcases hor with h | ⟨k, k1, k2, k3⟩
        · exact h
        · have := f4 k k1 (by omega)
          rw [target_true, k3] at this; simp at this
      · intro k k1 k2 k3
        by_cases hkp : k < pos
        · exact hpre k k1 hkp k2 k3
        · have := f4 k (by omega) (by omega)
          rw [target_true, k3] at this; simp at this
    · rw [if_neg hbreak]
      -- the end of the hole
      have hend : ∃ he it2, holeFinish o bits searchEnd it1 = some (he, it2) ∧ he ≤ searchEnd ∧ hi < he ∧
          (∀ k, hi ≤ k → k < he → bitAt o bits k = false) ∧
          ((∃ pos', Repr o bits n pos' true it2 ∧ hi < pos' ∧
              (∀ k, k < pos' → k < searchEnd → k < he)) ∨ (it2.hasNext = false ∧ he = searchEnd)) := by
        by_cases hh1 : it1.hasNext = true
        · obtain ⟨e, it2, e2, ⟨g1, g2, g3, g4⟩, r2⟩ := nextAndFlip_spec o hN hn r1 hh1
          have hne : hi ≠ e := by
            intro h; subst h
            have : target o bits (!true) hi = bitAt o bits hi := target_false o bits hi
            rw [this, f3'] at g3; simp at g3
          refine ⟨min searchEnd e, it2, by rw [holeFinish, if_pos hh1, e2], by omega, by omega, ?_, .inl ⟨e, r2, by omega, ?_⟩⟩
          · intro k k1 k2
            have := g4 k k1 (by omega)
            have ht : target o bits (!true) k = bitAt o bits k := target_false o bits k
            rw [ht] at this; exact this
          · intro k k1 k2; omega
        · refine ⟨searchEnd, it1, by rw [holeFinish, if_neg hh1], Nat.le_refl _, by omega, ?_, .inr ⟨by simpa using hh1, rfl⟩⟩
          intro k k1 k2
          cases hb : bitAt o bits k with
          | false => rfl
          | true =>
            exfalso
            apply hh1
            rw [hasNext_iff o r1 hn]
            have ht : target o bits (!true) k = bitAt o bits k := target_false o bits k
            exact ⟨k, k1, by omega, by rw [ht, hb]⟩
      obtain ⟨he, it2, e2, h1, h2, h3, h4⟩ := hend
      simp only [e2]
      obtain ⟨T, hT⟩ : ∃ T, (if he - hi ≥ area ∧ best ≥ he - hi then (he - hi, max largest best, some hi)
            else (best, max largest (he - hi), index)) = T := ⟨_, rfl⟩
      rw [hT]
      obtain ⟨b', l', i'⟩ := T
      have hi' : ∀ j, i' = some j → GoodIndex o bits start searchEnd area j := by
        intro j hj
        by_cases hc : he - hi ≥ area ∧ best ≥ he - hi
        · rw [if_pos hc] at hT
          injection hT with _ hT
          injection hT with _ hT
          rw [← hT] at hj
          injection hj with hj
          subst hj
          exact ⟨by omega, by omega, fun k k1 k2 => h3 k k1 (by omega)⟩
        · rw [if_neg hc] at hT
          injection hT with _ hT
          injection hT with _ hT
          rw [← hT] at hj
          exact hidx j hj
      simp only
      by_cases hh2 : it2.hasNext = true
      · rw [if_pos hh2]
        rcases h4 with ⟨pos', r2, p1, p2⟩ | ⟨hno, _⟩
        · exact ih it2 pos' he b' l' i' r2 hh2 (by omega) (by omega) (by omega)
            (fun k _ k2 k3 _ => p2 k k2 k3) (.inl h1) hi'
        · rw [hno] at hh2; simp at hh2
      · rw [if_neg hh2]
        refine ⟨_, _, _, _, rfl, h1, ?_, hi'⟩
        intro k k1 k2 k3
        rcases h4 with ⟨pos', r2, p1, p2⟩ | ⟨_, he'⟩
        · by_cases hkp : k < pos'
          · exact p2 k hkp k2
          · exfalso
            apply hh2
            rw [hasNext_iff o r2 hn]
            exact ⟨k, by omega, by omega, by rw [target_true, k3]; rfl⟩
        · omega

theorem tryBlock_spec (o : Order) {b : Block N} (hN : 0 < N) (hw : Wf o b 0 0) {area : Nat} (ha : 0 < area) :
    ∃ b' r, tryBlock o b area = some (b', r) ∧ SameArea b b' ∧
      (r = none → Wf o b' 0 0) ∧
      (∀ i, r = some i → Wf o b' i area ∧ i + area ≤ b.areaSize ∧
        ∀ k, i ≤ k → k < i + area → bitAt o b.bits k = false) := by
  have hsame : SameArea b b := ⟨rfl, rfl, rfl, rfl, rfl⟩
  unfold tryBlock
  by_cases h1 : b.areaSize - b.areaUsed ≥ area
  · rw [if_pos h1]
    by_cases h2 : b.dirty = true ∨ b.largest ≥ area
    · rw [if_pos h2]
      -- there is a free area
      obtain ⟨k0, hk0, hb0⟩ := cnt_lt_exists (f := bitAt o b.bits) (n := b.areaSize) (by rw [← hw.used]; omega)
      obtain ⟨hs0, he0⟩ := hw.free k0 hk0 (by omega) hb0
      have hn : numGranularized b.searchEnd N ≤ b.bits.length := by
        rw [hw.len]; exact numGranularized_mono N hw.send
      have hse := le_numGranularized_mul hN b.searchEnd
      obtain ⟨it, ei, hr⟩ := init_spec o b.bits hn hN b.searchStart true
      have ei' : Iter.init o b.bits (numGranularized b.searchEnd N) b.searchStart (BitVec.allOnes N) = some it := ei
      have hh : it.hasNext = true := by
        rw [hasNext_iff o hr hn]
        exact ⟨k0, hs0, by omega, by rw [target_true, hb0]; rfl⟩
      obtain ⟨hi, ep, f1, f2, f3, f4⟩ := peek_spec o hr hh
      have hik0 : hi ≤ k0 := by
        apply Nat.le_of_not_lt
        intro hlt
        have := f4 k0 hs0 hlt
        rw [target_true, hb0] at this; simp at this
      obtain ⟨b1, l1, i1, he, e1, e2, e3, e4⟩ := holeLoop_spec o hN hn (area := area) (start := b.searchStart) hse
        (b.searchEnd + 1) it b.searchStart hi b.areaSize 0 none hr hh (by omega) (by omega) (Nat.le_refl _)
        (by intro k k1 k2; omega) (.inr ⟨k0, hs0, he0, hb0⟩) (by intro j hj; simp at hj)
      simp only [ei', ep, e1]
      have hfirst : ∀ k, b.searchStart ≤ k → k < b.searchEnd → bitAt o b.bits k = false → hi ≤ k := by
        intro k k1 _ k3
        apply Nat.le_of_not_lt
        intro hlt
        have := f4 k k1 hlt
        rw [target_true, k3] at this; simp at this
      cases i1 with
      | none =>
        refine ⟨{ b with searchStart := hi, searchEnd := he, largest := l1, dirty := false }, none, rfl,
          ⟨rfl, rfl, rfl, rfl, rfl⟩, ?_, by intro i h; simp at h⟩
        intro _
        refine ⟨hw.len, Nat.le_trans e2 hw.send, ?_, hw.used⟩
        intro k k1 k2 k3
        obtain ⟨g1, g2⟩ := hw.free k k1 k2 k3
        exact ⟨hfirst k g1 g2 k3, e3 k g1 g2 k3⟩
      | some i =>
        obtain ⟨g1, g2, g3⟩ := e4 i rfl
        have hsend := hw.send
        refine ⟨if hi = i then { b with searchStart := hi + area, searchEnd := he, largest := l1, dirty := false }
          else { b with searchStart := hi, searchEnd := he, largest := l1, dirty := false }, some i,
          rfl, by split <;> exact ⟨rfl, rfl, rfl, rfl, rfl⟩, by intro h; simp at h, ?_⟩
        intro i' hi'
        injection hi' with hi'
        subst hi'
        refine ⟨?_, by omega, g3⟩
        have hfree : ∀ k, k < b.areaSize → bitAt o b.bits k = false → hi ≤ k ∧ k < he := by
          intro k k1 k3
          obtain ⟨p1, p2⟩ := hw.free k k1 (by omega) k3
          exact ⟨hfirst k p1 p2 k3, e3 k p1 p2 k3⟩
        split
        · next heq =>
          refine ⟨hw.len, Nat.le_trans e2 hw.send, ?_, hw.used⟩
          intro k k1 k2 k3
          obtain ⟨p1, p2⟩ := hfree k k1 k3
          exact ⟨by show hi + area ≤ k; omega, p2⟩
        · refine ⟨hw.len, Nat.le_trans e2 hw.send, ?_, hw.used⟩
          intro k k1 _ k3
          exact hfree k k1 k3
    · rw [if_neg h2]
      exact ⟨b, none, rfl, hsame, fun _ => hw, by intro i h; simp at h⟩
  · rw [if_neg h1]
    exact ⟨b, none, rfl, hsame, fun _ => hw, by intro i h; simp at h⟩

theorem occupy_spec (o : Order) {b : Block N} (hN : 0 < N) {i area : Nat} (hw : Wf o b i area)
    (hi : i + area ≤ b.areaSize) (hfree : ∀ k, i ≤ k → k < i + area → bitAt o b.bits k = false) :
    ∃ b', occupy o b i area = some b' ∧ Wf o b' 0 0 ∧ b'.base = b.base ∧ b'.areaSize = b.areaSize ∧
      b'.static = b.static ∧ b'.areaUsed = b.areaUsed + area ∧
      ∀ k, bitAt o b'.bits k = if i ≤ k ∧ k < i + area then true else bitAt o b.bits k := by
  have hlen : i + area ≤ b.bits.length * N := by
    rw [hw.len]; exact Nat.le_trans hi (le_numGranularized_mul hN _)
  obtain ⟨bits, e1, e2, e3⟩ := (C41_range o b.bits i area hlen).1
  have hcnt := cnt_range hfree e3 b.areaSize
  have hused : b.areaUsed + area = cnt (bitAt o bits) b.areaSize := by
    rw [hcnt, hw.used]; omega
  unfold occupy
  by_cases hfull : b.areaSize - (b.areaUsed + area) = 0
  · simp only [if_pos hfull, e1]
    refine ⟨_, rfl, ⟨?_, Nat.zero_le _, ?_, hused⟩, rfl, rfl, rfl, rfl, e3⟩
    · show bits.length = _
      rw [e2]; exact hw.len
    · intro k k1 _ k3
      exfalso
      have : cnt (bitAt o bits) b.areaSize < b.areaSize := by
        -- a clear bit
        have hc : ∀ n, (∃ k, k < n ∧ bitAt o bits k = false) → cnt (bitAt o bits) n < n := by
          intro n
          induction n with
          | zero => rintro ⟨k, hk, _⟩; omega
          | succ n ih =>
            rintro ⟨k, hk, hb⟩
            rw [cnt]
            by_cases hkn : k = n
            · subst hkn; have := cnt_le (bitAt o bits) k; rw [hb]; simp; omega
            · have := ih ⟨k, by omega, hb⟩
              split <;> omega
        exact hc _ ⟨k, k1, k3⟩
      omega
  · simp only [if_neg hfull, e1]
    refine ⟨_, rfl, ⟨?_, hw.send, ?_, hused⟩, rfl, rfl, rfl, rfl, e3⟩
    · show bits.length = _
      rw [e2]; exact hw.len
    · intro k k1 _ k3
      have k3' : bitAt o bits k = false := k3
      rw [e3] at k3'
      by_cases hr : i ≤ k ∧ k < i + area
      · rw [if_pos hr] at k3'; simp at k3'
      · rw [if_neg hr] at k3'
        exact hw.free k k1 hr k3'

theorem release_spec (o : Order) {b : Block N} (hN : 0 < N) (hw : Wf o b 0 0) {i area : Nat}
    (hi : i + area ≤ b.areaSize) (hset : ∀ k, i ≤ k → k < i + area → bitAt o b.bits k = true) :
    ∃ b', b.release o (b.base + i * granularity) (area * granularity) = some b' ∧ Wf o b' 0 0 ∧
      b'.base = b.base ∧ b'.areaSize = b.areaSize ∧ b'.static = b.static ∧
      b'.areaUsed + area = b.areaUsed ∧
      ∀ k, bitAt o b'.bits k = if i ≤ k ∧ k < i + area then false else bitAt o b.bits k := by
  have hlen : i + area ≤ b.bits.length * N := by
    rw [hw.len]; exact Nat.le_trans hi (le_numGranularized_mul hN _)
  obtain ⟨bits, e1, e2, e3⟩ := (C41_range o b.bits i area hlen).2
  have hback : ∀ k, bitAt o b.bits k = if i ≤ k ∧ k < i + area then true else bitAt o bits k := by
    intro k
    by_cases h : i ≤ k ∧ k < i + area
    · rw [if_pos h, hset k h.1 h.2]
    · rw [if_neg h, e3, if_neg h]
  have hfree : ∀ k, i ≤ k → k < i + area → bitAt o bits k = false := by
    intro k h1 h2; rw [e3, if_pos ⟨h1, h2⟩]
  have hcnt := cnt_range hfree hback b.areaSize
  have hused : b.areaUsed = cnt (bitAt o bits) b.areaSize + area := by rw [hw.used, hcnt]; omega
  have hidx : (b.base + i * granularity - b.base) / granularity = i := by
    rw [Nat.add_sub_cancel_left]; exact Nat.mul_div_cancel _ (by decide)
  have harea : numGranularized (area * granularity) granularity = area := numGranularized_mul (by decide) _
  unfold Block.release
  simp only [hidx, harea, e1]
  rw [if_pos (by omega)]
  refine ⟨_, rfl, ⟨?_, ?_, ?_, ?_⟩, rfl, rfl, rfl, by show b.areaUsed - area + area = _; omega, e3⟩
  · show bits.length = _
    rw [e2]; exact hw.len
  · show max b.searchEnd (i + area) ≤ b.areaSize
    have := hw.send; omega
  · intro k k1 _ k3
    show min b.searchStart i ≤ k ∧ k < max b.searchEnd (i + area)
    have k3' : bitAt o bits k = false := k3
    rw [e3] at k3'
    by_cases hr : i ≤ k ∧ k < i + area
    · omega
    · rw [if_neg hr] at k3'
      have := hw.free k k1 (by omega) k3'
      omega
  · show b.areaUsed - area = cnt (bitAt o bits) b.areaSize
    omega

theorem newBlock_wf (o : Order) (hN : 0 < N) (base areaSize : Nat) : Wf o (newBlock N base areaSize) 0 0 ∧
    ∀ k, bitAt o (newBlock N base areaSize).bits k = false := by
  have hz : ∀ k, bitAt o (newBlock N base areaSize).bits k = false := by
    intro k
    unfold bitAt newBlock
    simp only [List.getElem?_replicate]
    split
    · rfl
    · next h => split at h
                · injection h with h; subst h; exact hasBit_zero o _
                · simp at h
  refine ⟨⟨by simp [newBlock], Nat.le_refl _, ?_, ?_⟩, hz⟩
  · intro k k1 _ _
    exact ⟨Nat.zero_le _, k1⟩
  · show 0 = cnt _ areaSize
    have : ∀ n, cnt (bitAt o (newBlock N base areaSize).bits) n = 0 := by
      intro n
      induction n with
      | zero => rfl
      | succ n ih => rw [cnt, ih, hz]; rfl
    exact (this _).symm

end Blend2D.ZeroAlloc
