import Verif.BitSet.OpsClear

/-!
# Adding a range to segments
-/

namespace Blend2D.BitSet

open Blend2D.BitOps

/-- `f` and the numbers from `a` up to `b`. -/
def plusR (f : Nat → Bool) (a b i : Nat) : Bool := inRange a b i || f i

theorem bitAt_or4 {d d' : List Word} (h : d.length = 4) (h' : d'.length = 4) (i : Nat) :
    bitAt .msb (d.zipWith (· ||| ·) d') i = (bitAt .msb d i || bitAt .msb d' i) := by
  match d, h, d', h' with
  | [a, b, c, e], _, [a', b', c', e'], _ =>
    simp only [List.zipWith, bitAt_cons, bitAt_nil, hasBit_or]
    repeat' split
    all_goals simp

theorem inRange_split {a b c : Nat} (h1 : a ≤ b) (h2 : b ≤ c) (i : Nat) : inRange a c i = (inRange a b i || inRange b c i) := by
  rw [Bool.eq_iff_iff, Bool.or_eq_true, inRange_iff, inRange_iff, inRange_iff]
  omega

theorem inRange_empty (a i : Nat) : inRange a a i = false := by
  rw [Bool.eq_false_iff, ne_eq, inRange_iff]; omega

theorem SegsOK.take {segs : List Seg} (h : SegsOK segs) (k : Nat) : SegsOK (segs.take k) := by
  rw [← List.take_append_drop k segs] at h
  exact (SegsOK.append.1 h).1

theorem SegsOK.drop {segs : List Seg} (h : SegsOK segs) (k : Nat) : SegsOK (segs.drop k) := by
  rw [← List.take_append_drop k segs] at h
  exact (SegsOK.append.1 h).2.1

theorem SegsOK.cross {segs : List Seg} (h : SegsOK segs) (k : Nat) : ∀ g ∈ segs.take k, ∀ r ∈ segs.drop k, g.endWord ≤ r.startWord := by
  rw [← List.take_append_drop k segs] at h
  exact (SegsOK.append.1 h).2.2

theorem drop_cons {segs : List Seg} {k : Nat} {h : Seg} {r : List Seg} (e : segs.drop k = h :: r) :
    segs[k]? = some h ∧ segs.drop (k + 1) = r ∧ segs.take (k + 1) = segs.take k ++ [h] ∧ k < segs.length := by
  have hk : k < segs.length := by
    apply Nat.lt_of_not_le
    intro hc
    rw [List.drop_eq_nil_of_le hc] at e
    cases e
  rw [List.drop_eq_getElem_cons hk] at e
  injection e with e1 e2
  refine ⟨by rw [List.getElem?_eq_getElem hk, e1], e2, ?_, hk⟩
  rw [List.take_add_one, List.getElem?_eq_getElem hk, e1]
  rfl

theorem drop_nil {segs : List Seg} {k : Nat} (e : segs.drop k = []) : segs[k]? = none := by
  rw [List.getElem?_eq_none_iff]
  exact List.drop_eq_nil_iff.1 e

/-- The state of the main loop: what is in front of the start of the rest of the range has been added, and no run starts in it. -/
structure AddInv (segs : List Seg) (a b : Nat) (st : AddState) : Prop where
  idx : st.index ≤ segs.length
  insIdx : st.insertIndex ≤ st.index
  empty : st.ins = [] → st.insertIndex = st.index
  ok : SegsOK (segs.take st.insertIndex ++ st.ins)
  lo : a ≤ st.start
  le : st.start ≤ b
  sep : ∀ g ∈ segs.take st.insertIndex ++ st.ins, ∀ r ∈ segs.drop st.index, g.endWord ≤ r.startWord
  hi : st.start < b → ∀ g ∈ segs.take st.insertIndex ++ st.ins, g.endWord ≤ st.start / 128 * 4
  prevs : st.start < b → ∀ g ∈ segs.take st.index, g.endWord ≤ st.start / 128 * 4
  rest : ∀ g ∈ segs.drop st.index, st.start / 32 < g.endWord
  norun : ∀ x y, Seg.range x y ∈ segs.drop st.index → b ≤ x * 32
  bits : ∀ i, (anyBit (segs.take st.insertIndex ++ st.ins) i || anyBit (segs.drop st.index) i) = (inRange a st.start i || anyBit segs i)

/-- How many iterations are left. -/
def left (b : Nat) (st : AddState) : Nat := if st.start % 128 ≠ 0 then 3 else if 128 ≤ b - st.start then 2 else 1

/-- A dense segment added at the start of the range. -/
theorem inv_dense {segs : List Seg} {a b : Nat} (hs : SegsOK segs) (hb : b < 4294967296) {st : AddState} (inv : AddInv segs a b st) (hlt : st.start < b)
    {n : Nat} (hn : n = min (b - st.start) (128 - st.start % 128)) {d : List Word} (hd : d.length = 4) {index : Nat} (hi1 : st.index ≤ index)
    (hi2 : index ≤ segs.length)
    (hprev : ∀ g ∈ segs.take index, g ∈ segs.take st.index ∨ g.endWord ≤ st.start / 128 * 4 + 4)
    (hrest : ∀ g ∈ segs.drop index, st.start / 128 * 4 + 4 ≤ g.startWord)
    (hsub : ∀ g ∈ segs.drop index, g ∈ segs.drop st.index)
    (hbits : ∀ i, ((Seg.dense (st.start / 128 * 4) d).bit i || anyBit (segs.drop index) i) =
      (inRange st.start (st.start + n) i || anyBit (segs.drop st.index) i)) :
    AddInv segs a b { st with start := st.start + n, index, ins := st.ins ++ [.dense (st.start / 128 * 4) d] } := by
  have hseg : SegOK (.dense (st.start / 128 * 4) d) := ⟨by omega, by omega, hd⟩
  have hedge : st.start + n < b → (st.start + n) / 128 * 4 = st.start / 128 * 4 + 4 := by omega
  refine ⟨hi2, by have := inv.insIdx; simp only; omega, by simp, ?_, by have := inv.lo; simp only; omega, by simp only; omega, ?_, ?_, ?_, ?_, ?_, ?_⟩
  · simp only
    rw [← List.append_assoc]
    refine SegsOK.append.2 ⟨inv.ok, SegsOK.cons.2 ⟨hseg, SegsOK.nil, by simp⟩, ?_⟩
    intro g hg r hr
    rw [List.mem_singleton] at hr
    subst hr
    exact inv.hi hlt g hg
  · simp only
    intro g hg r hr
    rw [← List.append_assoc, List.mem_append, List.mem_singleton] at hg
    rcases hg with hg | rfl
    · exact inv.sep g hg r (hsub r hr)
    · exact hrest r hr
  · simp only
    intro hlt' g hg
    rw [← List.append_assoc, List.mem_append, List.mem_singleton] at hg
    rw [hedge hlt']
    rcases hg with hg | rfl
    · have := inv.hi hlt g hg; omega
    · exact Nat.le_refl _
  · simp only
    intro hlt' g hg
    rw [hedge hlt']
    rcases hprev g hg with hg | hg
    · have := inv.prevs hlt g hg; omega
    · exact hg
  · simp only
    intro g hg
    have h1 := hrest g hg
    have h2 := (hs.each g (List.mem_of_mem_drop hg)).start_lt
    omega
  · simp only
    intro x y hxy
    exact inv.norun x y (hsub _ hxy)
  · simp only
    intro i
    have e1 := hbits i
    have e2 := inv.bits i
    rw [← List.append_assoc, anyBit_append, anyBit_cons, anyBit_nil, Bool.or_false, Bool.or_assoc, e1,
      inRange_split inv.lo (Nat.le_add_right st.start n), Bool.or_assoc, Bool.or_comm (inRange st.start _ i) (anyBit segs i), ← Bool.or_assoc (inRange a _ i), ← e2,
      Bool.or_comm (inRange st.start _ i), ← Bool.or_assoc]

theorem dense_step {segs : List Seg} {a b : Nat} (hs : SegsOK segs) (hb : b < 4294967296) {st : AddState} (inv : AddInv segs a b st) (hlt : st.start < b) :
    let n := min (b - st.start) (128 - st.start % 128)
    ∃ d, denseWithRange st.start n = some (.dense (st.start / 128 * 4) d) ∧
    ((∃ w d', segs[st.index]? = some (.dense w d') ∧ segHasWord (.dense w d') (st.start / 32) = true ∧
        AddInv segs a b { st with start := st.start + n, index := st.index + 1, ins := st.ins ++ [.dense (st.start / 128 * 4) (d.zipWith (· ||| ·) d')] }) ∨
     ((∀ h, segs[st.index]? = some h → segHasWord h (st.start / 32) = false) ∧
        AddInv segs a b { st with start := st.start + n, ins := st.ins ++ [.dense (st.start / 128 * 4) d] })) := by
  intro n
  obtain ⟨d, e, hl, hbit⟩ := denseWithRange_spec (a := st.start) (size := n) (by omega)
  refine ⟨d, e, ?_⟩
  cases hdr : segs.drop st.index with
  | nil =>
    right
    refine ⟨by rw [drop_nil hdr]; simp, inv_dense hs hb inv hlt rfl hl (Nat.le_refl _) inv.idx (fun g hg => .inl hg) ?_ (fun g hg => hg) ?_⟩
    · rw [hdr]; simp
    · intro i; rw [hbit]
  | cons h r =>
    obtain ⟨e1, e2, e3, hlen⟩ := drop_cons hdr
    have hsd := hs.drop st.index
    rw [hdr] at hsd
    obtain ⟨okh, okr, hhr⟩ := SegsOK.cons.1 hsd
    have hsl := okh.start_lt
    have hrest := inv.rest h (by rw [hdr]; simp)
    by_cases hw : segHasWord h (st.start / 32) = true
    · left
      have hw' := (segHasWord_iff okh (by omega)).1 hw
      cases h with
      | range x y =>
        have := inv.norun x y (by rw [hdr]; simp)
        have hx : x ≤ st.start / 32 := hw'.1
        omega
      | dense w d' =>
        refine ⟨w, d', e1, hw, ?_⟩
        have hx : w ≤ st.start / 32 := hw'.1
        have hx2 : st.start / 32 < w + 4 := hw'.2
        have hw4 : w % 4 = 0 := okh.1
        have hwe : st.start / 128 * 4 = w := by omega
        refine inv_dense hs hb inv hlt rfl (by rw [List.length_zipWith, hl, okh.2.2]; rfl) (Nat.le_succ _) hlen ?_ ?_ ?_ ?_
        · intro g hg
          rw [e3, List.mem_append, List.mem_singleton] at hg
          rcases hg with hg | rfl
          · exact .inl hg
          · right; rw [hwe]; exact Nat.le_refl _
        · intro g hg
          rw [e2] at hg
          rw [hwe]
          exact hhr g hg
        · intro g hg
          rw [e2] at hg
          rw [hdr]
          exact List.mem_cons_of_mem _ hg
        · intro i
          have hor : (Seg.dense (st.start / 128 * 4) (d.zipWith (· ||| ·) d')).bit i =
              ((Seg.dense (st.start / 128 * 4) d).bit i || (Seg.dense w d').bit i) := by
            rw [hwe]
            simp only [Seg.bit, bitAt_or4 hl okh.2.2, Bool.and_or_distrib_left]
          rw [hor, hbit, e2, hdr, anyBit_cons, Bool.or_assoc]
    · right
      rw [Bool.not_eq_true] at hw
      have hgt : st.start / 32 < h.startWord := by
        apply Nat.lt_of_not_le
        intro hc
        rw [(segHasWord_iff okh (by omega)).2 ⟨hc, hrest⟩] at hw
        cases hw
      refine ⟨?_, inv_dense hs hb inv hlt rfl hl (Nat.le_refl _) inv.idx (fun g hg => .inl hg) ?_ (fun g hg => hg) ?_⟩
      · intro h' hh'
        rw [e1, Option.some.injEq] at hh'
        rw [← hh', hw]
      · intro g hg
        rw [hdr] at hg
        rcases List.mem_cons.1 hg with rfl | hg
        · omega
        · have h1 := hhr g hg
          omega
      · intro i; rw [hbit]

theorem discard_spec {segs : List Seg} (hs : SegsOK segs) (word : Nat) : ∀ (fuel index : Nat), index ≤ segs.length → segs.length ≤ index + fuel →
    ∃ D, segs.drop index = D ++ segs.drop (discard segs word index fuel) ∧ segs.take (discard segs word index fuel) = segs.take index ++ D ∧
      discard segs word index fuel ≤ segs.length ∧ index ≤ discard segs word index fuel ∧
      (∀ g ∈ D, g.startWord < word) ∧ ∀ g ∈ segs.drop (discard segs word index fuel), word ≤ g.startWord := by
  intro fuel
  induction fuel with
  | zero =>
    intro index h1 h2
    have : index = segs.length := by omega
    exact ⟨[], by simp [discard], by simp [discard], h1, Nat.le_refl _, by simp, by simp [discard, this]⟩
  | succ fuel ih =>
    intro index h1 h2
    cases hdr : segs.drop index with
    | nil =>
      have e : discard segs word index (fuel + 1) = index := by rw [discard, drop_nil hdr]
      rw [e, hdr]
      exact ⟨[], rfl, by simp, h1, Nat.le_refl _, by simp, by simp⟩
    | cons h r =>
      obtain ⟨e1, e2, e3, hlen⟩ := drop_cons hdr
      have hsd := hs.drop index
      rw [hdr] at hsd
      obtain ⟨okh, okr, hhr⟩ := SegsOK.cons.1 hsd
      by_cases hw : h.startWord < word
      · have e : discard segs word index (fuel + 1) = discard segs word (index + 1) fuel := by
          rw [discard, e1]; simp only; rw [if_pos hw]
        obtain ⟨D, g1, g2, g3, g4, g5, g6⟩ := ih (index + 1) (by omega) (by omega)
        rw [e]
        refine ⟨h :: D, ?_, ?_, g3, by omega, ?_, g6⟩
        · rw [List.cons_append, ← g1, e2]
        · rw [g2, e3, List.append_assoc]; rfl
        · intro g hg
          rcases List.mem_cons.1 hg with rfl | hg
          · exact hw
          · exact g5 g hg
      · have e : discard segs word index (fuel + 1) = index := by
          rw [discard, e1]; simp only; rw [if_neg hw]
        rw [e, hdr]
        refine ⟨[], rfl, by simp, h1, Nat.le_refl _, by simp, ?_⟩
        intro g hg
        rcases List.mem_cons.1 hg with rfl | hg
        · omega
        · have := hhr g hg
          have := okh.start_lt
          omega

/-- A run added at the start of the range. -/
theorem range_step {segs : List Seg} {a b : Nat} (hs : SegsOK segs) (hb : b < 4294967296) {st : AddState} (inv : AddInv segs a b st) (hlt : st.start < b)
    (hlen : st.ins.length < 8) {sw ii : Nat} (hal : st.start % 128 = 0) (hsz : 128 ≤ b - st.start) (hsw : sw % 4 = 0) (hsw2 : sw ≤ st.start / 32)
    (h8 : sw + 8 ≤ b / 128 * 4)
    (hii : ii ≤ st.insertIndex) (hends : ∀ g ∈ segs.take ii ++ st.ins, g.endWord ≤ sw) (hok : SegsOK (segs.take ii ++ st.ins))
    (hbits : ∀ i, (anyBit (segs.take ii ++ st.ins) i || inRange (sw * 32) st.start i) = anyBit (segs.take st.insertIndex ++ st.ins) i) :
    ∃ st', initRange segs b sw ii st = some (false, st') ∧ AddInv segs a b st' ∧ st'.start = b / 128 * 128 ∧ st'.ins.length = st.ins.length + 1 := by
  have hE : b / 128 * 4 ≤ 134217728 := by omega
  obtain ⟨s1, s2, s3, s4⟩ := rangeSeg_spec (s := sw) (e := b / 128 * 4) hsw (by omega) (by omega) hE
  obtain ⟨D, g1, g2, g3, g4, g5, g6⟩ := discard_spec hs (b / 128 * 4) segs.length st.index inv.idx (by omega)
  generalize hidx : discard segs (b / 128 * 4) st.index segs.length = index at *
  have hDmem : ∀ g ∈ D, g ∈ segs.drop st.index := fun g hg => by rw [g1]; exact List.mem_append_left _ hg
  -- the discarded segments lie in the new run
  have hD : ∀ g ∈ D, (∃ w d, g = .dense w d) ∧ st.start / 32 ≤ g.startWord ∧ g.endWord ≤ b / 128 * 4 := by
    intro g hg
    have hm := hDmem g hg
    have h1 := inv.rest g hm
    have h2 := g5 g hg
    have hok := hs.each g (List.mem_of_mem_drop hm)
    cases g with
    | range x y =>
      have := inv.norun x y hm
      have h3 : x < b / 128 * 4 := h2
      omega
    | dense w d =>
      have h3 : w < b / 128 * 4 := h2
      have h4 : st.start / 32 < w + 4 := h1
      have h5 : w % 4 = 0 := hok.1
      refine ⟨⟨w, d, rfl⟩, ?_, ?_⟩
      · show st.start / 32 ≤ w
        omega
      · show w + 4 ≤ b / 128 * 4
        omega
  have hprevs : ∀ g ∈ segs.take index, g.endWord ≤ b / 128 * 4 := by
    intro g hg
    rw [g2, List.mem_append] at hg
    rcases hg with hg | hg
    · have := inv.prevs hlt g hg
      omega
    · exact (hD g hg).2.2
  have hDbits : ∀ i, anyBit D i = true → inRange st.start (b / 128 * 4 * 32) i = true := by
    intro i hi
    unfold anyBit at hi
    rw [List.any_eq_true] at hi
    obtain ⟨g, hg, hgi⟩ := hi
    have h1 := Seg.bit_iff (hs.each g (List.mem_of_mem_drop (hDmem g hg))) hgi
    have h2 := hD g hg
    rw [inRange_iff]
    omega
  refine ⟨{ start := b / 128 * 128, index, insertIndex := ii, ins := st.ins ++ [rangeSeg sw (b / 128 * 4)] }, ?_, ?_, rfl, by simp⟩
  · unfold initRange push
    simp only [if_pos hlen, Option.bind_eq_bind, Option.bind_some, hidx]
    rw [wrap_of_lt (by omega), show b / 128 * 4 * 32 = b / 128 * 128 by omega]
    by_cases hz : index ≠ 0
    · rw [if_pos hz]
      have hlt' : index - 1 < segs.length := by omega
      rw [List.getElem?_eq_getElem hlt']
      have hm : segs[index - 1] ∈ segs.take index := by
        rw [List.mem_take_iff_getElem]
        exact ⟨index - 1, by omega, rfl⟩
      have hp := hprevs _ hm
      cases hg : segs[index - 1] with
      | dense w d => rfl
      | range x y =>
        rw [hg] at hp
        have hp' : y ≤ b / 128 * 4 := hp
        simp only
        rw [if_neg (by omega)]
    · rw [if_neg hz]
  · have hed : ∀ g ∈ segs.take ii ++ (st.ins ++ [rangeSeg sw (b / 128 * 4)]), g.endWord ≤ b / 128 * 4 := by
      intro g hg
      rw [← List.append_assoc, List.mem_append, List.mem_singleton] at hg
      rcases hg with hg | rfl
      · have := hends g hg; omega
      · omega
    have hbd : b / 128 * 128 / 128 * 4 = b / 128 * 4 := by omega
    refine ⟨g3, ?_, by simp, ?_, ?_, ?_, ?_, ?_, ?_, ?_, ?_, ?_⟩
    · have := inv.insIdx
      show ii ≤ index
      omega
    · simp only
      rw [← List.append_assoc]
      refine SegsOK.append.2 ⟨hok, SegsOK.cons.2 ⟨s1, SegsOK.nil, by simp⟩, ?_⟩
      intro g hg r hr
      rw [List.mem_singleton] at hr
      rw [hr, s2]
      exact hends g hg
    · have := inv.lo
      show a ≤ b / 128 * 128
      omega
    · show b / 128 * 128 ≤ b
      omega
    · simp only
      intro g hg r hr
      have h1 := hed g hg
      have h2 := g6 r hr
      omega
    · simp only
      intro _ g hg
      rw [hbd]
      exact hed g hg
    · simp only
      intro _ g hg
      rw [hbd]
      exact hprevs g hg
    · simp only
      intro g hg
      have h1 := g6 g hg
      have h2 := (hs.each g (List.mem_of_mem_drop hg)).start_lt
      omega
    · simp only
      intro x y hxy
      exact inv.norun x y (by rw [g1]; exact List.mem_append_right _ hxy)
    · simp only
      intro i
      have e0 := hbits i
      have e1 := inv.bits i
      rw [g1, ← e0, anyBit_append D] at e1
      rw [← List.append_assoc, anyBit_append, anyBit_cons, anyBit_nil, Bool.or_false, s4,
        inRange_split (show sw * 32 ≤ st.start by omega) (show st.start ≤ b / 128 * 4 * 32 by omega),
        inRange_split (a := a) (b := st.start) (c := b / 128 * 128) inv.lo (by omega), show b / 128 * 128 = b / 128 * 4 * 32 by omega]
      have hDi := hDbits i
      clear e0
      generalize anyBit (segs.take ii ++ st.ins) i = A at *
      generalize anyBit (segs.drop index) i = B at *
      generalize anyBit D i = C at *
      generalize inRange (sw * 32) st.start i = E at *
      generalize inRange st.start (b / 128 * 4 * 32) i = F at *
      generalize inRange a st.start i = G at *
      generalize anyBit segs i = H at *
      clear hDbits hbits s4 hok hends inv
      cases F
      · cases C
        · simpa [Bool.or_assoc] using e1
        · simp at hDi
      · simp

theorem prevRun_some {segs : List Seg} {k w x : Nat} (h : prevRun segs k w = some x) :
    0 < k ∧ segs[k - 1]? = some (.range x w) := by
  unfold prevRun at h
  by_cases hk : k > 0
  · rw [if_pos hk] at h
    cases hg : segs[k - 1]? with
    | none => simp [hg] at h
    | some g =>
      cases g with
      | dense => simp [hg] at h
      | range p q =>
        simp only [hg] at h
        split at h
        · rename_i hq
          injection h with h
          exact ⟨hk, by rw [h, hq]⟩
        · cases h
  · rw [if_neg hk] at h; cases h

theorem step_spec {segs : List Seg} {a b : Nat} (hs : SegsOK segs) (hb : b < 4294967296) {st : AddState} (inv : AddInv segs a b st) (hlt : st.start < b)
    (hlen : st.ins.length < 8) : ∃ st', addStep segs b st = some (false, st') ∧ AddInv segs a b st' ∧
      (st'.start < b → left b st' < left b st) ∧ st'.ins.length = st.ins.length + 1 := by
  have hw : ∀ n, n ≤ b - st.start → wrap (st.start + n) = st.start + n := fun n hn => wrap_of_lt (by omega)
  have hmin : ∀ (m : Nat), min (b - st.start) m ≤ b - st.start := fun m => by omega
  obtain ⟨d, ed, hcase⟩ := dense_step hs hb inv hlt
  have hleft : ∀ st' : AddState, st'.start = st.start + min (b - st.start) (128 - st.start % 128) →
      ¬ (st.start % 128 = 0 ∧ b - st.start ≥ 256) → st'.start < b → left b st' < left b st := by
    intro st' h1 h2 h3
    unfold left
    rw [h1] at *
    split <;> split <;> try split
    all_goals first | omega | (split <;> omega)
  unfold addStep
  simp only [sub32_of_le (Nat.le_of_lt hlt) hb, Option.bind_eq_bind, ed, Option.bind_some]
  -- the dense case
  have hdense : ¬ (st.start % 128 = 0 ∧ b - st.start ≥ 256) → ∃ st', (match segs[st.index]? with
      | some h =>
        if segHasWord h (st.start / 32) = true then
          match h, Seg.dense (st.start / 128 * 4) d with
          | .range _ _, g => (push st.ins g).bind fun ins => some (true, { st with ins := ins })
          | .dense _ d', .dense a d => (push st.ins (.dense a (d.zipWith (· ||| ·) d'))).bind fun ins =>
              some (false, { st with start := wrap (st.start + min (b - st.start) (128 - st.start % 128)), index := st.index + 1, ins := ins })
          | _, _ => none
        else (push st.ins (.dense (st.start / 128 * 4) d)).bind fun ins =>
          some (false, { st with start := wrap (st.start + min (b - st.start) (128 - st.start % 128)), ins := ins })
      | none => (push st.ins (.dense (st.start / 128 * 4) d)).bind fun ins =>
          some (false, { st with start := wrap (st.start + min (b - st.start) (128 - st.start % 128)), ins := ins }) : Option (Bool × AddState)) =
        some (false, st') ∧ AddInv segs a b st' ∧ (st'.start < b → left b st' < left b st) ∧ st'.ins.length = st.ins.length + 1 := by
    intro hno
    rcases hcase with ⟨w, d', e1, e2, e3⟩ | ⟨e1, e2⟩
    · rw [e1]
      simp only [if_pos e2, push, if_pos hlen, Option.bind_some, hw _ (hmin _)]
      exact ⟨_, rfl, e3, hleft _ rfl hno, by simp⟩
    · cases hg : segs[st.index]? with
      | none =>
        simp only [push, if_pos hlen, Option.bind_some, hw _ (hmin _)]
        exact ⟨_, rfl, e2, hleft _ rfl hno, by simp⟩
      | some h =>
        simp only [e1 h hg, push, if_pos hlen, Option.bind_some, hw _ (hmin _)]
        exact ⟨_, rfl, e2, hleft _ rfl hno, by simp⟩
  have hfin : ∀ st' : AddState, st'.start = b / 128 * 128 → st.start % 128 = 0 → 128 ≤ b - st.start → st'.start < b → left b st' < left b st := by
    intro st' h1 h2 h3 h4
    unfold left
    rw [h1, if_neg (by omega), if_neg (by omega), if_neg (by omega), if_pos h3]
    omega
  by_cases hal : st.start % 128 = 0 ∧ b - st.start ≥ 128
  · rw [if_pos hal]
    cases hp : (if st.ins = [] then prevRun segs st.index (st.start / 32) else none : Option Nat) with
    | none =>
      simp only
      by_cases h2 : b - st.start ≥ 256
      · rw [if_pos h2]
        obtain ⟨st', q1, q2, q3, q4⟩ := range_step hs hb inv hlt hlen (sw := st.start / 32) (ii := st.insertIndex) hal.1 hal.2 (by omega) (Nat.le_refl _) (by omega)
          (Nat.le_refl _) (fun g hg => by have := inv.hi hlt g hg; omega) inv.ok
          (fun i => by rw [show st.start / 32 * 32 = st.start by omega, inRange_empty, Bool.or_false])
        exact ⟨st', q1, q2, hfin st' q3 hal.1 hal.2, q4⟩
      · rw [if_neg h2]
        exact hdense (by omega)
    | some x =>
      simp only
      have hins : st.ins = [] := by
        apply Classical.byContradiction
        intro hc
        rw [if_neg hc] at hp
        cases hp
      rw [if_pos hins] at hp
      obtain ⟨p1, p2⟩ := prevRun_some hp
      have hix := inv.empty hins
      have hlt1 : st.index - 1 < segs.length := by have := inv.idx; omega
      have hget : segs[st.index - 1] = .range x (st.start / 32) := by
        rw [List.getElem?_eq_getElem hlt1] at p2
        exact Option.some.inj p2
      have htake : segs.take st.index = segs.take (st.index - 1) ++ [.range x (st.start / 32)] := by
        rw [show segs.take st.index = segs.take (st.index - 1 + 1) by congr 1; omega, List.take_add_one, p2]
        rfl
      have hsk := hs.take st.index
      rw [htake] at hsk
      obtain ⟨k1, k2, k3⟩ := SegsOK.append.1 hsk
      have hx : x % 4 = 0 ∧ st.start / 32 % 4 = 0 ∧ x + 8 ≤ st.start / 32 ∧ st.start / 32 ≤ 134217728 := k2.each (.range x (st.start / 32)) (by simp)
      obtain ⟨st', q1, q2, q3, q4⟩ := range_step hs hb inv hlt hlen (sw := x) (ii := st.insertIndex - 1) hal.1 hal.2 (by omega) (by omega) (by omega)
          (by omega) (fun g hg => by
            rw [hins, List.append_nil, hix] at hg
            exact k3 g hg (.range x (st.start / 32)) (by simp)) (by rw [hins, List.append_nil, hix]; exact k1)
          (fun i => by
            rw [hins, List.append_nil, List.append_nil, hix, htake, anyBit_append, anyBit_cons, anyBit_nil, Bool.or_false]
            congr 1
            show inRange (x * 32) st.start i = inRange (x * 32) (st.start / 32 * 32) i
            congr 1
            omega)
      exact ⟨st', q1, q2, hfin st' q3 hal.1 hal.2, q4⟩
  · rw [if_neg hal]
    exact hdense (by omega)

theorem loop_spec {segs : List Seg} {a b : Nat} (hs : SegsOK segs) (hb : b < 4294967296) : ∀ (fuel : Nat) (st : AddState), AddInv segs a b st → st.start < b →
    left b st ≤ fuel → st.ins.length + left b st ≤ 7 → ∃ st', addLoop segs b st fuel = some st' ∧ AddInv segs a b st' ∧ st'.start = b ∧ st'.ins ≠ [] := by
  intro fuel
  induction fuel with
  | zero =>
    intro st inv hlt hf
    unfold left at hf
    split at hf
    · omega
    · split at hf <;> omega
  | succ fuel ih =>
    intro st inv hlt hf hl
    obtain ⟨st', e, inv', hdec, hlen⟩ := step_spec hs hb inv hlt (by omega)
    unfold addLoop
    rw [e]
    simp only [Option.bind_eq_bind, Option.bind_some, Bool.false_eq_true, if_false]
    by_cases h : st'.start < b
    · rw [if_pos h]
      have := hdec h
      exact ih st' inv' h (by omega) (by omega)
    · rw [if_neg h]
      refine ⟨st', rfl, inv', by have := inv'.le; omega, ?_⟩
      intro hn
      rw [hn] at hlen
      simp at hlen

theorem splice_spec {newCap : Nat → Nat} (hc : ∀ n, n ≤ newCap n) (s : BS) (mut' : Bool) {segs ins : List Seg} {ii k : Nat} (hik : ii ≤ k)
    {f : Nat → Bool} (h1 : SegsOK (segs.take ii ++ ins ++ segs.drop k)) (h2 : ∀ i, anyBit (segs.take ii ++ ins ++ segs.drop k) i = f i)
    (h3 : ∀ i, 4294967295 ≤ i → f i = false) : Holds (splice newCap s mut' segs ii (k - ii) ins) f := by
  unfold splice
  simp only [show ii + (k - ii) = k by omega]
  cases s with
  | range => exact holds_dyn h1 (hc _) h2 h3
  | dense => exact holds_dyn h1 (hc _) h2 h3
  | dyn segs' cap card =>
    simp only
    split
    · rename_i hm
      simp only [Bool.and_eq_true, decide_eq_true_eq] at hm
      exact holds_dyn h1 hm.2 h2 h3
    · exact holds_dyn h1 (hc _) h2 h3

/-- A run does not contain the number 2^32 - 1. -/
theorem run_end {segs : List Seg} (hs : SegsOK segs) (hl : ∀ i, 4294967295 ≤ i → anyBit segs i = false) {x y : Nat} (h : Seg.range x y ∈ segs) :
    y * 32 < 4294967296 := by
  have hok : x % 4 = 0 ∧ y % 4 = 0 ∧ x + 8 ≤ y ∧ y ≤ 134217728 := hs.each _ h
  apply Nat.lt_of_not_le
  intro hc
  have h1 := hl 4294967295 (Nat.le_refl _)
  have h2 : anyBit segs 4294967295 = true := by
    unfold anyBit
    rw [List.any_eq_true]
    refine ⟨_, h, ?_⟩
    simp only [Seg.bit, Bool.and_eq_true, decide_eq_true_eq]
    omega
  rw [h1] at h2
  cases h2

/-- Where the loop that skips runs stops. -/
structure Skipped (segs : List Seg) (start b c k : Nat) : Prop where
  lo : start ≤ c
  hi : c < b
  found : Found segs (c / 32) k
  sub : ∀ i, inRange start c i = true → anyBit segs i = true
  norun : ∀ x y, segs[k]? = some (.range x y) → c / 32 < x

theorem anyBit_of_mem {segs : List Seg} {g : Seg} (hg : g ∈ segs) {i : Nat} (h : g.bit i = true) : anyBit segs i = true := by
  unfold anyBit
  rw [List.any_eq_true]
  exact ⟨g, hg, h⟩

theorem skip_spec {segs : List Seg} (hs : SegsOK segs) (hl : ∀ i, 4294967295 ≤ i → anyBit segs i = false) {b : Nat} (hb : b < 4294967296) {start : Nat} :
    ∀ (fuel c k : Nat), segs.length ≤ k + fuel → start ≤ c → c < b → Found segs (c / 32) k →
      (∀ i, inRange start c i = true → anyBit segs i = true) →
      (skipRuns segs b c k fuel = none ∧ ∀ i, inRange start b i = true → anyBit segs i = true) ∨
      ∃ c' k', skipRuns segs b c k fuel = some (c', k') ∧ Skipped segs start b c' k' := by
  intro fuel
  induction fuel with
  | zero =>
    intro c k hf h1 h2 h3 h4
    have : k = segs.length := by have := h3.le; omega
    exact .inr ⟨c, k, by rw [skipRuns], h1, h2, h3, h4, by rw [this]; simp⟩
  | succ fuel ih =>
    intro c k hf h1 h2 h3 h4
    unfold skipRuns
    cases hdr : segs.drop k with
    | nil =>
      rw [drop_nil hdr]
      exact .inr ⟨c, k, rfl, h1, h2, h3, h4, by rw [drop_nil hdr]; simp⟩
    | cons h r =>
      obtain ⟨e1, e2, e3, hlen⟩ := drop_cons hdr
      have hsd := hs.drop k
      rw [hdr] at hsd
      obtain ⟨okh, okr, hhr⟩ := SegsOK.cons.1 hsd
      have hafter := h3.after h (by rw [hdr]; simp)
      rw [e1]
      cases h with
      | dense w d => exact .inr ⟨c, k, rfl, h1, h2, h3, h4, by rw [e1]; simp⟩
      | range x y =>
        simp only
        have hmem : Seg.range x y ∈ segs := List.mem_of_getElem? e1
        have hy := run_end hs hl hmem
        have hok : x % 4 = 0 ∧ y % 4 = 0 ∧ x + 8 ≤ y ∧ y ≤ 134217728 := okh
        have hay : c / 32 < y := hafter
        by_cases hw : segHasWord (.range x y) (c / 32) = true
        · have hw' := (segHasWord_iff okh (by omega)).1 hw
          have hx : x ≤ c / 32 := hw'.1
          rw [if_pos hw, wrap_of_lt hy]
          have hsub : ∀ t, t ≤ y * 32 → ∀ i, inRange start t i = true → anyBit segs i = true := by
            intro t ht i hi
            rw [inRange_iff] at hi
            by_cases hic : i < c
            · exact h4 i (inRange_iff.2 ⟨hi.1, hic⟩)
            · apply anyBit_of_mem hmem
              simp only [Seg.bit, Bool.and_eq_true, decide_eq_true_eq]
              omega
          by_cases hge : y * 32 ≥ b
          · rw [if_pos hge]
            exact .inl ⟨rfl, hsub b hge⟩
          · rw [if_neg hge]
            refine ih (y * 32) (k + 1) (by omega) (by omega) (by omega) ⟨by omega, ?_, ?_⟩ (hsub _ (Nat.le_refl _))
            · intro g hg
              rw [e3, List.mem_append, List.mem_singleton] at hg
              rcases hg with hg | rfl
              · have := h3.before g hg; omega
              · show y ≤ y * 32 / 32
                omega
            · intro g hg
              rw [e2] at hg
              have h5 : y ≤ g.startWord := hhr g hg
              have h6 := (okr.each g hg).start_lt
              omega
        · rw [if_neg hw]
          refine .inr ⟨c, k, rfl, h1, h2, h3, h4, ?_⟩
          intro x' y' hx'
          rw [e1] at hx'
          injection hx' with hx'
          injection hx' with hx1 hx2
          subst hx1 hx2
          apply Nat.lt_of_not_le
          intro hc
          exact hw ((segHasWord_iff okh (by omega)).2 ⟨hc, hay⟩)

theorem addInv_init {segs : List Seg} (hs : SegsOK segs) {a b c k : Nat} (hsk : Skipped segs a b c k)
    (hno : ∀ x y, Seg.range x y ∈ segs → ¬ (a < x * 32 ∧ x * 32 < b)) :
    AddInv segs a b { start := c, index := k, insertIndex := k, ins := [] } := by
  have hbefore : ∀ g ∈ segs.take k, g.endWord ≤ c / 128 * 4 := by
    intro g hg
    have h1 := hsk.found.before g hg
    have h2 := (hs.each g (List.mem_of_mem_take hg)).start_lt
    omega
  refine ⟨hsk.found.le, Nat.le_refl _, fun _ => rfl, ?_, hsk.lo, Nat.le_of_lt hsk.hi, ?_, ?_, fun _ => hbefore, hsk.found.after, ?_, ?_⟩
  · simp only [List.append_nil]; exact hs.take k
  · simp only [List.append_nil]; exact hs.cross k
  · simp only [List.append_nil]; exact fun _ => hbefore
  · simp only
    intro x y hxy
    have hgt : c / 32 < x := by
      cases hdr : segs.drop k with
      | nil => rw [hdr] at hxy; cases hxy
      | cons h r =>
        obtain ⟨e1, e2, e3, hlen⟩ := drop_cons hdr
        rw [hdr] at hxy
        rcases List.mem_cons.1 hxy with rfl | hr
        · exact hsk.norun x y e1
        · have hsd := hs.drop k
          rw [hdr] at hsd
          obtain ⟨okh, okr, hhr⟩ := SegsOK.cons.1 hsd
          have h1 : h.endWord ≤ x := hhr _ hr
          have h2 := hsk.found.after h (by rw [hdr]; simp)
          omega
    have := hno x y (List.mem_of_mem_drop hxy)
    have := hsk.lo
    omega
  · simp only [List.append_nil]
    intro i
    rw [← anyBit_append, List.take_append_drop]
    cases hi : inRange a c i with
    | false => rfl
    | true => rw [hsk.sub i hi]; rfl

theorem addRangeSegs_spec {newCap : Nat → Nat} (hc : ∀ n, n ≤ newCap n) {s : BS} (h : OK s) {segs : List Seg} (hs : SegsOK segs)
    (hbits : ∀ i, anyBit segs i = member s i) {mut' : Bool} {cap : Nat} (hcap : mut' = true → segs.length ≤ cap) {a b : Nat} (hab : a < b)
    (hb : b < 4294967296) (hno : ∀ x y, Seg.range x y ∈ segs → ¬ (a < x * 32 ∧ x * 32 < b)) :
    ∃ s', addRangeSegs newCap s mut' segs cap a b = some (true, s') ∧ Holds s' (plusR (member s) a b) := by
  have hlast : ∀ i, 4294967295 ≤ i → anyBit segs i = false := fun i hi => (hbits i).trans (h.last i hi)
  have hlast' : ∀ i, 4294967295 ≤ i → plusR (member s) a b i = false := by
    intro i hi
    rw [plusR, h.last i hi, Bool.or_false, Bool.eq_false_iff, ne_eq, inRange_iff]
    omega
  obtain ⟨k, ek, f⟩ := findSeg_spec hs (a / 32)
  unfold addRangeSegs
  rw [ek]
  simp only [Option.bind_eq_bind, Option.bind_some]
  have hskip := skip_spec hs hlast hb (start := a) segs.length a k (by omega) (Nat.le_refl _) hab f (by intro i hi; rw [inRange_empty] at hi; cases hi)
  rcases hskip with ⟨hsk, hskip⟩ | ⟨c, k', hsk, hskip⟩
  · rw [hsk]
    refine ⟨s, rfl, h, fun i => ?_⟩
    rw [plusR]
    cases hi : inRange a b i with
    | false => rfl
    | true => rw [← hbits, hskip i hi]; rfl
  · rw [hsk]
    simp only
    have inv := addInv_init hs hskip hno
    have hgeneric : ∃ s', ((addLoop segs b { start := c, index := k', insertIndex := k', ins := [] } 8).bind fun st =>
        (addFinish segs st).bind fun st =>
          some (true, splice newCap s mut' segs st.insertIndex (st.index - st.insertIndex) st.ins)) = some (true, s') ∧
        Holds s' (plusR (member s) a b) := by
      obtain ⟨st, e, inv', hst, hne⟩ := loop_spec hs hb 8 _ inv hskip.hi (by unfold left; simp only; split <;> (try split) <;> omega)
        (by unfold left; simp only [List.length_nil]; split <;> (try split) <;> omega)
      have hfin : addFinish segs st = some st := by
        unfold addFinish
        cases hdr : segs.drop st.index with
        | nil => rw [drop_nil hdr]
        | cons h r =>
          obtain ⟨e1, _, _, _⟩ := drop_cons hdr
          rw [e1]
          cases hg : st.ins.getLast? with
          | none => cases h <;> rfl
          | some p =>
            cases h with
            | dense => rfl
            | range x y =>
              simp only
              have hp : p ∈ st.ins := List.mem_of_getLast? hg
              have h1 : p.endWord ≤ x := inv'.sep p (List.mem_append_right _ hp) (.range x y) (by rw [hdr]; simp)
              have h2 := (inv'.ok.each p (List.mem_append_right _ hp)).start_lt
              rw [if_neg (by omega)]
      rw [e]
      simp only [Option.bind_some, hfin]
      refine ⟨_, rfl, splice_spec hc s mut' inv'.insIdx ?_ ?_ hlast'⟩
      · exact SegsOK.append.2 ⟨inv'.ok, hs.drop _, inv'.sep⟩
      · intro i
        rw [anyBit_append, inv'.bits, hst, hbits]
        rfl
    rcases Found.split hs hskip.found with ⟨hk, _⟩ | ⟨l, g, r, e0, e1, e2, e3, e4, e5, e6, e7, okg, okl, okr⟩
    · rw [List.getElem?_eq_none (by omega)]
      exact hgeneric
    · rw [e2]
      cases g with
      | range x y => exact hgeneric
      | dense w d =>
        simp only
        split
        · rename_i hcond
          simp only [Bool.and_eq_true, decide_eq_true_eq] at hcond
          obtain ⟨⟨hw, hm⟩, hlw⟩ := hcond
          have hhi := hskip.hi
          have hw' := (segHasWord_iff okg (by omega)).1 hw
          have hx1 : w ≤ c / 32 := hw'.1
          have hx2 : c / 32 < w + 4 := hw'.2
          have hx3 : w % 4 = 0 := okg.1
          rw [sub32_of_le (by omega) hb] at hlw
          rw [sub32_of_le (by omega) hb]
          obtain ⟨d', ed, hl', hd'⟩ := (C41_range .msb d (c % 128) (b - c) (by rw [okg.2.2]; omega)).1
          rw [ed]
          simp only [Option.bind_some]
          rw [e0, set_split e1]
          refine ⟨_, rfl, holds_dyn ?_ ?_ ?_ hlast'⟩
          · exact segsOK_replace okl okr e6 e7 (Nat.le_add_right _ _) ⟨okg.1, okg.2.1, hl'.trans okg.2.2⟩ rfl rfl
          · have := hcap hm
            rw [e0] at this
            simpa using this
          · intro i
            have hbi := hbits i
            rw [e0] at hbi
            rw [anyBit_append, anyBit_cons] at hbi ⊢
            have hnew : (Seg.dense w d').bit i = (inRange c b i || (Seg.dense w d).bit i) := by
              simp only [Seg.bit, hd']
              by_cases hi : w * 32 ≤ i
              · by_cases hi2 : c ≤ i ∧ i < b
                · rw [if_pos (by omega), decide_eq_true hi, inRange_iff.2 hi2]; rfl
                · have : inRange c b i = false := by rw [Bool.eq_false_iff, ne_eq, inRange_iff]; exact hi2
                  rw [if_neg (by omega), this, Bool.false_or]
              · have : inRange c b i = false := by rw [Bool.eq_false_iff, ne_eq, inRange_iff]; omega
                rw [decide_eq_false hi, this]; rfl
            rw [hnew, plusR, ← hbi, inRange_split hskip.lo (Nat.le_of_lt hhi)]
            have hsub := hskip.sub i
            rw [e0, anyBit_append, anyBit_cons] at hsub
            generalize anyBit l i = A at *
            generalize anyBit r i = B at *
            generalize (Seg.dense w d).bit i = C at *
            generalize inRange a c i = D at *
            generalize inRange c b i = E at *
            clear hbi hnew
            cases D
            · cases A <;> cases B <;> cases C <;> cases E <;> rfl
            · have := hsub rfl
              cases A <;> cases B <;> cases C <;> cases E <;> simp at this ⊢
        · exact hgeneric

end Blend2D.BitSet
