import Verif.FontTag.Lookup
import Verif.Algo.Sort
import Verif.Algo.Search
import Verif.BitOps.Props
/-! # Tag sets: lemmas -/
namespace Blend2D.FontTag
open Spec Blend2D.Algo Blend2D.BitOps

/-- What the proofs need of a dictionary. -/
structure Good (d : Dict) : Prop where
  id : ∀ tag, ∃ id, d.toId tag = some id ∧ IsId d.tags tag id
  sorted : d.tags.toList.Pairwise (· < ·)

theorem good_scripts : Good scripts := ⟨script_id, by decide +kernel⟩
theorem good_features : Good features := ⟨feature_id, by decide +kernel⟩
theorem good_baselines : Good baselines := ⟨baseline_id, by decide +kernel⟩
theorem good_variations : Good variations := ⟨variation_id, by decide +kernel⟩

/-- The tag of an identifier. -/
def tagOf (d : Dict) (i : Nat) : UInt32 := d.tags.getD i 0

theorem tagOf_lt {d : Dict} (hd : Good d) {i j : Nat} (hij : i < j) (hj : j < d.tags.size) : tagOf d i < tagOf d j := by
  have h := List.pairwise_iff_getElem.1 hd.sorted i j (by simpa using Nat.lt_trans hij hj) (by simpa using hj) hij
  simpa [tagOf, Array.getD_eq_getD_getElem?, hj, Nat.lt_trans hij hj] using h

theorem tagOf_inj {d : Dict} (hd : Good d) {i j : Nat} (hi : i < d.tags.size) (hj : j < d.tags.size)
    (h : tagOf d i = tagOf d j) : i = j := by
  rcases Nat.lt_trichotomy i j with hlt | heq | hgt
  · exact absurd (h ▸ tagOf_lt hd hlt hj) (UInt32.lt_irrefl _)
  · exact heq
  · exact absurd (h ▸ tagOf_lt hd hgt hi) (UInt32.lt_irrefl _)

theorem known_cases {d : Dict} (hd : Good d) (tag : UInt32) :
    (∃ i, i < d.tags.size ∧ tagOf d i = tag ∧ d.toId tag = some (UInt32.ofNat i) ∧ UInt32.ofNat i ≠ kInvalidId ∧
      (UInt32.ofNat i).toNat = i ∧ tag ∈ d.tags) ∨ (tag ∉ d.tags ∧ d.toId tag = some kInvalidId) := by
  obtain ⟨id, h1, h2⟩ := hd.id tag
  rcases h2 with ⟨i, e1, rfl, hi⟩ | ⟨h3, rfl⟩
  · obtain ⟨hi', he⟩ := Array.getElem?_eq_some_iff.1 e1
    have hn : (UInt32.ofNat i).toNat = i := UInt32.toNat_ofNat_of_lt' (by rw [UInt32.size]; omega)
    refine .inl ⟨i, hi', by simp [tagOf, Array.getD_eq_getD_getElem?, e1], h1, ?_, hn, he ▸ Array.getElem_mem hi'⟩
    intro hc
    rw [hc] at hn
    have : kInvalidId.toNat = 2 ^ 32 - 1 := rfl
    omega
  · exact .inr ⟨h3, h1⟩

/-! ## Bits -/

theorem bitAtIdx_eq (data : List (BitVec 64)) (i : Nat) (h : i < data.length * 64) :
    bitAtIdx data i = some (bitAt .lsb data i) := by
  have hi : i / 64 < data.length := by omega
  simp only [bitAtIdx, bitAt, List.getElem?_eq_getElem hi, Option.bind_eq_bind, Option.bind_some, hasBit]
  congr 1
  obtain ⟨w, hw⟩ : ∃ w, w = data[i / 64] := ⟨_, rfl⟩
  rw [← hw]
  rw [Bool.eq_iff_iff, bne_iff_ne]
  constructor
  · intro hne
    by_cases hb : w.getLsbD (i % 64) = true
    · exact hb
    · exfalso
      apply hne
      apply BitVec.eq_of_getLsbD_eq
      intro k hk
      rw [BitVec.getLsbD_and, BitVec.getLsbD_ushiftRight, BitVec.getLsbD_one, BitVec.getLsbD_zero]
      by_cases hk0 : k = 0
      · subst hk0
        rw [Nat.add_zero, Bool.eq_false_iff.2 hb, Bool.false_and]
      · simp [hk0]
  · intro hb hz
    have := congrArg (fun x : BitVec 64 => x.getLsbD 0) hz
    simp [hb] at this

theorem setAtIdx_eq (data : List (BitVec 64)) (i : Nat) (h : i < data.length * 64) :
    ∃ b, setAtIdx data i = some b ∧ b.length = data.length ∧
      ∀ k, bitAt .lsb b k = if k = i then true else bitAt .lsb data k := by
  have hi : i / 64 < data.length := by omega
  refine ⟨data.set (i / 64) (data[i / 64] ||| (1#64 <<< (i % 64))), ?_, by simp, ?_⟩
  · simp only [setAtIdx, List.getElem?_eq_getElem hi, Option.bind_eq_bind, Option.bind_some]
  · intro k
    unfold bitAt
    by_cases hk : k / 64 = i / 64
    · rw [hk, List.getElem?_set_self hi, List.getElem?_eq_getElem hi]
      simp only [hasBit]
      have hm : k % 64 < 64 := Nat.mod_lt _ (by omega)
      rw [BitVec.getLsbD_or, BitVec.getLsbD_shiftLeft, BitVec.getLsbD_one]
      by_cases hki : k = i
      · subst hki; simp [hm]
      · have : k % 64 ≠ i % 64 := by omega
        rw [if_neg hki]
        by_cases hlt : k % 64 < i % 64
        · simp [hlt]
        · have : k % 64 - i % 64 ≠ 0 := by omega
          simp [this]
    · rw [List.getElem?_set_ne (Ne.symm hk)]
      rw [if_neg (by rintro rfl; exact hk rfl)]

/-! ## Adding tags -/

/-- The identifiers of the known tags in `ts`. -/
def knownIds (d : Dict) (ts : List UInt32) : List Nat := (List.range d.tags.size).filter (fun i => decide (tagOf d i ∈ ts))

/-- The state after adding the tags `ts`. -/
structure Inv (d : Dict) (ts : List UInt32) (s : TagSet) : Prop where
  len : s.known.length = (d.tags.size + 63) / 64
  bits : ∀ i, bitAt .lsb s.known i = true ↔ i < d.tags.size ∧ tagOf d i ∈ ts
  unknown : s.unknown.toList = ts.filter (fun t => decide (t ∉ d.tags))
  count : s.knownCount = (knownIds d ts).length

theorem inv_empty (d : Dict) : Inv d [] (TagSet.empty d) where
  len := by simp [TagSet.empty]
  bits := by
    intro i
    simp only [TagSet.empty, bitAt, List.not_mem_nil, and_false, iff_false, Bool.not_eq_true]
    split
    · rfl
    · rename_i w hw
      obtain ⟨_, rfl⟩ := List.getElem?_eq_some_iff.1 hw
      simp [hasBit]
  unknown := by simp [TagSet.empty]
  count := by
    have : knownIds d [] = [] := by
      rw [knownIds, List.filter_eq_nil_iff]; simp
    rw [this]; rfl

theorem filter_length_insert (p q : Nat → Bool) (n k : Nat) (hk : k < n) (hp : p k = false)
    (hq : ∀ i, q i = if i = k then true else p i) :
    ((List.range n).filter q).length = ((List.range n).filter p).length + 1 := by
  induction n with
  | zero => omega
  | succ n ih =>
    rw [List.range_succ, List.filter_append, List.filter_append, List.length_append, List.length_append]
    by_cases hkn : k = n
    · subst hkn
      have : (List.range k).filter q = (List.range k).filter p := by
        apply List.filter_congr
        intro i hi
        have : i ≠ k := by have := List.mem_range.1 hi; omega
        rw [hq, if_neg this]
      rw [this]
      simp [hq, hp]
    · rw [ih (by omega)]
      have : q n = p n := by rw [hq, if_neg (fun h => hkn h.symm)]
      simp only [List.filter_cons, List.filter_nil, this]
      omega

theorem addTag_inv {d : Dict} (hd : Good d) {ts : List UInt32} {s : TagSet} (h : Inv d ts s) (tag : UInt32) :
    ∃ s', s.addTag d tag = some s' ∧ Inv d (ts ++ [tag]) s' := by
  rcases known_cases hd tag with ⟨i, hi, ht, hid, hne, hnat, hmem⟩ | ⟨hnm, hid⟩
  · have hb : i < s.known.length * 64 := by rw [h.len]; omega
    obtain ⟨b, e1, e2, e3⟩ := setAtIdx_eq s.known i hb
    refine ⟨{ s with knownCount := s.knownCount + (if bitAt .lsb s.known i then 0 else 1), known := b }, ?_, ?_⟩
    · simp only [TagSet.addTag, hid, Option.bind_eq_bind, Option.bind_some, hne, ne_eq, not_false_eq_true, ↓reduceIte,
        TagSet.addKnown, hnat, bitAtIdx_eq _ _ hb, e1]
    · constructor
      · rw [e2]; exact h.len
      · intro k
        rw [e3]
        by_cases hk : k = i
        · subst hk
          simp [hi, ht]
        · rw [if_neg hk, h.bits, List.mem_append, List.mem_singleton]
          constructor
          · rintro ⟨a, b⟩; exact ⟨a, .inl b⟩
          · rintro ⟨a, b | b⟩
            · exact ⟨a, b⟩
            · exact absurd (tagOf_inj hd a hi (b.trans ht.symm)) hk
      · rw [h.unknown, List.filter_append]
        simp [hmem]
      · show s.knownCount + _ = _
        rw [h.count]
        have hbit := h.bits i
        by_cases hin : tag ∈ ts
        · have : bitAt .lsb s.known i = true := hbit.2 ⟨hi, ht ▸ hin⟩
          rw [this]
          simp only [↓reduceIte, Nat.add_zero, knownIds]
          congr 1
          apply List.filter_congr
          intro k _
          rw [decide_eq_decide, List.mem_append, List.mem_singleton]
          constructor
          · exact .inl
          · rintro (a | a)
            · exact a
            · exact a ▸ hin
        · have : bitAt .lsb s.known i = false := by
            rw [Bool.eq_false_iff]; intro hc; exact hin (ht ▸ (hbit.1 hc).2)
          rw [this]
          simp only [Bool.false_eq_true, ↓reduceIte, knownIds]
          have key := filter_length_insert (fun k => decide (tagOf d k ∈ ts))
            (fun k => if k = i then true else decide (tagOf d k ∈ ts)) d.tags.size i hi (by simp [ht, hin]) (fun _ => rfl)
          rw [← key]
          congr 1
          apply List.filter_congr
          intro k hk
          have hk' := List.mem_range.1 hk
          by_cases hki : k = i
          · subst hki; simp [ht]
          · have : tagOf d k ≠ tag := fun hc => hki (tagOf_inj hd hk' hi (hc.trans ht.symm))
            simp [hki, this]
  · refine ⟨{ s with unknown := s.unknown.push tag }, ?_, ?_⟩
    · simp only [TagSet.addTag, hid, Option.bind_eq_bind, Option.bind_some, ne_eq, not_true_eq_false, ↓reduceIte]
    · have hnt : ∀ i, i < d.tags.size → tagOf d i ≠ tag := by
        intro i hi hc
        apply hnm
        rw [← hc]
        simp [tagOf, Array.getD_eq_getD_getElem?, hi]
      constructor
      · exact h.len
      · intro i
        rw [show (TagSet.known { s with unknown := s.unknown.push tag }) = s.known from rfl, h.bits, List.mem_append, List.mem_singleton]
        constructor
        · rintro ⟨a, b⟩; exact ⟨a, .inl b⟩
        · rintro ⟨a, b | b⟩
          · exact ⟨a, b⟩
          · exact absurd b (hnt i a)
      · simp [h.unknown, List.filter_append, hnm]
      · show s.knownCount = _
        rw [h.count, knownIds, knownIds]
        congr 1
        apply List.filter_congr
        intro k hk
        have := hnt k (List.mem_range.1 hk)
        simp [this]

theorem add_all {d : Dict} (hd : Good d) (ts : List UInt32) : ∀ {us : List UInt32} {s : TagSet}, Inv d us s →
    ∃ s', ts.foldlM (TagSet.addTag d) s = some s' ∧ Inv d (us ++ ts) s' := by
  induction ts with
  | nil => intro us s h; exact ⟨s, rfl, by simpa using h⟩
  | cons t ts ih =>
    intro us s h
    obtain ⟨s1, e1, h1⟩ := addTag_inv hd h t
    obtain ⟨s2, e2, h2⟩ := ih h1
    refine ⟨s2, ?_, by simpa using h2⟩
    rw [List.foldlM_cons, e1, Option.bind_eq_bind, Option.bind_some, e2]

/-! ## Sorting and dropping repeated tags -/

theorem cmpTag_comparator : Algo.Spec.Comparator cmpTag := by
  have lt_iff : ∀ a b : UInt32, a < b ↔ a.toNat < b.toNat := fun a b => UInt32.lt_iff_toNat_lt
  constructor
  · intro a b
    simp only [cmpTag, lt_iff]
    split <;> split <;> omega
  · intro a b c
    simp only [cmpTag, lt_iff]
    split <;> split <;> (try split) <;> (try split) <;> (try split) <;> intros <;> omega

theorem cmpTag_le {a b : UInt32} (h : cmpTag a b ≤ 0) : a.toNat ≤ b.toNat := by
  simp only [cmpTag, UInt32.lt_iff_toNat_lt] at h
  split at h
  · omega
  · split at h
    · omega
    · omega

/-- Loop invariant of the in-place removal of repeated tags: the first `j` tags are the different tags among the first `i`. -/
theorem dedupLoop_ok (n : Nat) : ∀ (i j : Nat) (prev : UInt32) (data : Array UInt32), i + n = data.size → 0 < j → j ≤ i →
    (data.toList.drop i).Pairwise (fun a b => a.toNat ≤ b.toNat) → (∀ t ∈ data.toList.drop i, prev.toNat ≤ t.toNat) →
    (data.toList.take j).Pairwise (· < ·) → (data.toList.take j).getLast? = some prev →
    ∃ k out, dedupLoop n i j prev data = some (k, out) ∧ (out.toList.take k).Pairwise (· < ·) ∧
      ∀ t, t ∈ out.toList.take k ↔ t ∈ data.toList.take j ∨ t ∈ data.toList.drop i := by
  induction n with
  | zero =>
    intro i j prev data hn _ _ _ _ hp _
    refine ⟨j, data, rfl, hp, fun t => ?_⟩
    rw [List.drop_eq_nil_of_le (by simp; omega)]
    simp
  | succ n ih =>
    intro i j prev data hn hj hji hs hlow hp hl
    have hi : i < data.size := by omega
    have hi' : i < data.toList.length := by simpa using hi
    have hdrop : data.toList.drop i = data[i] :: data.toList.drop (i + 1) := by
      rw [List.drop_eq_getElem_cons hi']; simp
    rw [hdrop] at hs hlow
    have hs1 := (List.pairwise_cons.1 hs).1
    have hs2 := (List.pairwise_cons.1 hs).2
    have hprev : prev ∈ data.toList.take j := List.mem_of_getLast? hl
    rw [dedupLoop, Array.getElem?_eq_getElem hi, Option.bind_eq_bind, Option.bind_some]
    by_cases hc : data[i] = prev
    · rw [if_pos hc]
      obtain ⟨k, out, e1, e2, e3⟩ := ih (i + 1) j prev data (by omega) hj (by omega) hs2
        (fun t ht => hlow t (List.mem_cons_of_mem _ ht)) hp hl
      refine ⟨k, out, e1, e2, fun t => ?_⟩
      rw [e3, hdrop, List.mem_cons]
      constructor
      · rintro (a | a)
        · exact .inl a
        · exact .inr (.inr a)
      · rintro (a | a | a)
        · exact .inl a
        · rw [a, hc]; exact .inl hprev
        · exact .inr a
    · rw [if_neg hc, if_pos (by omega : j < data.size)]
      have hjl : j < data.toList.length := by simp; omega
      have ht : (data.set! j data[i]).toList.take (j + 1) = data.toList.take j ++ [data[i]] := by
        rw [Array.set!_eq_setIfInBounds, Array.toList_setIfInBounds, List.take_add_one, List.take_set_of_le (Nat.le_refl _),
          List.getElem?_set_self hjl]
        rfl
      have hd' : (data.set! j data[i]).toList.drop (i + 1) = data.toList.drop (i + 1) := by
        rw [Array.set!_eq_setIfInBounds, Array.toList_setIfInBounds, List.drop_set_of_lt (by omega)]
      have hlt : prev.toNat < data[i].toNat := by
        have h1 := hlow data[i] List.mem_cons_self
        have h2 : data[i].toNat ≠ prev.toNat := fun h => hc (UInt32.toNat_inj.1 h)
        omega
      have hbelow : ∀ t ∈ data.toList.take j, t.toNat ≤ prev.toNat := by
        intro t htm
        obtain ⟨l, hl'⟩ := List.getLast?_eq_some_iff.1 hl
        rw [hl'] at htm hp
        rcases List.mem_append.1 htm with a | a
        · have := (List.pairwise_append.1 hp).2.2 t a prev List.mem_cons_self
          rw [UInt32.lt_iff_toNat_lt] at this
          omega
        · rw [List.mem_singleton.1 a]
      obtain ⟨k, out, e1, e2, e3⟩ := ih (i + 1) (j + 1) data[i] (data.set! j data[i]) (by simp; omega) (by omega) (by omega)
        (by rw [hd']; exact hs2) (by rw [hd']; exact hs1)
        (by
          rw [ht, List.pairwise_append]
          refine ⟨hp, List.pairwise_singleton _ _, ?_⟩
          intro a ha b hb
          rw [List.mem_singleton.1 hb, UInt32.lt_iff_toNat_lt]
          have := hbelow a ha
          omega)
        (by rw [ht]; simp)
      refine ⟨k, out, e1, e2, fun t => ?_⟩
      simp only [e3, ht, hd', hdrop, List.mem_append, List.mem_cons, List.not_mem_nil]
      tauto

theorem finalizeTagArray_ok (tags : Array UInt32) (hn : tags.size < 2 ^ 64) :
    ∃ out, finalizeTagArray tags = some out ∧ out.toList.Pairwise (· < ·) ∧ ∀ t, t ∈ out.toList ↔ t ∈ tags.toList := by
  unfold finalizeTagArray
  by_cases hs : tags.size > 1
  · rw [if_pos hs]
    obtain ⟨ys, e1, e2, e3⟩ := C13_quick_sort cmpTag_comparator tags hn
    have hsz : ys.size = tags.size := e2.size_eq
    have h0 : 0 < ys.size := by omega
    have hdrop : ys.toList = ys[0] :: ys.toList.drop 1 := by
      have := List.drop_eq_getElem_cons (l := ys.toList) (i := 0) (by simpa using h0)
      simpa using this
    have hpw : ys.toList.Pairwise (fun a b => a.toNat ≤ b.toNat) := by
      rw [List.pairwise_iff_getElem]
      intro i j hi hj hij
      have := cmpTag_le (e3 i j (by simpa using hj) hij)
      simpa using this
    have hpw' := hpw
    rw [hdrop] at hpw'
    obtain ⟨k, out, f1, f2, f3⟩ := dedupLoop_ok (tags.size - 1) 1 1 ys[0] ys (by omega) (by omega) (by omega)
      (List.pairwise_cons.1 hpw').2 (List.pairwise_cons.1 hpw').1
      (by rw [hdrop]; simp) (by rw [hdrop]; simp)
    refine ⟨out.take k, ?_, by simpa using f2, fun t => ?_⟩
    · simp only [e1, Option.bind_eq_bind, Option.bind_some, Array.getElem?_eq_getElem h0, f1]
    · have : (out.take k).toList = out.toList.take k := by simp
      rw [this, f3, ← (Array.perm_iff_toList_perm.1 e2).mem_iff]
      constructor
      · rintro (a | a)
        · exact List.mem_of_mem_take a
        · exact List.mem_of_mem_drop a
      · intro a
        rw [hdrop, List.mem_cons] at a
        rcases a with a | a
        · left; rw [hdrop]; simp [a]
        · exact .inr a
  · rw [if_neg hs]
    refine ⟨tags, rfl, ?_, fun t => Iff.rfl⟩
    match h : tags.toList with
    | [] => exact List.Pairwise.nil
    | [a] => exact List.pairwise_singleton _ _
    | a :: b :: l =>
      have : tags.size = l.length + 2 := by rw [← Array.length_toList, h]; rfl
      omega

/-! ## Flattening -/

/-- The first `i` tags of `dst` are `L`. -/
structure Wrote (n : Nat) (L : List UInt32) (dst : Array UInt32) (i : Nat) : Prop where
  size : dst.size = n
  idx : i = L.length
  pre : dst.toList.take i = L

theorem put_ok {n : Nat} {L : List UInt32} {dst : Array UInt32} {i : Nat} (h : Wrote n L dst i) (t : UInt32) (hl : L.length < n) :
    ∃ dst', put dst i t = some (dst', i + 1) ∧ Wrote n (L ++ [t]) dst' (i + 1) := by
  have hi : i < dst.size := by rw [h.size, h.idx]; exact hl
  refine ⟨dst.set! i t, by rw [put, if_pos hi], by simp [h.size], by simp [h.idx], ?_⟩
  rw [Array.set!_eq_setIfInBounds, Array.toList_setIfInBounds, List.take_add_one, List.take_set_of_le (Nat.le_refl _), h.pre]
  simp [hi]

theorem copyRest_ok {n : Nat} (us : List UInt32) : ∀ {L : List UInt32} {dst : Array UInt32} {i : Nat}, Wrote n L dst i →
    L.length + us.length = n → ∃ out, copyRest us dst i = some out ∧ out.toList = L ++ us := by
  induction us with
  | nil =>
    intro L dst i h hl
    refine ⟨dst, rfl, ?_⟩
    have := h.pre
    rw [List.take_of_length_le (by simp [h.size, h.idx]; simp at hl; omega)] at this
    simpa using this
  | cons u us ih =>
    intro L dst i h hl
    obtain ⟨dst', e1, h'⟩ := put_ok h u (by simp at hl; omega)
    obtain ⟨out, e2, h2⟩ := ih h' (by simp at hl ⊢; omega)
    refine ⟨out, ?_, by simpa using h2⟩
    rw [copyRest, e1, Option.bind_eq_bind, Option.bind_some]
    exact e2

theorem copyBelow_ok {n : Nat} (limit : UInt32) (us : List UInt32) : ∀ {L : List UInt32} {dst : Array UInt32} {i : Nat}, Wrote n L dst i →
    L.length + us.length ≤ n → us.Pairwise (· < ·) →
    ∃ below rest dst' i', us = below ++ rest ∧ copyBelow limit us dst i = some (rest, dst', i') ∧ Wrote n (L ++ below) dst' i' ∧
      (∀ t ∈ below, t < limit) ∧ (∀ t ∈ rest, ¬ t < limit) := by
  induction us with
  | nil =>
    intro L dst i h hl _
    exact ⟨[], [], dst, i, rfl, rfl, by simpa using h, by simp, by simp⟩
  | cons u us ih =>
    intro L dst i h hl hp
    rw [copyBelow]
    by_cases hu : u < limit
    · rw [if_pos hu]
      obtain ⟨dst', e1, h'⟩ := put_ok h u (by simp at hl; omega)
      obtain ⟨b, r, dst2, i2, e2, e3, h2, hb, hr⟩ := ih h' (by simp at hl ⊢; omega) (List.pairwise_cons.1 hp).2
      refine ⟨u :: b, r, dst2, i2, by rw [e2]; rfl, ?_, by simpa using h2, ?_, hr⟩
      · rw [e1, Option.bind_eq_bind, Option.bind_some]
        exact e3
      · intro t ht
        rcases List.mem_cons.1 ht with rfl | ht
        · exact hu
        · exact hb t ht
    · rw [if_neg hu]
      refine ⟨[], u :: us, dst, i, rfl, rfl, by simpa using h, by simp, ?_⟩
      intro t ht
      rcases List.mem_cons.1 ht with rfl | ht
      · exact hu
      · have h1 := (List.pairwise_cons.1 hp).1 t ht
        intro h2
        exact hu (UInt32.lt_trans h1 h2)

theorem mergeLoop_ok {d : Dict} (hd : Good d) {n : Nat} (ids : List Nat) : ∀ {us L : List UInt32} {dst : Array UInt32} {i : Nat},
    Wrote n L dst i → L.length + ids.length + us.length = n → us.Pairwise (· < ·) → ids.Pairwise (· < ·) →
    (∀ k ∈ ids, k < d.tags.size) → (∀ t ∈ us, t ∉ d.tags) →
    ∃ out M, mergeLoop d.tags ids us dst i = some out ∧ out.toList = L ++ M ∧ M.Pairwise (· < ·) ∧
      ∀ t, t ∈ M ↔ t ∈ ids.map (tagOf d) ∨ t ∈ us := by
  induction ids with
  | nil =>
    intro us L dst i h hl hp _ _ _
    obtain ⟨out, e1, e2⟩ := copyRest_ok us h (by simpa using hl)
    exact ⟨out, us, by rw [mergeLoop]; exact e1, e2, hp, by simp⟩
  | cons k ids ih =>
    intro us L dst i h hl hp hids hk hu
    have hkl := hk k List.mem_cons_self
    have hids1 := (List.pairwise_cons.1 hids).1
    have hkt : d.tags[k]? = some (tagOf d k) := by simp [tagOf, Array.getD_eq_getD_getElem?, hkl]
    have hkm : tagOf d k ∈ d.tags := Array.mem_of_getElem? hkt
    obtain ⟨b, r, dst1, i1, e0, e1, h1, hb, hr⟩ := copyBelow_ok (tagOf d k) us h (by simp at hl; omega) hp
    subst e0
    obtain ⟨hpb, hpr, hbr⟩ := List.pairwise_append.1 hp
    obtain ⟨dst2, e2, h2⟩ := put_ok h1 (tagOf d k) (by simp at hl ⊢; omega)
    obtain ⟨out, M, e3, e4, hM, hmem⟩ := ih h2 (by simp at hl ⊢; omega) hpr (List.pairwise_cons.1 hids).2
      (fun x hx => hk x (List.mem_cons_of_mem _ hx)) (fun t ht => hu t (List.mem_append.2 (.inr ht)))
    refine ⟨out, b ++ tagOf d k :: M, ?_, ?_, ?_, ?_⟩
    · simp only [mergeLoop, hkt, Option.bind_eq_bind, Option.bind_some, e1, e2, e3]
    · rw [e4]; simp
    · have hMgt : ∀ t ∈ M, tagOf d k < t := by
        intro t ht
        rcases (hmem t).1 ht with a | a
        · obtain ⟨x, hx, rfl⟩ := List.mem_map.1 a
          exact tagOf_lt hd (hids1 x hx) (hk x (List.mem_cons_of_mem _ hx))
        · have h1 := hr t a
          have h2 : t ≠ tagOf d k := by
            rintro rfl
            exact hu _ (List.mem_append.2 (.inr a)) hkm
          rw [UInt32.lt_iff_toNat_lt] at h1 ⊢
          have h3 : t.toNat ≠ (tagOf d k).toNat := fun h => h2 (UInt32.toNat_inj.1 h)
          omega
      rw [List.pairwise_append]
      refine ⟨hpb, List.pairwise_cons.2 ⟨hMgt, hM⟩, ?_⟩
      intro x hx y hy
      rcases List.mem_cons.1 hy with rfl | hy
      · exact hb x hx
      · exact UInt32.lt_trans (hb x hx) (hMgt y hy)
    · intro t
      simp only [List.mem_append, List.mem_cons, List.map_cons, hmem]
      tauto

end Blend2D.FontTag
