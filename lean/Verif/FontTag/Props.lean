import Verif.FontTag.Sets
/-! # C43: font tags are identified exactly, and a face lists its tags once, in order -/
namespace Blend2D.FontTag
open Spec Blend2D.Algo Blend2D.BitOps

/-- C43: every dictionary identifies exactly its own tags: the result of the hash lookup is the position of the tag in the table, or
"unknown" when the table does not have it, for every 32-bit tag, without an access outside the tables. -/
theorem C43_lookup (tag : UInt32) :
    (∃ id, tableToId tag = some id ∧ IsId tableTags tag id) ∧
    (∃ id, scriptToId tag = some id ∧ IsId scriptTags tag id) ∧
    (∃ id, featureToId tag = some id ∧ IsId featureTags tag id) ∧
    (∃ id, baselineToId tag = some id ∧ IsId baselineTags tag id) ∧
    (∃ id, variationToId tag = some id ∧ IsId variationTags tag id) :=
  ⟨table_id tag, script_id tag, feature_id tag, baseline_id tag, variation_id tag⟩

/-- 'kern' is feature 150; 'zzzz' is no feature. -/
example : featureTags[150]? = some 0x6B65726E ∧ featureToId 0x6B65726E = some 150 ∧ featureToId 0x7A7A7A7A = some 0xFFFFFFFF := by
  decide +kernel

/-- C43: a tag is accepted as valid exactly when its four characters are printable ASCII. -/
theorem C43_valid_tag (tag : UInt32) : isValidTag tag = true ↔ Printable tag := valid_iff tag

example : isValidTag 0x6B65726E = true ∧ isValidTag 0x6B65727F = false ∧ isValidTag 0x1F65726E = false ∧ isValidTag 0xFFFFFFFF = false := by
  decide

/-- The dictionaries a tag set is built on. -/
def dicts : List Dict := [scripts, features, baselines, variations]

theorem good_of_mem {d : Dict} (h : d ∈ dicts) : Good d := by
  simp only [dicts, List.mem_cons, List.not_mem_nil, or_false] at h
  rcases h with rfl | rfl | rfl | rfl
  · exact good_scripts
  · exact good_features
  · exact good_baselines
  · exact good_variations

/-- What a finished tag set holds. -/
theorem collect_ok {d : Dict} (hd : Good d) (ts : List UInt32) (hn : ts.length < 2 ^ 64) :
    ∃ s, collectTags d ts = some s ∧ s.known.length = (d.tags.size + 63) / 64 ∧
      (∀ i, bitAt .lsb s.known i = true ↔ i < d.tags.size ∧ tagOf d i ∈ ts) ∧
      s.knownCount = (knownIds d ts).length ∧ s.unknown.toList.Pairwise (· < ·) ∧
      ∀ t, t ∈ s.unknown.toList ↔ t ∈ ts ∧ t ∉ d.tags := by
  obtain ⟨s, e1, h⟩ := add_all hd ts (inv_empty d)
  rw [List.nil_append] at h
  have hsz : s.unknown.size < 2 ^ 64 := by
    have := List.length_filter_le (fun t => decide (t ∉ d.tags)) ts
    rw [← h.unknown, Array.length_toList] at this
    omega
  obtain ⟨u, e2, h1, h2⟩ := finalizeTagArray_ok s.unknown hsz
  refine ⟨{ s with unknown := u }, ?_, h.len, h.bits, h.count, h1, fun t => ?_⟩
  · rw [collectTags, e1, Option.bind_eq_bind, Option.bind_some, TagSet.finalize, e2]
    rfl
  · rw [h2, h.unknown, List.mem_filter, decide_eq_true_iff]

theorem ids_eq {d : Dict} {ts : List UInt32} {known : List (BitVec 64)} (hl : known.length = (d.tags.size + 63) / 64)
    (hb : ∀ i, bitAt .lsb known i = true ↔ i < d.tags.size ∧ tagOf d i ∈ ts) :
    (List.range' 0 (known.length * 64 - 0)).filter (bitAt .lsb known) = knownIds d ts := by
  rw [← List.range_eq_range', Nat.sub_zero, knownIds]
  have hle : d.tags.size ≤ known.length * 64 := by rw [hl]; omega
  obtain ⟨m, hm⟩ : ∃ m, known.length * 64 = d.tags.size + m := ⟨known.length * 64 - d.tags.size, by omega⟩
  rw [hm, List.range_add, List.filter_append]
  have h2 : ((List.range m).map (d.tags.size + ·)).filter (bitAt .lsb known) = [] := by
    rw [List.filter_eq_nil_iff]
    intro x hx hc
    obtain ⟨y, _, rfl⟩ := List.mem_map.1 hx
    have := ((hb _).1 hc).1
    omega
  rw [h2, List.append_nil]
  apply List.filter_congr
  intro i hi
  rw [Bool.eq_iff_iff, hb, decide_eq_true_iff]
  have := List.mem_range.1 hi
  tauto

/-- C43: whatever tags a font declares (in whatever order and however often), the list of tags a face returns has each of them once, in
increasing order, and nothing else; the storage handed out for the result is filled exactly, whatever it held before. -/
theorem C43_get_tags (d : Dict) (hd : d ∈ dicts) (ts : List UInt32) (hn : ts.length < 2 ^ 64)
    (storage : Nat → Array UInt32) (hs : ∀ n, (storage n).size = n) :
    ∃ s out, collectTags d ts = some s ∧ s.flatten d storage = some out ∧ Lists out ts := by
  have hg := good_of_mem hd
  obtain ⟨s, e1, hl, hb, hc, hp, hm⟩ := collect_ok hg ts hn
  obtain ⟨it, f1, f2⟩ := C41_iterator .lsb (by omega : 0 < 64) s.known 0
  rw [ids_eq hl hb] at f2
  have hids : (knownIds d ts).Pairwise (· < ·) := List.pairwise_lt_range.filter _
  have hidl : ∀ k ∈ knownIds d ts, k < d.tags.size := fun k hk => List.mem_range.1 (List.mem_filter.1 hk).1
  obtain ⟨out, M, g1, g2, g3, g4⟩ := mergeLoop_ok hg (n := s.knownCount + s.unknown.size) (knownIds d ts) (us := s.unknown.toList) (L := [])
    (dst := storage (s.knownCount + s.unknown.size)) (i := 0) ⟨hs _, rfl, rfl⟩ (by simp [hc]) hp hids hidl
    (fun t ht => ((hm t).1 ht).2)
  refine ⟨s, out, e1, ?_, ?_⟩
  · simp only [TagSet.flatten, f1, Option.bind_eq_bind, Option.bind_some, f2, g1]
  · rw [List.nil_append] at g2
    refine ⟨by rw [g2]; exact g3, fun t => ?_⟩
    rw [← Array.mem_toList_iff, g2, g4, hm, List.mem_map]
    constructor
    · rintro (⟨k, hk, rfl⟩ | h)
      · exact of_decide_eq_true (List.mem_filter.1 hk).2
      · exact h.1
    · intro ht
      rcases known_cases hg t with ⟨i, hi, hti, -⟩ | ⟨hnm, -⟩
      · exact .inl ⟨i, List.mem_filter.2 ⟨List.mem_range.2 hi, decide_eq_true (hti ▸ ht)⟩, hti⟩
      · exact .inr ⟨ht, hnm⟩

/-- A font that declares `kern`, an unknown tag twice, `liga` and an unknown tag that sorts last. -/
example : ((collectTags features [0x6B65726E, 0x41414141, 0x6C696761, 0x41414141, 0x7A7A7A7A]).bind fun s =>
    s.flatten features (fun n => Array.replicate n 7)) = some #[0x41414141, 0x6B65726E, 0x6C696761, 0x7A7A7A7A] := by
  decide +kernel

/-- C43: asking whether a face has a tag never reads outside the set, and for a tag of the dictionary the answer is right. What is missing
is the case of a tag that is not in the dictionary: see `C43_has_unknown_tag_counterexample`. -/
theorem C43_has_tag_partial (d : Dict) (hd : d ∈ dicts) (ts : List UInt32) (hn : ts.length < 2 ^ 64) (tag : UInt32) :
    ∃ s b, collectTags d ts = some s ∧ s.hasTag d tag = some b ∧
      (tag ∈ d.tags → (b = true ↔ tag ∈ ts)) ∧ (tag ∉ ts → b = false) := by
  have hg := good_of_mem hd
  obtain ⟨s, e1, hl, hb, hc, hp, hm⟩ := collect_ok hg ts hn
  rcases known_cases hg tag with ⟨i, hi, hti, hid, hne, hnat, hmem⟩ | ⟨hnm, hid⟩
  · refine ⟨s, bitAt .lsb s.known i, e1, ?_, ?_, ?_⟩
    · rw [TagSet.hasTag, hid, Option.bind_eq_bind, Option.bind_some, if_pos hne, hnat, bitAtIdx_eq _ _ (by rw [hl]; omega)]
    · intro _
      rw [hb, hti]
      exact ⟨And.right, fun h => ⟨hi, h⟩⟩
    · intro h
      rw [Bool.eq_false_iff]
      intro hc
      exact h (hti ▸ ((hb i).1 hc).2)
  · obtain ⟨k, f1, f2⟩ := C14_lower_bound_safe s.unknown s.unknown.size (Nat.le_refl _) kInvalidId (fun a b => decide (a < b))
    by_cases hk : k < s.unknown.size
    · refine ⟨s, s.unknown[k] == tag, e1, ?_, fun h => absurd h hnm, ?_⟩
      · simp only [TagSet.hasTag, hid, Option.bind_eq_bind, Option.bind_some, ne_eq, not_true_eq_false, ↓reduceIte, f1, hk,
          Array.getElem?_eq_getElem hk]
      · intro h
        rw [beq_eq_false_iff_ne]
        rintro rfl
        exact h ((hm _).1 (Array.mem_toList_iff.2 (Array.getElem_mem hk))).1
    · refine ⟨s, false, e1, ?_, fun h => absurd h hnm, fun _ => rfl⟩
      simp only [TagSet.hasTag, hid, Option.bind_eq_bind, Option.bind_some, ne_eq, not_true_eq_false, ↓reduceIte, f1, hk]

/-- C43: the code searches the unknown tags for the invalid identifier instead of the tag, so a face never admits to have a tag outside the
dictionary (other than `0xFFFFFFFF`, which is no valid tag) even when the font declares it and the list of tags contains it. -/
theorem C43_has_unknown_tag_counterexample (d : Dict) (hd : d ∈ dicts) (ts : List UInt32) (hn : ts.length < 2 ^ 64) (tag : UInt32)
    (ht : tag ∉ d.tags) (hv : tag ≠ 0xFFFFFFFF) :
    ∃ s, collectTags d ts = some s ∧ s.hasTag d tag = some false := by
  have hg := good_of_mem hd
  obtain ⟨s, e1, hl, hb, hc, hp, hm⟩ := collect_ok hg ts hn
  refine ⟨s, e1, ?_⟩
  rcases known_cases hg tag with ⟨_, _, _, _, _, _, hmem⟩ | ⟨hnm, hid⟩
  · exact absurd hmem ht
  have hpw := List.pairwise_iff_getElem.1 hp
  obtain ⟨k, f1, f2, f3, f4⟩ := C14_lower_bound s.unknown kInvalidId (fun a b => decide (a < b)) (by
    intro i j hj hij h
    simp only [decide_eq_true_iff] at h ⊢
    rcases Nat.lt_or_eq_of_le hij with hlt | rfl
    · have h0 := hpw i j (by simpa using Nat.lt_trans hlt hj) (by simpa using hj) hlt
      rw [Array.getElem_toList, Array.getElem_toList] at h0
      exact UInt32.lt_trans h0 h
    · exact h)
  by_cases hk : k < s.unknown.size
  · have h1 := f4 k hk (Nat.le_refl _)
    rw [decide_eq_false_iff_not, UInt32.lt_iff_toNat_lt] at h1
    have h2 : s.unknown[k] = 0xFFFFFFFF := by
      rw [← UInt32.toNat_inj]
      have h3 := s.unknown[k].toNat_lt
      have h4 : kInvalidId.toNat = 2 ^ 32 - 1 := rfl
      have h5 : (0xFFFFFFFF : UInt32).toNat = 2 ^ 32 - 1 := rfl
      omega
    have h3 : (s.unknown[k] == tag) = false := by
      rw [beq_eq_false_iff_ne, h2]
      exact Ne.symm hv
    simp only [TagSet.hasTag, hid, Option.bind_eq_bind, Option.bind_some, ne_eq, not_true_eq_false, ↓reduceIte, f1, hk,
      Array.getElem?_eq_getElem hk, h3]
  · simp only [TagSet.hasTag, hid, Option.bind_eq_bind, Option.bind_some, ne_eq, not_true_eq_false, ↓reduceIte, f1, hk]

/-- The unknown tag 'AAAA' is declared and listed, but denied. -/
example : ((collectTags features [0x6B65726E, 0x41414141]).bind fun s => do
    let l ← s.flatten features (fun n => Array.replicate n 0)
    let a ← s.hasTag features 0x6B65726E
    let b ← s.hasTag features 0x41414141
    some (l, a, b)) = some (#[0x41414141, 0x6B65726E], true, false) := by
  decide +kernel

end Blend2D.FontTag
