import Verif.FontData.Spec
import Verif.FaceMetrics.Lemmas
import Verif.FontTag.Lookup
/-! Font data: directories, and looking up tables. -/
namespace Blend2D.FontData
open Blend2D.Kern (u16 u32)
open Blend2D.FontTag (tableToId kInvalidId tableTags)
open Blend2D.FaceMetrics.Spec (word long)
open Blend2D

theorem u32_long {l : List UInt8} {o : Nat} (h : o + 4 ≤ l.length) : u32 l o = some (long l o) := by
  rw [← Glyf.field4, Glyf.Spec.field, if_pos h]; rfl

theorem u16_word {l : List UInt8} {o : Nat} (h : o + 2 ≤ l.length) : u16 l o = some (word l o) := by
  rw [← Glyf.field2, Glyf.Spec.field, if_pos h]; rfl

theorem long_lt {l : List UInt8} {o : Nat} (h : o + 4 ≤ l.length) : long l o < 2 ^ 32 := by
  obtain ⟨v, h1, h2⟩ := Kern.u32_some h
  rw [u32_long h] at h1
  exact (Option.some.inj h1) ▸ h2

theorem isVersion_iff (t : Nat) : isVersion t = true ↔ t ∈ Spec.signatures := by
  simp only [isVersion, Spec.signatures, Bool.or_eq_true, decide_eq_true_eq, List.mem_cons, List.not_mem_nil, or_false]
  tauto

theorem create_spec (d : List UInt8) :
    (Spec.Accepted d → create d = some (.ok ⟨d, Spec.faces d, if Spec.collection d then 12 else 0⟩)) ∧
    (¬Spec.Accepted d → ∃ e, create d = some (.error e)) := by
  unfold Spec.Accepted create
  by_cases h1 : d.length < 12
  · rw [if_pos h1]
    exact ⟨fun h => absurd h.1 (by omega), fun _ => ⟨_, rfl⟩⟩
  rw [if_neg h1]
  by_cases h2 : d.length > 0xFFFFFFFF
  · rw [if_pos h2]
    exact ⟨fun h => absurd h.2.1 (by omega), fun _ => ⟨_, rfl⟩⟩
  rw [if_neg h2, u32_long (by omega), u32_long (by omega), u32_long (by omega)]
  simp only [Option.bind_eq_bind, Option.bind_some]
  by_cases hc : Spec.collection d = true
  · have hc' : long d 0 = 0x74746366 := by simpa [Spec.collection] using hc
    have hf : Spec.faces d = long d 8 := by unfold Spec.faces; rw [if_pos hc]
    rw [if_pos hc', hc]
    simp only [if_true, hf]
    by_cases h3 : long d 8 = 0 ∨ long d 8 > 256
    · rw [if_pos h3]
      exact ⟨fun h => by omega, fun _ => ⟨_, rfl⟩⟩
    · rw [if_neg h3]
      by_cases h4 : 12 + (if long d 4 ≥ 0x20000 then 12 else 0) + long d 8 * 4 > d.length
      · rw [if_pos h4]
        exact ⟨fun h => by have := h.2.2.2.2; simp only [ge_iff_le] at h4; omega, fun _ => ⟨_, rfl⟩⟩
      · rw [if_neg h4]
        refine ⟨fun _ => rfl, fun h => absurd ⟨by omega, by omega, by omega, by omega, ?_⟩ h⟩
        simp only [ge_iff_le] at h4; omega
  · have hc' : ¬ long d 0 = 0x74746366 := by simpa [Spec.collection] using hc
    have hf : Spec.faces d = 1 := by unfold Spec.faces; rw [if_neg hc]
    rw [if_neg hc', if_neg hc, if_neg hc, hf]
    by_cases hv : isVersion (long d 0) = false
    · rw [if_pos hv]
      refine ⟨fun h => ?_, fun _ => ⟨_, rfl⟩⟩
      rw [(isVersion_iff _).2 h.2.2] at hv
      cases hv
    · rw [if_neg hv]
      exact ⟨fun _ => rfl, fun h => absurd ⟨by omega, by omega, (isVersion_iff _).1 (by simpa using hv)⟩ h⟩

/-- Data that was created. -/
structure Made (D : Data) (d : List UInt8) : Prop where
  acc : Spec.Accepted d
  eq : D = ⟨d, Spec.faces d, if Spec.collection d then 12 else 0⟩

theorem made {d : List UInt8} {D : Data} (h : create d = some (.ok D)) : Made D d := by
  by_cases ha : Spec.Accepted d
  · rw [(create_spec d).1 ha] at h
    exact ⟨ha, (Except.ok.inj (Option.some.inj h)).symm⟩
  · obtain ⟨e, he⟩ := (create_spec d).2 ha
    rw [he] at h
    cases Option.some.inj h

theorem directory_spec {d : List UInt8} {D : Data} (h : Made D d) {i : Nat} (hi : i < Spec.faces d) :
    directory D i = some ((Spec.records d i).map fun l => (Spec.header d i, l.length)) ∧
    ∀ l, Spec.records d i = some l → Spec.header d i + 12 + 16 * l.length ≤ d.length ∧
      l = (List.range l.length).map (Spec.record d (Spec.header d i)) := by
  obtain ⟨ha, rfl⟩ := h
  obtain ⟨h1, h2, h3⟩ := ha
  have hoff : headerOffset ⟨d, Spec.faces d, if Spec.collection d = true then 12 else 0⟩ i = some (Spec.header d i) := by
    unfold headerOffset
    unfold Spec.header
    by_cases hc : Spec.collection d = true
    · rw [if_pos hc] at h3
      simp only [if_pos hc]
      rw [if_pos (by omega), u32_long (by omega), Nat.mul_comm]
    · simp only [if_neg hc]
      rw [if_neg (by omega)]
  have hr : Spec.records d i = if i < Spec.faces d ∧ Spec.header d i + 12 ≤ d.length ∧ long d (Spec.header d i) ∈ Spec.signatures ∧
      Spec.header d i + 12 + 16 * word d (Spec.header d i + 4) ≤ d.length then
      some ((List.range (word d (Spec.header d i + 4))).map (Spec.record d (Spec.header d i))) else none := rfl
  constructor
  swap
  · intro l hl
    rw [hr] at hl
    split at hl
    · rename_i hx
      obtain rfl := Option.some.inj hl
      simp only [List.length_map, List.length_range]
      exact ⟨hx.2.2.2, trivial⟩
    · cases hl
  unfold directory
  have e12 : (d.length + 2 ^ 64 - 12) % 2 ^ 64 = d.length - 12 := by omega
  rw [hoff]
  simp only [Option.bind_some, e12]
  by_cases hb : Spec.header d i + 12 ≤ d.length
  · have eo : (d.length + 2 ^ 64 - Spec.header d i) % 2 ^ 64 = d.length - Spec.header d i := by omega
    rw [if_pos (by omega), u32_long (by omega), u16_word (by omega), eo]
    simp only [Option.bind_some]
    by_cases hv : isVersion (long d (Spec.header d i)) = true
    · rw [if_pos hv]
      by_cases hs : d.length - Spec.header d i ≥ 12 + word d (Spec.header d i + 4) * 16
      · rw [if_pos hs, hr, if_pos ⟨hi, hb, (isVersion_iff _).1 hv, by omega⟩]
        simp
      · rw [if_neg hs, hr, if_neg (by omega)]
        rfl
    · rw [if_neg hv, hr, if_neg (fun hx => hv ((isVersion_iff _).2 hx.2.2.1))]
      rfl
  · rw [if_neg (by omega), hr, if_neg (by omega)]
    rfl

theorem recAt_spec {d : List UInt8} {h k : Nat} (hl : h + 12 + 16 * (k + 1) ≤ d.length) :
    recAt d h k = some (Spec.record d h k) := by
  unfold recAt Spec.record
  rw [u32_long (by omega), u32_long (by omega), u32_long (by omega), Nat.mul_comm k 16]
  rfl

/-- Lists of consecutive records. -/
theorem range_cons (d : List UInt8) (h n k : Nat) :
    (List.range' k (n + 1)).map (Spec.record d h) = Spec.record d h k :: (List.range' (k + 1) n).map (Spec.record d h) := by
  rw [List.range'_succ, List.map_cons]

theorem readTags_spec {d : List UInt8} {h : Nat} (n k : Nat) (hl : h + 12 + 16 * (k + n) ≤ d.length) :
    readTags d h n k = some (((List.range' k n).map (Spec.record d h)).map (·.tag)) := by
  induction n generalizing k with
  | zero => rfl
  | succ n ih =>
    rw [readTags, recAt_spec (by omega), ih (k + 1) (by omega), range_cons]
    rfl

theorem inside_iff (d : List UInt8) (r : Rec) : inside d r = true ↔ r.length ≠ 0 ∧ r.offset + r.length ≤ d.length := by
  simp only [inside, Bool.and_eq_true, decide_eq_true_eq, bne_iff_ne]
  omega

theorem search_spec {d : List UInt8} {h : Nat} (t : UInt32) (n k : Nat) (hl : h + 12 + 16 * (k + n) ≤ d.length) :
    search d h t n k = some (Spec.table d ((List.range' k n).map (Spec.record d h)) t) := by
  induction n generalizing k with
  | zero => rfl
  | succ n ih =>
    rw [search, recAt_spec (by omega), ih (k + 1) (by omega), range_cons]
    simp only [Option.bind_eq_bind, Option.bind_some, Spec.table, List.find?_cons]
    by_cases ht : (Spec.record d h k).tag = t
    · rw [if_pos ht]
      simp only [ht, decide_true]
      congr 1
      by_cases hi : inside d (Spec.record d h k) = true
      · rw [if_pos hi, if_pos ((inside_iff _ _).1 hi)]
      · rw [if_neg hi, if_neg (fun hx => hi ((inside_iff _ _).2 hx))]
    · rw [if_neg ht]
      simp only [ht, decide_false]

theorem linear_spec {d : List UInt8} {h n : Nat} (ts : List UInt32) (hl : h + 12 + 16 * n ≤ d.length) :
    linear d h n ts = some (ts.map (Spec.table d ((List.range n).map (Spec.record d h))),
      ((ts.map (Spec.table d ((List.range n).map (Spec.record d h)))).filter Option.isSome).length) := by
  induction ts with
  | nil => rfl
  | cons t ts ih =>
    rw [linear, search_spec t n 0 (by omega), ih, List.range_eq_range']
    simp only [Option.bind_eq_bind, Option.bind_some, List.map_cons, List.filter_cons]
    split <;> simp

/-- The loop over the records, as a loop over a list. -/
def scanList (d : List UInt8) (idx : List Nat) : List Rec → Found → Option Found
  | [], f => some f
  | r :: rs, f => (scanRec d idx r f).bind (scanList d idx rs)

theorem scan_eq {d : List UInt8} {h : Nat} (idx : List Nat) (n k : Nat) (f : Found) (hl : h + 12 + 16 * (k + n) ≤ d.length) :
    scan d h idx n k f = scanList d idx ((List.range' k n).map (Spec.record d h)) f := by
  induction n generalizing k f with
  | zero => rfl
  | succ n ih =>
    have hk : h + 12 + 16 * (k + 1 + n) ≤ d.length := by omega
    have hr := recAt_spec (d := d) (h := h) (k := k) (by omega)
    rw [scan, hr, range_cons, scanList, Option.bind_some]
    exact congrArg (Option.bind _) (funext fun f' => ih (k + 1) f' hk)

/-- Identifiers: those of tags that are known are less than 72, and belong to one tag only. -/
theorem id_cases (t : UInt32) :
    (∃ i, i < 72 ∧ tableToId t = some (UInt32.ofNat i) ∧ (UInt32.ofNat i).toNat = i ∧ UInt32.ofNat i ≠ kInvalidId ∧
      tableTags[i]? = some t) ∨
    (t ∉ tableTags ∧ tableToId t = some kInvalidId) := by
  obtain ⟨id, h1, h2 | ⟨h2, rfl⟩⟩ := FontTag.table_id t
  · obtain ⟨i, h3, rfl, h4⟩ := h2
    have hi : i < 72 := by
      obtain ⟨hh, -⟩ := Array.getElem?_eq_some_iff.1 h3
      have : tableTags.size = 72 := by decide +kernel
      omega
    have hn : (UInt32.ofNat i).toNat = i := UInt32.toNat_ofNat_of_lt' (by rw [UInt32.size]; omega)
    refine .inl ⟨i, hi, h1, hn, ?_, h3⟩
    intro hc
    rw [hc] at hn
    have : kInvalidId.toNat = 4294967295 := rfl
    omega
  · exact .inr ⟨h2, h1⟩

/-- The tags are different. -/
theorem tag_inj {k a : Nat} {t : UInt32} (hk : tableTags[k]? = some t) (ha : tableTags[a]? = some t) : k = a := by
  obtain ⟨hp, -⟩ := Array.getElem?_eq_some_iff.1 hk
  obtain ⟨hq, -⟩ := Array.getElem?_eq_some_iff.1 ha
  have hs : tableTags.size = 72 := by decide +kernel
  have h1 := FontTag.table_finds k hp
  have h2 := FontTag.table_finds a hq
  rw [Array.getD_eq_getD_getElem?, hk, Option.getD_some] at h1
  rw [Array.getD_eq_getD_getElem?, ha, Option.getD_some, h1] at h2
  have h3 := congrArg UInt32.toNat (Option.some.inj h2)
  rwa [UInt32.toNat_ofNat_of_lt' (by rw [UInt32.size]; omega), UInt32.toNat_ofNat_of_lt' (by rw [UInt32.size]; omega)] at h3

/-- What the index says after it was built. -/
theorem build_spec (ts : List UInt32) (i : Nat) (idx : List Nat) (hl : idx.length = 80) (hi : i + ts.length ≤ 255) :
    (∃ t ∈ ts, t ∉ tableTags) ∧ build ts i idx = some none ∨
    (∀ t ∈ ts, t ∈ tableTags) ∧ ∃ idx', build ts i idx = some (some idx') ∧ idx'.length = 80 ∧
      ∀ k, k < 80 →
        (∃ j t, ts[j]? = some t ∧ tableTags[k]? = some t ∧ idx'[k]? = some (i + j)) ∨
        ((∀ t ∈ ts, tableTags[k]? ≠ some t) ∧ idx'[k]? = idx[k]?) := by
  induction ts generalizing i idx with
  | nil => exact .inr ⟨by simp, idx, rfl, hl, fun k _ => .inr ⟨by simp, rfl⟩⟩
  | cons t ts ih =>
    simp only [List.length_cons] at hi
    rw [build]
    rcases id_cases t with ⟨a, ha, h1, hn, hne, ht⟩ | ⟨hnot, h1⟩
    · simp only [h1, Option.bind_some, if_neg hne, hn, if_pos (show a < idx.length by omega),
        Nat.mod_eq_of_lt (show i < 256 by omega)]
      rcases ih (i + 1) (idx.set a i) (by rw [List.length_set, hl]) (by omega) with ⟨⟨t', ht', hk⟩, hb⟩ | ⟨hk, idx', hb, hl', hs⟩
      · exact .inl ⟨⟨t', List.mem_cons_of_mem _ ht', hk⟩, hb⟩
      · refine .inr ⟨?_, idx', hb, hl', ?_⟩
        · intro x hx
          rcases List.mem_cons.1 hx with rfl | hx
          · exact Array.mem_of_getElem? ht
          · exact hk x hx
        · intro k hk80
          rcases hs k hk80 with ⟨j, x, e1, e2, e3⟩ | ⟨e1, e2⟩
          · exact .inl ⟨j + 1, x, by simpa using e1, e2, by rw [e3, Nat.add_assoc, Nat.add_comm 1 j]⟩
          · by_cases hka : k = a
            · subst hka
              have e3 : (idx.set k i)[k]? = some i := List.getElem?_set_self (by rw [hl]; exact hk80)
              have e4 : idx'[k]? = some (i + 0) := (e2.trans e3).trans (congrArg some (Nat.add_zero i).symm)
              have e5 : (t :: ts)[0]? = some t := List.getElem?_cons_zero
              exact .inl ⟨0, t, e5, ht, e4⟩
            · refine .inr ⟨?_, by rw [e2, List.getElem?_set_ne (fun hh => hka hh.symm)]⟩
              intro x hx
              rcases List.mem_cons.1 hx with rfl | hx
              · intro hc
                apply hka
                exact tag_inj hc ht
              · exact e1 x hx
    · simp only [h1, Option.bind_some]
      exact .inl ⟨⟨t, List.mem_cons_self .., hnot⟩, by rw [if_pos trivial]⟩

/-- A record when the index is that of the tags: it sets the table of one of the tags that are its own, or nothing. -/
theorem scanRec_spec (d : List UInt8) {ts : List UInt32} {idx : List Nat} (hn : ts.length < 255)
    (hk : ∀ t ∈ ts, t ∈ tableTags)
    (hs : ∀ k, k < 80 → (∃ j t, ts[j]? = some t ∧ tableTags[k]? = some t ∧ idx[k]? = some j) ∨
      ((∀ t ∈ ts, tableTags[k]? ≠ some t) ∧ idx[k]? = some 255))
    (r : Rec) (f : Found) (hf : f.1.length = ts.length) :
    (∃ j, ts[j]? = some r.tag ∧ scanRec d idx r f =
      some (if inside d r then (f.1.set j (some (r.offset, r.length)), f.2 + 1) else f)) ∨
    (r.tag ∉ ts ∧ scanRec d idx r f = some f) := by
  unfold scanRec
  rcases id_cases r.tag with ⟨a, ha, h1, hna, hne, ht⟩ | ⟨hnot, h1⟩
  · rw [h1, Option.bind_some, if_neg hne, hna]
    rcases hs a (Nat.lt_trans ha (by decide)) with ⟨j, t, e1, e2, e3⟩ | ⟨e1, e2⟩
    · have htt : t = r.tag := Option.some.inj (e2.symm.trans ht)
      have hj : j < ts.length := (List.getElem?_eq_some_iff.1 e1).1
      refine .inl ⟨j, by rw [e1, htt], ?_⟩
      rw [e3, Option.bind_some, if_pos (Nat.ne_of_lt (Nat.lt_trans hj hn)), if_pos (show j < f.1.length by rw [hf]; exact hj)]
      by_cases hi : inside d r = true
      · simp only [if_pos hi]
      · simp only [if_neg hi]
    · refine .inr ⟨fun hm => e1 _ hm ht, ?_⟩
      rw [e2, Option.bind_some, if_neg (by decide)]
  · refine .inr ⟨fun hm => hnot (hk _ hm), ?_⟩
    rw [h1, Option.bind_some, if_pos rfl]

/-- Every table that is found is in the data. -/
def Inside (d : List UInt8) (f : Found) : Prop := ∀ e ∈ f.1, ∀ o s, e = some (o, s) → 0 < s ∧ o + s ≤ d.length

theorem scanList_safe (d : List UInt8) {ts : List UInt32} {idx : List Nat} (hn : ts.length < 255)
    (hk : ∀ t ∈ ts, t ∈ tableTags)
    (hs : ∀ k, k < 80 → (∃ j t, ts[j]? = some t ∧ tableTags[k]? = some t ∧ idx[k]? = some j) ∨
      ((∀ t ∈ ts, tableTags[k]? ≠ some t) ∧ idx[k]? = some 255))
    (rs : List Rec) (f : Found) (hf : f.1.length = ts.length) (hi : Inside d f) :
    ∃ f', scanList d idx rs f = some f' ∧ f'.1.length = ts.length ∧ Inside d f' := by
  induction rs generalizing f with
  | nil => exact ⟨f, rfl, hf, hi⟩
  | cons r rs ih =>
    rw [scanList]
    rcases scanRec_spec d hn hk hs r f hf with ⟨j, -, h⟩ | ⟨-, h⟩
    · rw [h, Option.bind_some]
      split
      · rename_i hr
        refine ih _ (by rw [List.length_set]; exact hf) ?_
        intro e he o s hes
        rcases List.mem_or_eq_of_mem_set he with hm | rfl
        · exact hi e hm o s hes
        · have := (inside_iff d r).1 hr
          obtain ⟨rfl, rfl⟩ := Prod.mk.inj (Option.some.inj hes)
          exact ⟨Nat.pos_of_ne_zero this.1, this.2⟩
      · exact ih f hf hi
    · rw [h, Option.bind_some]
      exact ih f hf hi

/-- The number of tables that were found. -/
def found (l : List (Option (Nat × Nat))) : Nat := (l.filter Option.isSome).length

theorem found_set : ∀ (l : List (Option (Nat × Nat))) (j : Nat) (x : Nat × Nat), l[j]? = some none →
    found (l.set j (some x)) = found l + 1
  | [], _, _, h => by simp at h
  | e :: l, 0, x, h => by
    simp only [List.getElem?_cons_zero, Option.some.injEq] at h
    subst h
    simp [found]
  | e :: l, j + 1, x, h => by
    have := found_set l j x (by simpa using h)
    simp only [found, List.set_cons_succ, List.filter_cons] at this ⊢
    split <;> simp [this]

theorem table_none {d : List UInt8} {rs : List Rec} {t : UInt32} (h : t ∉ rs.map (·.tag)) : Spec.table d rs t = none := by
  have : rs.find? (·.tag = t) = none := by
    rw [List.find?_eq_none]
    intro r hr hc
    exact h (List.mem_map.2 ⟨r, hr, by simpa using hc⟩)
  unfold Spec.table
  rw [this]

theorem table_append_ne {d : List UInt8} {rs : List Rec} {r : Rec} {t : UInt32} (h : r.tag ≠ t) :
    Spec.table d (rs ++ [r]) t = Spec.table d rs t := by
  unfold Spec.table
  rw [List.find?_append]
  have : [r].find? (·.tag = t) = none := by simp [h]
  rw [this, Option.or_none]

theorem table_append_eq {d : List UInt8} {rs : List Rec} {r : Rec} (h : r.tag ∉ rs.map (·.tag)) :
    Spec.table d (rs ++ [r]) r.tag = if inside d r then some (r.offset, r.length) else none := by
  have h1 : rs.find? (·.tag = r.tag) = none := by
    rw [List.find?_eq_none]
    intro x hx hc
    exact h (List.mem_map.2 ⟨x, hx, by simpa using hc⟩)
  have h2 : (rs ++ [r]).find? (·.tag = r.tag) = some r := by
    rw [List.find?_append, h1]
    simp
  unfold Spec.table
  rw [h2]
  by_cases hi : inside d r = true
  · rw [if_pos hi]; exact if_pos ((inside_iff _ _).1 hi)
  · rw [if_neg hi]; exact if_neg (fun hx => hi ((inside_iff _ _).2 hx))

theorem scanList_spec (d : List UInt8) {ts : List UInt32} {idx : List Nat} (hn : ts.length < 255)
    (hk : ∀ t ∈ ts, t ∈ tableTags)
    (hs : ∀ k, k < 80 → (∃ j t, ts[j]? = some t ∧ tableTags[k]? = some t ∧ idx[k]? = some j) ∨
      ((∀ t ∈ ts, tableTags[k]? ≠ some t) ∧ idx[k]? = some 255))
    (hts : ts.Nodup) (rs done : List Rec) (hd : ((done ++ rs).map (·.tag)).Nodup) :
    scanList d idx rs (ts.map (Spec.table d done), found (ts.map (Spec.table d done))) =
      some (ts.map (Spec.table d (done ++ rs)), found (ts.map (Spec.table d (done ++ rs)))) := by
  induction rs generalizing done with
  | nil => rw [List.append_nil]; rfl
  | cons r rs ih =>
    have hd' : (((done ++ [r]) ++ rs).map (·.tag)).Nodup := by simpa using hd
    have hnew : r.tag ∉ done.map (·.tag) := by
      intro hc
      rw [List.map_append, List.nodup_append] at hd
      exact hd.2.2 _ hc _ (by simp) rfl
    have key : scanRec d idx r (ts.map (Spec.table d done), found (ts.map (Spec.table d done))) =
        some (ts.map (Spec.table d (done ++ [r])), found (ts.map (Spec.table d (done ++ [r])))) := by
      rcases scanRec_spec d hn hk hs r (ts.map (Spec.table d done), found (ts.map (Spec.table d done)))
        (List.length_map _) with ⟨j, hj, h⟩ | ⟨hnm, h⟩
      · rw [h]
        by_cases hi : inside d r = true
        · have hset : (ts.map (Spec.table d done)).set j (some (r.offset, r.length)) = ts.map (Spec.table d (done ++ [r])) := by
            apply List.ext_getElem?
            intro k
            by_cases hkj : j = k
            · subst hkj
              rw [List.getElem?_set_self (by rw [List.length_map]; exact (List.getElem?_eq_some_iff.1 hj).1), List.getElem?_map, hj,
                Option.map_some, table_append_eq hnew, if_pos hi]
            · rw [List.getElem?_set_ne hkj, List.getElem?_map, List.getElem?_map]
              cases hkt : ts[k]? with
              | none => rfl
              | some t =>
                rw [Option.map_some, Option.map_some, table_append_ne]
                intro hc
                apply hkj
                have h1 := List.getElem?_eq_some_iff.1 hj
                have h2 := List.getElem?_eq_some_iff.1 hkt
                exact (List.Nodup.getElem_inj_iff hts).1 (h1.2.trans (hc.trans h2.2.symm))
          rw [if_pos hi]
          have hf := found_set (ts.map (Spec.table d done)) j (r.offset, r.length)
            (by rw [List.getElem?_map, hj, Option.map_some, table_none hnew])
          rw [hset] at hf
          rw [hset, hf]
        · rw [if_neg hi]
          have : ts.map (Spec.table d done) = ts.map (Spec.table d (done ++ [r])) := by
            apply List.map_congr_left
            intro t _
            by_cases hc : r.tag = t
            · rw [← hc, table_none hnew, table_append_eq hnew, if_neg hi]
            · rw [table_append_ne hc]
          rw [← this]
      · rw [h]
        have : ts.map (Spec.table d done) = ts.map (Spec.table d (done ++ [r])) := by
          apply List.map_congr_left
          intro t ht
          rw [table_append_ne (fun hc => hnm (hc ▸ ht))]
        rw [← this]
    rw [scanList, key, Option.bind_some, ih (done ++ [r]) hd', List.append_assoc, List.singleton_append]

end Blend2D.FontData
