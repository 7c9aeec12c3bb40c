import Verif.Feature.Law
import Mathlib.Tactic.Tauto
/-! # The view of an instance -/
namespace Blend2D.Feature
open Blend2D.FontTag (isValidTag featureTags featureToId kInvalidId)
open Blend2D.Settings
open Blend2D.Settings.Spec (Map Lists nothing put)

attribute [local irreducible] encode featureToId

/-- The tags and values that follow. -/
def Next : UInt32 → UInt32 → List (UInt32 × UInt32) → Prop
  | tags, _, [] => tags &&& 255 = 255
  | tags, vals, p :: r => tags &&& 255 = p.1 ∧ vals &&& 15 = p.2 ∧ Next (tags >>> 8) (vals >>> 4) r

/-- The fat features the loop has still to deliver. -/
def Left (f : Fat) : List (UInt32 × UInt32) → Prop
  | [] => f.cur = 0xFFFFFFFF
  | p :: r => f.cur = p.1 ∧ f.vals &&& 15 = p.2 ∧ Next f.tags (f.vals >>> 4) r

theorem left_next {tags vals : UInt32} {F : List (UInt32 × UInt32)} (hF : FatOk F) (h : Next tags vals F) :
    Left ⟨orDummy (tags &&& 255), tags >>> 8, vals⟩ F := by
  cases F with
  | nil =>
    rw [Next] at h
    rw [Left, orDummy, if_pos h]
  | cons p r =>
    rw [Next] at h
    have hr := (hF.range p List.mem_cons_self).1
    refine ⟨?_, h.2⟩
    rw [orDummy, if_neg, h.1]
    rw [h.1]
    intro hc
    rw [hc] at hr
    revert hr; decide

/-- Its identifier and value as an item. -/
def item (p : UInt32 × UInt32) : Item UInt32 := (tagAt p.1, p.2)

theorem fatWhile_ok {b : UInt32} (hb : b.toNat < 241) : ∀ (F : List (UInt32 × UInt32)) (n : Nat) (f : Fat), FatOk F → F.length < n → Left f F →
    ∃ g, fatWhile b n f = some (g, (F.takeWhile (fun p => decide (p.1 < b))).map item) ∧ Left g (F.dropWhile (fun p => decide (p.1 < b))) := by
  intro F
  induction F with
  | nil =>
    intro n f _ hn hf
    obtain ⟨n, rfl⟩ : ∃ k, n = k + 1 := ⟨n - 1, by simp at hn; omega⟩
    rw [Left] at hf
    refine ⟨f, ?_, hf⟩
    rw [fatWhile, if_neg]
    · rfl
    · rw [gt_iff_lt, UInt32.lt_iff_toNat_lt, hf]
      have : (0xFFFFFFFF : UInt32).toNat = 4294967295 := rfl
      omega
  | cons p r ih =>
    intro n f hF hn hf
    obtain ⟨n, rfl⟩ : ∃ k, n = k + 1 := ⟨n - 1, by simp at hn; omega⟩
    have hr := hF.range p List.mem_cons_self
    by_cases hpb : p.1 < b
    · obtain ⟨g, e, hg⟩ := ih n ⟨orDummy (f.tags &&& 255), f.tags >>> 8, f.vals >>> 4⟩ (fatOk_tail hF)
        (by simp at hn; omega) (left_next (fatOk_tail hF) hf.2.2)
      refine ⟨g, ?_, ?_⟩
      · have hc : b > f.cur := by rw [hf.1]; exact hpb
        rw [fatWhile, if_pos hc, hf.1, tagAt_get hr.1, e, hf.2.1]
        simp [hpb, item]
      · simpa [hpb] using hg
    · refine ⟨f, ?_, ?_⟩
      · have hc : ¬ b > f.cur := by rw [hf.1]; exact hpb
        rw [fatWhile, if_neg hc]
        simp [hpb]
      · simpa [hpb] using hf

theorem fatRest_ok : ∀ (r : List (UInt32 × UInt32)) (p : UInt32 × UInt32) (n : Nat) (f : Fat), FatOk (p :: r) → r.length < n → Left f (p :: r) →
    fatRest n f = some ((p :: r).map item) := by
  intro r
  induction r with
  | nil =>
    intro p n f hF hn hf
    obtain ⟨n, rfl⟩ : ∃ k, n = k + 1 := ⟨n - 1, by simp at hn; omega⟩
    have hr := hF.range p List.mem_cons_self
    have h2 : f.tags &&& 255 = 255 := hf.2.2
    rw [fatRest, hf.1, tagAt_get hr.1, h2, hf.2.1]
    simp [item]
  | cons q r ih =>
    intro p n f hF hn hf
    obtain ⟨n, rfl⟩ : ∃ k, n = k + 1 := ⟨n - 1, by simp at hn; omega⟩
    have hr := hF.range p List.mem_cons_self
    have hF' := fatOk_tail hF
    have hq := hF'.range q List.mem_cons_self
    have hne : q.1 ≠ 255 := by
      intro hc
      have := hq.1
      rw [hc] at this
      revert this; decide
    obtain ⟨h1, h2, h3⟩ := hf.2.2
    have := ih q n ⟨f.tags &&& 255, f.tags >>> 8, f.vals >>> 4⟩ hF' (by simp at hn; omega) ⟨h1, h2, h3⟩
    rw [h1] at this
    rw [fatRest, hf.1, tagAt_get hr.1, h1, hf.2.1]
    simp [hne, item, this]

/-- Merging the bit features and the fat features by identifier. -/
def mergeF : List (UInt32 × UInt32) → List (UInt32 × UInt32) → List (UInt32 × UInt32)
  | [], F => F
  | p :: B, F => F.takeWhile (fun q => decide (q.1 < p.1)) ++ p :: mergeF B (F.dropWhile (fun q => decide (q.1 < p.1)))

theorem fatOk_drop {F : List (UInt32 × UInt32)} (h : FatOk F) (f : UInt32 × UInt32 → Bool) : FatOk (F.dropWhile f) :=
  ⟨h.sorted.sublist (List.dropWhile_sublist f), fun q hq => h.range q ((List.dropWhile_sublist f).subset hq)⟩

theorem itemsLoop_ok (values : UInt32) : ∀ (l : List Nat) (F : List (UInt32 × UInt32)) (f : Fat), (∀ i ∈ l, i < 32) → FatOk F → F.length < 37 →
    Left f F → itemsLoop values l f = some ((mergeF (l.map fun i => (bitFeat i, bit (bitAt values i))) F).map item) := by
  intro l
  induction l with
  | nil =>
    intro F f _ hF hl hf
    cases F with
    | nil =>
      rw [Left] at hf
      rw [itemsLoop, if_pos hf]
      rfl
    | cons p r =>
      have hr := hF.range p List.mem_cons_self
      rw [itemsLoop, if_neg, fatRest_ok r p 37 f hF (by simp at hl; omega) hf]
      · rfl
      · rw [hf.1]
        intro hc
        have h := hr.1
        rw [hc] at h
        revert h; decide
  | cons i l ih =>
    intro F f hi hF hl hf
    have h32 := hi i List.mem_cons_self
    obtain ⟨hb1, hb2, hb3⟩ := bitFeat_facts i h32
    obtain ⟨g, e, hg⟩ := fatWhile_ok hb2 F 37 f hF hl hf
    have := ih _ g (fun j hj => hi j (List.mem_cons_of_mem _ hj)) (fatOk_drop hF _)
      (Nat.lt_of_le_of_lt (List.dropWhile_sublist _).length_le hl) hg
    rw [itemsLoop]
    simp only [hb1, e, tagAt_get hb2, this, shr_and_one values h32, Option.bind_eq_bind, Option.bind_some]
    simp [mergeF, item]

theorem mem_mergeF {x : UInt32 × UInt32} : ∀ (B F : List (UInt32 × UInt32)), x ∈ mergeF B F ↔ x ∈ B ∨ x ∈ F := by
  intro B
  induction B with
  | nil => intro F; simp [mergeF]
  | cons p B ih =>
    intro F
    have e : x ∈ F ↔ x ∈ F.takeWhile (fun q => decide (q.1 < p.1)) ∨ x ∈ F.dropWhile (fun q => decide (q.1 < p.1)) := by
      rw [← List.mem_append, List.takeWhile_append_dropWhile]
    rw [mergeF, List.mem_append, List.mem_cons, List.mem_cons, ih, e]
    tauto

theorem length_mergeF : ∀ (B F : List (UInt32 × UInt32)), (mergeF B F).length = B.length + F.length := by
  intro B
  induction B with
  | nil => intro F; simp [mergeF]
  | cons p B ih =>
    intro F
    have e := congrArg List.length (List.takeWhile_append_dropWhile (p := fun q => decide (q.1 < p.1)) (l := F))
    rw [List.length_append] at e
    rw [mergeF, List.length_append, List.length_cons, List.length_cons, ih]
    omega

theorem lt_trans32 {a b c : UInt32} (h : a < b) (h' : b < c) : a < c := by
  rw [UInt32.lt_iff_toNat_lt] at *; omega

theorem dropWhile_ge {p : UInt32} : ∀ (F : List (UInt32 × UInt32)), F.Pairwise (fun a b => a.1 < b.1) →
    ∀ q ∈ F.dropWhile (fun q => decide (q.1 < p)), ¬ q.1 < p := by
  intro F
  induction F with
  | nil => simp
  | cons a F ih =>
    intro h q hq
    rw [List.pairwise_cons] at h
    by_cases ha : a.1 < p
    · rw [List.dropWhile_cons_of_pos (by simpa using ha)] at hq
      exact ih h.2 q hq
    · rw [List.dropWhile_cons_of_neg (by simpa using ha), List.mem_cons] at hq
      rcases hq with rfl | hq
      · exact ha
      · intro hc
        exact ha (lt_trans32 (h.1 q hq) hc)

theorem sorted_mergeF : ∀ (B F : List (UInt32 × UInt32)), B.Pairwise (fun a b => a.1 < b.1) → F.Pairwise (fun a b => a.1 < b.1) →
    (∀ x ∈ B, ∀ y ∈ F, x.1 ≠ y.1) → (mergeF B F).Pairwise (fun a b => a.1 < b.1) := by
  intro B
  induction B with
  | nil => intro F _ h _; exact h
  | cons p B ih =>
    intro F hB hF hne
    rw [List.pairwise_cons] at hB
    rw [mergeF, List.pairwise_append, List.pairwise_cons]
    have hdrop : ∀ y ∈ mergeF B (F.dropWhile (fun q => decide (q.1 < p.1))), p.1 < y.1 := by
      intro y hy
      rcases (mem_mergeF _ _).1 hy with hy | hy
      · exact hB.1 y hy
      · have h1 := dropWhile_ge F hF y hy
        have h2 := hne p List.mem_cons_self y ((List.dropWhile_sublist _).subset hy)
        rw [UInt32.lt_iff_toNat_lt] at *
        have : p.1.toNat ≠ y.1.toNat := fun hc => h2 (UInt32.toNat_inj.1 hc)
        omega
    refine ⟨hF.sublist (List.takeWhile_sublist _), ⟨hdrop, ih _ hB.2 (hF.sublist (List.dropWhile_sublist _))
      (fun x hx y hy => hne x (List.mem_cons_of_mem _ hx) y ((List.dropWhile_sublist _).subset hy))⟩, ?_⟩
    intro x hx y hy
    have hxp : x.1 < p.1 := by simpa using List.all_eq_true.1 (List.all_takeWhile (p := fun q : UInt32 × UInt32 => decide (q.1 < p.1)) (l := F)) x hx
    rw [List.mem_cons] at hy
    rcases hy with rfl | hy
    · exact hxp
    · exact lt_trans32 hxp (hdrop y hy)

/-- The bit features of an instance, by identifier. -/
def bitPairs (A : Abs) : List (UInt32 × UInt32) := ((List.range 32).filter (bitAt A.b0)).map fun i => (bitFeat i, bit (bitAt A.b1 i))

theorem mem_bitPairs (A : Abs) (x v : UInt32) : (x, v) ∈ bitPairs A ↔ bitId x ≠ 63 ∧ look A x = some v := by
  rw [bitPairs, List.mem_map]
  constructor
  · rintro ⟨i, hi, he⟩
    rw [List.mem_filter, List.mem_range] at hi
    obtain ⟨_, _, h3⟩ := bitFeat_facts i hi.1
    rw [Prod.mk.injEq] at he
    rw [← he.1, look, h3, if_neg (by omega), if_pos hi.2, he.2]
    exact ⟨by omega, rfl⟩
  · rintro ⟨h63, hl⟩
    obtain ⟨hb, he⟩ := bitFeat_bitId h63
    rw [look, if_neg h63] at hl
    by_cases hbit : bitAt A.b0 (bitId x) = true
    · rw [if_pos hbit] at hl
      exact ⟨bitId x, List.mem_filter.2 ⟨List.mem_range.2 hb, hbit⟩, by rw [he, Option.some.inj hl]⟩
    · rw [if_neg hbit] at hl
      simp at hl

/-- All features of an instance, by identifier. -/
def pairs (A : Abs) : List (UInt32 × UInt32) := mergeF (bitPairs A) A.fat

theorem mem_pairs {A : Abs} (hA : Good A) (x v : UInt32) : (x, v) ∈ pairs A ↔ x.toNat < 241 ∧ look A x = some v := by
  rw [pairs, mem_mergeF, mem_bitPairs]
  constructor
  · rintro (⟨h1, h2⟩ | h)
    · have := bitFeat_bitId h1
      exact ⟨this.2 ▸ (bitFeat_facts _ this.1).2.1, h2⟩
    · have hr := hA.fat.range _ h
      exact ⟨hr.1, by rw [look, if_pos hr.2.1]; exact (lookFat_iff hA.fat.sorted x v).2 h⟩
  · rintro ⟨_, h2⟩
    by_cases h63 : bitId x = 63
    · rw [look, if_pos h63] at h2
      exact .inr ((lookFat_iff hA.fat.sorted x v).1 h2)
    · exact .inl ⟨h63, h2⟩

theorem sorted_pairs {A : Abs} (hA : Good A) : (pairs A).Pairwise (fun a b => a.1 < b.1) := by
  refine sorted_mergeF _ _ ?_ hA.fat.sorted ?_
  · rw [bitPairs, List.pairwise_map, List.pairwise_filter]
    refine List.Pairwise.imp_of_mem ?_ List.pairwise_lt_range
    intro a b _ hb hab _ _
    exact bitFeat_mono b (List.mem_range.1 hb) a hab
  · rintro ⟨x, v⟩ hx ⟨y, w⟩ hy hc
    dsimp only at hc
    have h1 := ((mem_bitPairs A x v).1 hx).1
    have h2 := (hA.fat.range _ hy).2.1
    dsimp only at h2
    rw [← hc] at h2
    exact h1 h2

theorem lists_pairs {A : Abs} (hA : Good A) : Lists ((pairs A).map item) (mapOf A) := by
  constructor
  · rw [List.pairwise_map]
    refine List.Pairwise.imp_of_mem ?_ (sorted_pairs hA)
    rintro ⟨x, v⟩ ⟨y, w⟩ _ hy hab
    have hb := ((mem_pairs hA y w).1 hy).1
    have := tagAt_lt hb (a := x) hab
    rw [item, item]
    exact this
  · intro t v
    rw [List.mem_map]
    rcases toId_cases t with ⟨x, hx, _, e, _⟩ | ⟨h1, h2⟩
    · rw [e, mapOf_tagAt _ hx]
      constructor
      · intro h
        exact ⟨(x, v), (mem_pairs hA x v).2 ⟨hx, h⟩, rfl⟩
      · rintro ⟨⟨y, w⟩, hm, he⟩
        rw [item, Prod.mk.injEq] at he
        have := (mem_pairs hA y w).1 hm
        have hxy := tagAt_inj this.1 hx he.1
        dsimp only at he
        subst hxy
        obtain ⟨_, hw⟩ := he
        subst hw
        exact this.2
    · rw [mapOf_unknown _ h1]
      constructor
      · intro h; simp at h
      · rintro ⟨⟨y, w⟩, hm, he⟩
        rw [item, Prod.mk.injEq] at he
        exact absurd he.1 (h2 y ((mem_pairs hA y w).1 hm).1)

theorem next_of {F : List (UInt32 × UInt32)} : ∀ (tags vals : UInt32), Fits F →
    (F = [] → tags.toNat % 256 = 255) →
    (∀ k p, F[k]? = some p → tags.toNat / 256 ^ k % 256 = p.1.toNat ∧ vals.toNat / 16 ^ k % 16 = p.2.toNat) →
    (tags.toNat / 256 ^ F.length % 256 = 255) → Next tags vals F := by
  induction F with
  | nil =>
    intro tags vals _ h _ _
    rw [Next, ← UInt32.toNat_inj, and255, h rfl]
    rfl
  | cons p r ih =>
    intro tags vals hf _ h hl
    have h0 := h 0 p rfl
    simp only [Nat.pow_zero, Nat.div_one] at h0
    refine ⟨?_, ?_, ih _ _ (fun q hq => hf q (List.mem_cons_of_mem _ hq)) ?_ ?_ ?_⟩
    · rw [← UInt32.toNat_inj, and255, h0.1]
    · rw [← UInt32.toNat_inj, and15, h0.2]
    · intro hr
      rw [hr] at hl
      rw [shr8]
      simpa using hl
    · intro k q hk
      have := h (k + 1) q (by simpa using hk)
      rw [Nat.pow_succ', Nat.pow_succ', ← Nat.div_div_eq_div_mul, ← Nat.div_div_eq_div_mul] at this
      rw [shr8, shr4]
      exact this
    · rw [List.length_cons, Nat.pow_succ', ← Nat.div_div_eq_div_mul] at hl
      rw [shr8]
      exact hl

theorem first_tags (F : List (UInt32 × UInt32)) (hr : Fits F) (hl : F.length ≤ 4) {M : Nat} (hM : M = 2 ^ 24) :
    (∀ k p, F[k]? = some p → (tagsN 4 F + M * 256 * 255) / 256 ^ k % 256 = p.1.toNat) ∧ (tagsN 4 F + M * 256 * 255) / 256 ^ F.length % 256 = 255 := by
  rcases F with _ | ⟨a, _ | ⟨b, _ | ⟨c, _ | ⟨d, _ | ⟨e, t⟩⟩⟩⟩⟩
  · subst hM; constructor
    · intro k p h; simp at h
    · simp only [tagsN, List.length_nil, Nat.reducePow]
  · have := fits1 hr
    subst hM; constructor
    · intro k p h
      match k with
      | 0 => simp at h; subst h; simp only [tagsN, Nat.reducePow, Nat.reduceSub]; omega
      | k + 1 => simp at h
    · simp only [tagsN, List.length_cons, List.length_nil, Nat.reducePow, Nat.reduceSub, Nat.reduceAdd]; omega
  · have := fits2 hr
    subst hM; constructor
    · intro k p h
      match k with
      | 0 => simp at h; subst h; simp only [tagsN, Nat.reducePow, Nat.reduceSub]; omega
      | 1 => simp at h; subst h; simp only [tagsN, Nat.reducePow, Nat.reduceSub]; omega
      | k + 2 => simp at h
    · simp only [tagsN, List.length_cons, List.length_nil, Nat.reducePow, Nat.reduceSub, Nat.reduceAdd]; omega
  · have := fits3 hr
    subst hM; constructor
    · intro k p h
      match k with
      | 0 => simp at h; subst h; simp only [tagsN, Nat.reducePow, Nat.reduceSub]; omega
      | 1 => simp at h; subst h; simp only [tagsN, Nat.reducePow, Nat.reduceSub]; omega
      | 2 => simp at h; subst h; simp only [tagsN, Nat.reducePow, Nat.reduceSub]; omega
      | k + 3 => simp at h
    · simp only [tagsN, List.length_cons, List.length_nil, Nat.reducePow, Nat.reduceSub, Nat.reduceAdd]; omega
  · have := fits4 hr
    subst hM; constructor
    · intro k p h
      match k with
      | 0 => simp at h; subst h; simp only [tagsN, Nat.reducePow, Nat.reduceSub]; omega
      | 1 => simp at h; subst h; simp only [tagsN, Nat.reducePow, Nat.reduceSub]; omega
      | 2 => simp at h; subst h; simp only [tagsN, Nat.reducePow, Nat.reduceSub]; omega
      | 3 => simp at h; subst h; simp only [tagsN, Nat.reducePow, Nat.reduceSub]; omega
      | k + 4 => simp at h
    · simp only [tagsN, List.length_cons, List.length_nil, Nat.reducePow, Nat.reduceSub, Nat.reduceAdd]; omega
  · simp at hl

theorem items_ok {s : Words} {m : Map UInt32} (h : okS s m) : ∃ l, items s = some l ∧ l.length = ssoSize s ∧ Lists l m := by
  obtain ⟨A, hA, rfl, rfl⟩ := h
  have hsz := size_le hA
  refine ⟨(pairs A).map item, ?_, ?_, lists_pairs hA⟩
  · have hd0 : (encode A A.size).d0 = A.b0 := by unfold encode; rfl
    have hd1 : (encode A A.size).d1 = A.b1 := by unfold encode; rfl
    rw [items, hd0, hd1, bitList_eq, pairs, bitPairs]
    refine itemsLoop_ok A.b1 _ A.fat _ (fun i hi => List.mem_range.1 (List.mem_filter.1 hi).1) hA.fat (by have := hA.len; omega) ?_
    have hd2 := d2_encode hA A.size
    have hlt := tagsN_lt A.fat hA.fat hA.len
    obtain ⟨M, hM⟩ : ∃ M, M = (2 : Nat) ^ 24 := ⟨_, rfl⟩
    have ft := first_tags A.fat (fits_good hA) hA.len hM
    have hor : (((encode A A.size).d2 >>> 8) ||| ((255 : UInt32) <<< 24)).toNat = tagsN 4 A.fat / 256 + 255 * M := by
      rw [UInt32.toNat_or, shr8, hd2, show ((255 : UInt32) <<< 24).toNat = 255 * 2 ^ 24 from by decide, or_add, hM]
      omega
    have hv : ∀ k p, A.fat[k]? = some p → (encode A A.size).d3.toNat / 16 ^ k % 16 = p.2.toNat := by
      rintro k ⟨x, v⟩ hk
      have hlen := (List.getElem?_eq_some_iff.1 hk).1
      have hl4 := hA.len
      have e := fatValue_encode hA (n := A.size) (by omega) hk
      rw [fatValue, ← UInt32.toNat_inj, and15, shr_toNat _ (by omega)] at e
      rw [← e, show (16 : Nat) ^ k = 2 ^ (k * 4) from by rw [Nat.mul_comm, Nat.pow_mul]]
    cases hF : A.fat with
    | nil =>
      rw [hF] at hd2
      rw [Left, orDummy, if_pos]
      rw [← UInt32.toNat_inj, and255, hd2]
      rfl
    | cons p r =>
      rw [hF] at ft hd2 hor hv
      have hfat := hA.fat
      rw [hF] at hfat
      have hp := hfat.range p List.mem_cons_self
      have e0 : (encode A A.size).d2 &&& 255 = p.1 := by
        rw [← UInt32.toNat_inj, and255, hd2]
        have := ft.1 0 p rfl
        rw [Nat.pow_zero, Nat.div_one] at this
        omega
      have hr : Fits r := fun q hq => ⟨(hfat.range q (List.mem_cons_of_mem _ hq)).1, (hfat.range q (List.mem_cons_of_mem _ hq)).2.2⟩
      have step : ∀ k, (tagsN 4 (p :: r) + M * 256 * 255) / 256 ^ (k + 1) = (tagsN 4 (p :: r) / 256 + 255 * M) / 256 ^ k := by
        intro k
        rw [Nat.pow_succ', ← Nat.div_div_eq_div_mul]
        congr 1
        omega
      refine ⟨?_, ?_, next_of _ _ hr ?_ ?_ ?_⟩
      · dsimp only
        rw [e0, orDummy, if_neg]
        intro hc
        have := hp.1
        rw [hc] at this
        revert this; decide
      · have := hv 0 p rfl
        rw [← UInt32.toNat_inj, and15]
        simpa using this
      · intro hr0
        dsimp only
        rw [hor]
        have := ft.2
        rw [List.length_cons, hr0, List.length_nil, ← hr0, step 0] at this
        simpa using this
      · intro k q hk
        dsimp only
        rw [hor]
        have h1 := ft.1 (k + 1) q (by simpa using hk)
        have h2 := hv (k + 1) q (by simpa using hk)
        rw [step k] at h1
        rw [Nat.pow_succ', ← Nat.div_div_eq_div_mul] at h2
        rw [shr4]
        exact ⟨h1, h2⟩
      · dsimp only
        rw [hor]
        have := ft.2
        rw [List.length_cons, step] at this
        exact this
  · rw [List.length_map, ssoSize_encode hA (by omega), pairs, length_mergeF, bitPairs, List.length_map, Abs.size, count]

end Blend2D.Feature
