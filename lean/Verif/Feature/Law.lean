import Verif.Feature.Store
import Verif.Settings.Ops
import Mathlib.Tactic.ByContra
/-! # An instance is a map: lookup, `set_value` and `remove_value` -/
namespace Blend2D.Feature
open Blend2D.FontTag (isValidTag featureTags featureToId kInvalidId)
open Blend2D.Settings
open Blend2D.Settings.Spec (Map Lists nothing put)

theorem updateBit_encode (A : Abs) (n b : Nat) (v : UInt32) :
    updateBit (encode A n) b v = encode ⟨A.b0, (A.b1 &&& ~~~((1 : UInt32) <<< UInt32.ofNat b)) ||| (v <<< UInt32.ofNat b), A.fat⟩ n := rfl

attribute [local irreducible] encode featureToId

/-- The instance `s` holds the settings `m`. -/
def okS (s : Words) (m : Map UInt32) : Prop := ∃ A, Good A ∧ s = encode A A.size ∧ m = mapOf A

theorem lists_fat {F : List (UInt32 × UInt32)} (h : FatOk F) : Lists F (lookFat F) := ⟨h.sorted, fun t v => lookFat_iff h.sorted t v⟩

theorem mapOf_some (A : Abs) {t id : UInt32} (h : featureToId t = some id) : mapOf A t = lookKnown A id := by
  show (featureToId t).bind (lookKnown A) = lookKnown A id
  rw [h, Option.bind_some]

theorem lookKnown_ok (A : Abs) {id : UInt32} (h : id ≠ kInvalidId) : lookKnown A id = look A id := if_neg h

theorem lookKnown_invalid (A : Abs) {id : UInt32} (h : id = kInvalidId) : lookKnown A id = none := if_pos h

theorem mapOf_tagAt (A : Abs) {id : UInt32} (h : id.toNat < 241) : mapOf A (tagAt id) = look A id := by
  rw [mapOf_some A (toId_tagAt h), lookKnown_ok A (ne_invalid h)]

theorem mapOf_unknown (A : Abs) {t : UInt32} (h : featureToId t = some kInvalidId) : mapOf A t = none := by
  rw [mapOf_some A h, lookKnown_invalid A rfl]

theorem mapOf_put {A A' : Abs} {id : UInt32} {o : Option UInt32} (hid : id.toNat < 241)
    (h : ∀ x : UInt32, x.toNat < 241 → look A' x = if x = id then o else look A x) : mapOf A' = put (mapOf A) (tagAt id) o := by
  funext t
  rw [put]
  rcases toId_cases t with ⟨x, hx, _, e, _⟩ | ⟨h1, h2⟩
  · rw [e, mapOf_tagAt _ hx, mapOf_tagAt _ hx, h x hx]
    by_cases hc : x = id
    · rw [if_pos hc, hc, if_pos rfl]
    · rw [if_neg hc, if_neg (fun hc' => hc (tagAt_inj hx hid hc'))]
  · rw [mapOf_unknown _ h1, mapOf_unknown _ h1, if_neg (fun hc => h2 id hid hc.symm)]

/-- Changing a bit feature. -/
theorem look_bit {A : Abs} {b0 b1 : UInt32} {b : Nat} (hb : b < 32) (h0 : ∀ k, k ≠ b → bitAt b0 k = bitAt A.b0 k)
    (h1 : ∀ k, k ≠ b → bitAt b1 k = bitAt A.b1 k) {o : Option UInt32} (ho : o = if bitAt b0 b = true then some (bit (bitAt b1 b)) else none)
    (x : UInt32) : look ⟨b0, b1, A.fat⟩ x = if x = bitFeat b then o else look A x := by
  rw [look, look]
  have hf := bitFeat_facts b hb
  by_cases hx : x = bitFeat b
  · subst hx
    rw [if_pos rfl, hf.2.2, if_neg (by omega)]
    exact ho.symm
  · rw [if_neg hx]
    by_cases h63 : bitId x = 63
    · rw [if_pos h63, if_pos h63]
    · have hne : bitId x ≠ b := by
        intro hc
        have := (bitFeat_bitId h63).2
        rw [hc] at this
        exact hx this.symm
      rw [if_neg h63, if_neg h63]
      dsimp only
      rw [h0 _ hne, h1 _ hne]

/-- Changing a fat feature. -/
theorem look_fat {A : Abs} {F : List (UInt32 × UInt32)} {id : UInt32} {o : Option UInt32} (h63 : bitId id = 63)
    (h : lookFat F = put (lookFat A.fat) id o) (x : UInt32) : look ⟨A.b0, A.b1, F⟩ x = if x = id then o else look A x := by
  rw [look, look]
  dsimp only
  rw [h, put]
  by_cases hx : x = id
  · subst hx
    rw [if_pos h63, if_pos rfl, if_pos rfl]
  · rw [if_neg hx]
    rw [if_neg hx]

theorem fatOk_put {A : Abs} (h : FatOk A.fat) {F : List (UInt32 × UInt32)} {id : UInt32} {o : Option UInt32} (h63 : bitId id = 63)
    (hid : id.toNat < 241) (ho : ∀ v, o = some v → v.toNat < 16) (hF : Lists F (put (lookFat A.fat) id o)) : FatOk F := by
  refine ⟨hF.1, ?_⟩
  rintro ⟨x, v⟩ hp
  have := (hF.2 x v).2 hp
  rw [put] at this
  by_cases hx : x = id
  · rw [if_pos hx] at this
    subst hx
    exact ⟨hid, h63, ho v this⟩
  · rw [if_neg hx] at this
    exact h.range _ ((lookFat_iff h.sorted x v).1 this)

theorem lookFat_of {F : List (UInt32 × UInt32)} {m : Map UInt32} (h : Lists F m) : lookFat F = m :=
  lists_map (l := F) ⟨h.1, fun t v => lookFat_iff h.1 t v⟩ h

/-! ### Lookup -/

theorem empty_ok : okS kind.empty nothing := by
  refine ⟨⟨0, 0, []⟩, ⟨fun j hj => ?_, ⟨List.Pairwise.nil, by simp⟩, by simp⟩, ?_, ?_⟩
  · rw [bitAt_zero] at hj; simp at hj
  · decide +kernel
  · funext t
    rcases toId_cases t with ⟨x, hx, _, e, _⟩ | ⟨h1, h2⟩
    · rw [e, mapOf_tagAt _ hx, look]
      simp [lookFat, nothing, bitAt_zero]
    · rw [mapOf_unknown _ h1, nothing]

theorem get_ok {s : Words} {m : Map UInt32} (h : okS s m) (t : UInt32) : getSso s t = some ((m t).getD absent) := by
  obtain ⟨A, hA, rfl, rfl⟩ := h
  have hs := size_le hA
  rcases toId_cases t with ⟨x, hx, hid, e, hne⟩ | ⟨h1, h2⟩
  · rw [getSso, hid, e, mapOf_tagAt _ hx, look]
    simp only [Option.bind_eq_bind, Option.bind_some, if_neg hne]
    by_cases h63 : bitId x = 63
    · obtain ⟨k, ef, hk, hv, _⟩ := findFat_encode hA A.size (id := x) (by omega)
      simp only [h63, ef]
      cases hl : lookFat A.fat x with
      | none => simp
      | some v => simp [fatValue_encode hA (n := A.size) (by omega) (hv v hl)]
    · obtain ⟨hb, _⟩ := bitFeat_bitId h63
      simp only [h63, ne_eq, not_false_eq_true, if_true, if_false, hasBitTag_encode A _ hb, bitValue_encode A _ hb]
      cases bitAt A.b0 (bitId x) <;> simp
  · rw [getSso, h1, mapOf_unknown _ h1]
    simp

/-- `has_value` searches the fat features with the number of a bit that does not exist: it is right unless the tag is a fat feature. -/
def okHas (_ : Words) (t : UInt32) : Prop := ∀ id : UInt32, id.toNat < 241 → t = tagAt id → bitId id ≠ 63

theorem has_ok {s : Words} {m : Map UInt32} (h : okS s m) {t : UInt32} (hh : okHas s t) : hasSso s t = some (m t).isSome := by
  obtain ⟨A, hA, rfl, rfl⟩ := h
  rcases toId_cases t with ⟨x, hx, hid, e, hne⟩ | ⟨h1, h2⟩
  · have h63 := hh x hx e
    obtain ⟨hb, _⟩ := bitFeat_bitId h63
    rw [hasSso, hid, e, mapOf_tagAt _ hx, look]
    simp only [Option.bind_eq_bind, Option.bind_some, h63, ne_eq, not_false_eq_true, if_true, if_false, hasBitTag_encode A _ hb, if_neg hne]
    cases bitAt A.b0 (bitId x) <;> simp
  · rw [hasSso, h1, mapOf_unknown _ h1]
    simp

theorem size_ok {s : Words} {m : Map UInt32} (h : okS s m) : ssoSize s ≤ 36 := by
  obtain ⟨A, hA, rfl, rfl⟩ := h
  have := size_le hA
  rw [ssoSize_encode hA (by omega)]
  exact this

theorem valid_ok {s : Words} {m : Map UInt32} (h : okS s m) {t : UInt32} (ht : m t ≠ none) : isValidTag t = true := by
  obtain ⟨A, hA, rfl, rfl⟩ := h
  rcases toId_cases t with ⟨x, hx, hid, e, hne⟩ | ⟨h1, h2⟩
  · rw [e]; exact tag_valid hx
  · exact absurd (mapOf_unknown _ h1) ht

/-! ### Stores -/

/-- The values `set_value` handles on an instance. -/
def okSet (_ : Words) (t v : UInt32) : Prop := ∀ id : UInt32, id.toNat < 241 → t = tagAt id →
  if bitId id = 63 then v ≤ 15 ∨ v > 255 else v ≤ 1

theorem bits_add {A : Abs} (hA : Good A) {b : Nat} (hb : b < 32) (hn : bitAt A.b0 b = false) (c : Bool) :
    okS (addBit (encode A A.size) b (bit c)) (put (mapOf A) (tagAt (bitFeat b)) (some (bit c))) := by
  have e0 : ∀ k, bitAt (A.b0 ||| ((1 : UInt32) <<< UInt32.ofNat b)) k = (bitAt A.b0 k || decide (k = b)) := fun k => by
    rw [bitAt_or, bitAt_oneShl hb]
  have e1 : ∀ k, bitAt (A.b1 ||| (bit c <<< UInt32.ofNat b)) k = (bitAt A.b1 k || (c && decide (k = b))) := fun k => by
    rw [bitAt_or, bitAt_bitShl _ hb]
  have hn1 : bitAt A.b1 b = false := by
    cases h1 : bitAt A.b1 b with
    | false => rfl
    | true => have := hA.sub b h1; rw [hn] at this; simp at this
  have hc : count (A.b0 ||| ((1 : UInt32) <<< UInt32.ofNat b)) = count A.b0 + 1 :=
    count_add hb hn (by rw [e0]; simp) (fun k hk => by rw [e0]; simp [hk])
  rw [addBit_encode]
  refine ⟨⟨A.b0 ||| ((1 : UInt32) <<< UInt32.ofNat b), A.b1 ||| (bit c <<< UInt32.ofNat b), A.fat⟩, ⟨fun j hj => ?_, hA.fat, hA.len⟩, ?_, ?_⟩
  · dsimp only at hj ⊢
    rw [e1] at hj
    rw [e0]
    by_cases hjb : j = b
    · simp [hjb]
    · simp [hjb] at hj ⊢
      exact hA.sub j hj
  · congr 1
    simp only [Abs.size, hc]; omega
  · refine (mapOf_put (bitFeat_facts b hb).2.1 fun x _ => look_bit hb (fun k hk => ?_) (fun k hk => ?_) ?_ x).symm
    · rw [e0]; simp [hk]
    · rw [e1]; simp [hk]
    · rw [e0, e1, hn1]; simp

theorem bits_update {A : Abs} (hA : Good A) {b : Nat} (hb : b < 32) (hn : bitAt A.b0 b = true) (c : Bool) :
    okS (updateBit (encode A A.size) b (bit c)) (put (mapOf A) (tagAt (bitFeat b)) (some (bit c))) := by
  have e1 : ∀ k, k < 32 → bitAt ((A.b1 &&& ~~~((1 : UInt32) <<< UInt32.ofNat b)) ||| (bit c <<< UInt32.ofNat b)) k =
      if k = b then c else bitAt A.b1 k := fun k hk => by
    rw [bitAt_or, bitAt_bitShl _ hb, bitAt_and, bitAt_not _ hk, bitAt_oneShl hb]
    by_cases hkb : k = b
    · simp [hkb]
    · simp [hkb]
  have e1' : ∀ k, k ≠ b → bitAt ((A.b1 &&& ~~~((1 : UInt32) <<< UInt32.ofNat b)) ||| (bit c <<< UInt32.ofNat b)) k = bitAt A.b1 k := fun k hk => by
    rcases Nat.lt_or_ge k 32 with h | h
    · rw [e1 k h, if_neg hk]
    · rw [bitAt_ge _ h, bitAt_ge _ h]
  refine ⟨⟨A.b0, (A.b1 &&& ~~~((1 : UInt32) <<< UInt32.ofNat b)) ||| (bit c <<< UInt32.ofNat b), A.fat⟩, ⟨fun j hj => ?_, hA.fat, hA.len⟩, updateBit_encode .., ?_⟩
  · dsimp only at hj ⊢
    by_cases hjb : j = b
    · rw [hjb]; exact hn
    · rw [e1' j hjb] at hj
      exact hA.sub j hj
  · refine (mapOf_put (bitFeat_facts b hb).2.1 fun x _ => look_bit hb (fun k hk => rfl) e1' ?_ x).symm
    rw [e1 b hb, if_pos rfl, if_pos hn]

theorem bits_remove {A : Abs} (hA : Good A) {b : Nat} (hb : b < 32) (hn : bitAt A.b0 b = true) :
    okS (removeBit (encode A A.size) b) (put (mapOf A) (tagAt (bitFeat b)) none) := by
  have e : ∀ (y : UInt32) k, k < 32 → bitAt (y &&& ~~~((1 : UInt32) <<< UInt32.ofNat b)) k = (bitAt y k && !decide (k = b)) := fun y k hk => by
    rw [bitAt_and, bitAt_not _ hk, bitAt_oneShl hb]
  have e' : ∀ (y : UInt32) k, k ≠ b → bitAt (y &&& ~~~((1 : UInt32) <<< UInt32.ofNat b)) k = bitAt y k := fun y k hk => by
    rcases Nat.lt_or_ge k 32 with h | h
    · rw [e y k h]; simp [hk]
    · rw [bitAt_ge _ h, bitAt_ge _ h]
  have eb : ∀ y : UInt32, bitAt (y &&& ~~~((1 : UInt32) <<< UInt32.ofNat b)) b = false := fun y => by rw [e y b hb]; simp
  have hc : count A.b0 = count (A.b0 &&& ~~~((1 : UInt32) <<< UInt32.ofNat b)) + 1 :=
    count_add hb (eb _) hn (fun k hk => (e' _ k hk).symm)
  have hsz : A.size = (count (A.b0 &&& ~~~((1 : UInt32) <<< UInt32.ofNat b)) + A.fat.length) + 1 := by rw [Abs.size, hc]; omega
  rw [hsz, removeBit_encode]
  refine ⟨⟨A.b0 &&& ~~~((1 : UInt32) <<< UInt32.ofNat b), A.b1 &&& ~~~((1 : UInt32) <<< UInt32.ofNat b), A.fat⟩, ⟨fun j hj => ?_, hA.fat, hA.len⟩, rfl, ?_⟩
  · dsimp only at hj ⊢
    by_cases hjb : j = b
    · rw [hjb, eb] at hj; simp at hj
    · rw [e' _ j hjb] at hj ⊢
      exact hA.sub j hj
  · refine (mapOf_put (bitFeat_facts b hb).2.1 fun x _ => look_bit hb (e' _) (e' _) ?_ x).symm
    rw [eb]; simp

theorem set_ok {s : Words} {m : Map UInt32} (h : okS s m) {t v : UInt32} (hs : okSet s t v) :
    (∃ s', setSso s t v = some (.done s') ∧ okS s' (put m t (some v)) ∧ isValidTag t = true) ∨
    (setSso s t v = some .refuse ∧ isValidTag t = false) ∨ setSso s t v = some .dynamic := by
  obtain ⟨A, hA, rfl, rfl⟩ := h
  have hsz := size_le hA
  rcases toId_cases t with ⟨x, hx, hid, e, hne⟩ | ⟨h1, h2⟩
  · have hok := hs x hx e
    by_cases h63 : bitId x = 63
    · rw [if_pos h63] at hok
      obtain ⟨k, ef, hk, hv, hlt, hgt⟩ := findFat_encode hA A.size (id := x) (by omega)
      simp only [setSso, hid, Option.bind_eq_bind, Option.bind_some, ne_eq, hne, not_false_eq_true, if_true, h63, not_true_eq_false, if_false, ef]
      by_cases h255 : v ≤ 255
      · have hv16 : v.toNat < 16 := by
          rcases hok with hok | hok
          · have := UInt32.le_iff_toNat_le.1 hok
            have : (15 : UInt32).toNat = 15 := rfl
            omega
          · rw [gt_iff_lt, UInt32.lt_iff_toNat_lt] at hok
            rw [UInt32.le_iff_toNat_le] at h255
            omega
        rw [if_pos h255]
        cases hl : lookFat A.fat x with
        | some u =>
          have hget := hv u hl
          have hL := lists_set (lists_fat hA.fat) hget v
          have hg : Good ⟨A.b0, A.b1, A.fat.set k (x, v)⟩ :=
            ⟨hA.sub, fatOk_put hA.fat h63 hx (fun w hw => Option.some.inj hw ▸ hv16) hL, by simpa using hA.len⟩
          refine .inl ⟨_, by simp only [Option.isSome_some, if_true]; rfl, ⟨_, hg, ?_, ?_⟩, e ▸ tag_valid hx⟩
          · rw [updateFat_encode hA (by omega) hget hv16 hg]
            congr 1
            simp [Abs.size]
          · rw [e]
            exact (mapOf_put hx fun y _ => look_fat h63 (lookFat_of hL) y).symm
        | none =>
          simp only [Option.isSome_none, Bool.false_eq_true, if_false]
          by_cases hci : canInsertFat (encode A A.size) = true
          · have hlen := (canInsert_encode hA A.size).1 hci
            have hL := lists_insert (lists_fat hA.fat) (k := k) (tag := x)
              (fun p hp hpk => hlt _ (List.mem_take_iff_getElem.2 ⟨p, by omega, rfl⟩))
              (fun p hp hpk => hgt hl _ (List.mem_drop_iff_getElem.2 ⟨p - k, by omega, by congr 1; omega⟩)) v
            have hg : Good ⟨A.b0, A.b1, A.fat.take k ++ (x, v) :: A.fat.drop k⟩ := by
              refine ⟨hA.sub, fatOk_put hA.fat h63 hx (fun w hw => Option.some.inj hw ▸ hv16) hL, ?_⟩
              simp; omega
            rw [if_pos hci]
            have ea := addFat_encode hA (n := A.size) (by omega) hk hlen hx hv16 hg
            rw [ea]
            refine .inl ⟨_, rfl, ⟨_, hg, ?_, ?_⟩, e ▸ tag_valid hx⟩
            · congr 1
              simp [Abs.size]; omega
            · rw [e]
              exact (mapOf_put hx fun y _ => look_fat h63 (lookFat_of hL) y).symm
          · rw [if_neg hci]
            exact .inr (.inr rfl)
      · rw [if_neg h255]
        exact .inr (.inr rfl)
    · rw [if_neg h63] at hok
      obtain ⟨hb, hbf⟩ := bitFeat_bitId h63
      have hv1 : ¬ v > 1 := by
        rw [gt_iff_lt, UInt32.lt_iff_toNat_lt]; rw [UInt32.le_iff_toNat_le] at hok; omega
      obtain ⟨c, rfl⟩ := bit_of_le hv1
      refine .inl ?_
      simp only [setSso, hid, Option.bind_eq_bind, Option.bind_some, ne_eq, hne, not_false_eq_true, if_true, h63, hv1, if_false, hasBitTag_encode A _ hb]
      cases hbit : bitAt A.b0 (bitId x) with
      | true =>
        have := bits_update hA hb hbit c
        rw [hbf, ← e] at this
        exact ⟨_, by simp only [if_true], this, e ▸ tag_valid hx⟩
      | false =>
        have := bits_add hA hb hbit c
        rw [hbf, ← e] at this
        exact ⟨_, by simp only [Bool.false_eq_true, if_false], this, e ▸ tag_valid hx⟩
  · simp only [setSso, h1, Option.bind_eq_bind, Option.bind_some, ne_eq, not_true_eq_false, if_false]
    cases hv : isValidTag t with
    | false => exact .inr (.inl ⟨by simp, rfl⟩)
    | true => exact .inr (.inr (by simp))

/-- The removals that leave the other values alone: a fat feature has no fat neighbours on one side. -/
def okRemove (s : Words) (t : UInt32) : Prop := ∀ m, okS s m → ∀ id : UInt32, id.toNat < 241 → t = tagAt id → bitId id = 63 → m t ≠ none →
  (∀ x : UInt32, x.toNat < 241 → bitId x = 63 → tagAt x < t → m (tagAt x) = none) ∨
  (∀ x : UInt32, x.toNat < 241 → bitId x = 63 → t < tagAt x → m (tagAt x) = none)

theorem remove_ok {s : Words} {m : Map UInt32} (h : okS s m) {t : UInt32} (hs : okRemove s t) :
    ∃ s', removeSso s t = some s' ∧ okS s' (put m t none) := by
  have h0 := h
  obtain ⟨A, hA, rfl, rfl⟩ := h
  have hsz := size_le hA
  have same : mapOf A t = none → put (mapOf A) t none = mapOf A := fun hn => by
    funext u
    rw [put]
    by_cases hu : u = t
    · rw [if_pos hu, hu, hn]
    · rw [if_neg hu]
  rcases toId_cases t with ⟨x, hx, hid, e, hne⟩ | ⟨h1, h2⟩
  · by_cases h63 : bitId x = 63
    · obtain ⟨k, ef, hk, hv, hlt, hgt⟩ := findFat_encode hA A.size (id := x) (by omega)
      simp only [removeSso, hid, Option.bind_eq_bind, Option.bind_some, hne, ne_eq, if_false, h63, not_true_eq_false, ef]
      have hlook : mapOf A t = lookFat A.fat x := by rw [e, mapOf_tagAt _ hx, look, if_pos h63]
      cases hl : lookFat A.fat x with
      | none =>
        refine ⟨_, by simp only [Option.isSome_none, Bool.false_eq_true, if_false]; rfl, ?_⟩
        rw [same (by rw [hlook, hl])]
        exact h0
      | some u =>
        have hget := hv u hl
        obtain ⟨hkl, hge⟩ := List.getElem?_eq_some_iff.1 hget
        have hL := lists_erase (lists_fat hA.fat) hget
        have hg : Good ⟨A.b0, A.b1, A.fat.eraseIdx k⟩ := by
          refine ⟨hA.sub, fatOk_put hA.fat h63 hx (fun w hw => by simp at hw) hL, ?_⟩
          rw [List.length_eraseIdx_of_lt hkl]
          have := hA.len
          omega
        have hsz' : A.size = (count A.b0 + (A.fat.length - 1)) + 1 := by rw [Abs.size]; omega
        have hz : k = 0 ∨ ∀ p, A.fat[k + 1]? = some p → p.2.toNat = 0 := by
          have key : ∀ (j : Nat) (hj : j < A.fat.length), (A.fat[j].1.toNat < 241 ∧ bitId A.fat[j].1 = 63) ∧ mapOf A (tagAt A.fat[j].1) ≠ none := by
            intro j hj
            have hr := hA.fat.range _ (List.getElem_mem hj)
            refine ⟨⟨hr.1, hr.2.1⟩, ?_⟩
            rw [mapOf_tagAt _ hr.1, look, if_pos hr.2.1, show lookFat A.fat A.fat[j].1 = some A.fat[j].2 from (lookFat_iff hA.fat.sorted _ _).2 (List.getElem_mem hj)]
            simp
          rcases hs _ h0 x hx e h63 (by rw [hlook, hl]; simp) with hb | ha
          · left
            by_contra hk0
            have := key (k - 1) (by omega)
            refine this.2 (hb _ this.1.1 this.1.2 ?_)
            rw [e]
            refine tagAt_lt hx ?_
            have := pair_get hA.fat.sorted (p := k - 1) (q := k) (by omega) hkl
            rwa [hge] at this
          · right
            intro p hp
            obtain ⟨hk1, hp1⟩ := List.getElem?_eq_some_iff.1 hp
            exfalso
            have := key (k + 1) hk1
            refine this.2 (ha _ this.1.1 this.1.2 ?_)
            rw [e]
            refine tagAt_lt this.1.1 ?_
            have := pair_get hA.fat.sorted (p := k) (q := k + 1) (by omega) hk1
            rwa [hge] at this
        refine ⟨_, by simp only [Option.isSome_some, if_true]; rfl, ⟨A.b0, A.b1, A.fat.eraseIdx k⟩, hg, ?_, ?_⟩
        · rw [hsz', removeFat_encode hA (by omega) hkl hz hg]
          congr 1
          rw [Abs.size, List.length_eraseIdx_of_lt hkl]
        · rw [e]
          exact (mapOf_put hx fun y _ => look_fat h63 (lookFat_of hL) y).symm
    · obtain ⟨hb, hbf⟩ := bitFeat_bitId h63
      simp only [removeSso, hid, Option.bind_eq_bind, Option.bind_some, ne_eq, hne, not_false_eq_true, if_true, h63, if_false, hasBitTag_encode A _ hb]
      cases hbit : bitAt A.b0 (bitId x) with
      | true =>
        have := bits_remove hA hb hbit
        rw [hbf, ← e] at this
        exact ⟨_, by simp only [if_true], this⟩
      | false =>
        refine ⟨_, by simp only [Bool.false_eq_true, if_false]; rfl, ?_⟩
        rw [same (by rw [e, mapOf_tagAt _ hx, look, if_neg h63, hbit]; simp)]
        exact h0
  · refine ⟨_, by simp only [removeSso, h1, Option.bind_eq_bind, Option.bind_some, if_true]; rfl, ?_⟩
    rw [same (mapOf_unknown _ h1)]
    exact h0

end Blend2D.Feature
