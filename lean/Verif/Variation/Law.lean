import Verif.Settings.Ops
import Verif.Variation.Model
/-! # The packing of variation settings obeys the laws -/
namespace Blend2D.Variation
open Blend2D.FontTag (isValidTag variationTags variationToId kInvalidId variation_id)
open Blend2D.FontTag.Spec (IsId)
open Blend2D.Settings
open Blend2D.Settings.Spec (Map Lists nothing put)

/-- The sets of at most three identifiers. -/
def allIds : List (List UInt32) :=
  [[], [0], [1], [2], [3], [4], [0, 1], [0, 2], [0, 3], [0, 4], [1, 2], [1, 3], [1, 4], [2, 3], [2, 4], [3, 4],
   [0, 1, 2], [0, 1, 3], [0, 1, 4], [0, 2, 3], [0, 2, 4], [0, 3, 4], [1, 2, 3], [1, 2, 4], [1, 3, 4], [2, 3, 4]]

def fiveIds : List UInt32 := [0, 1, 2, 3, 4]

theorem mem_five {x : UInt32} (h : x < 5) : x ∈ fiveIds := by
  have h' : x.toNat < 5 := by rwa [UInt32.lt_iff_toNat_lt] at h
  have : x = UInt32.ofNat x.toNat := by simp
  rw [this]
  generalize x.toNat = n at h'
  revert n
  decide

theorem ids_cases {ids : List UInt32} (hs : ids.Pairwise (· < ·)) (hl : ids.length ≤ 3) (h5 : ∀ x ∈ ids, x < 5) : ids ∈ allIds := by
  have k1 : ∀ a ∈ fiveIds, [a] ∈ allIds := by decide
  have k2 : ∀ a ∈ fiveIds, ∀ b ∈ fiveIds, a < b → [a, b] ∈ allIds := by decide
  have k3 : ∀ a ∈ fiveIds, ∀ b ∈ fiveIds, ∀ c ∈ fiveIds, a < b → b < c → [a, b, c] ∈ allIds := by decide
  match ids with
  | [] => decide
  | [a] => exact k1 a (mem_five (h5 a (by simp)))
  | [a, b] =>
    simp only [List.pairwise_cons, List.mem_cons, List.not_mem_nil, or_false, forall_eq] at hs
    exact k2 a (mem_five (h5 a (by simp))) b (mem_five (h5 b (by simp))) hs.1
  | [a, b, c] =>
    simp only [List.pairwise_cons, List.mem_cons, List.not_mem_nil, or_false, forall_eq] at hs
    exact k3 a (mem_five (h5 a (by simp))) b (mem_five (h5 b (by simp))) c (mem_five (h5 c (by simp))) (hs.1 b (.inl rfl)) hs.2.1
  | a :: b :: c :: d :: t => simp only [List.length_cons] at hl; omega

/-- The identifiers in the info word. -/
def idBits : List UInt32 → Nat → UInt32 → UInt32
  | [], _, acc => acc
  | id :: r, i, acc => idBits r (i + 1) (acc ||| (id <<< UInt32.ofNat (5 * i)))

def infoOf (ids : List UInt32) : UInt32 := (marker ||| (UInt32.ofNat ids.length <<< 16)) ||| idBits ids 0 0

/-- The words of an instance with the given identifiers and values. -/
def encode (l : List (UInt32 × F32)) : Words :=
  ((l.map (fun p => p.2) ++ [0, 0, 0] : List UInt32).take 3 ++ [infoOf (l.map (fun p => p.1))] : List UInt32)

def tagAt (id : UInt32) : UInt32 := variationTags.getD id.toNat 0

def toItems (l : List (UInt32 × F32)) : List (Item F32) := l.map (fun p => (tagAt p.1, p.2))

theorem bits_find : ∀ ids ∈ allIds, ∀ id ∈ fiveIds,
    (findTag (infoOf ids) id).1 ≤ ids.length ∧ (∀ x ∈ ids.take (findTag (infoOf ids) id).1, x < id) ∧
    (∀ x ∈ ids.drop (findTag (infoOf ids) id).1, if (findTag (infoOf ids) id).2 then id ≤ x else id < x) ∧
    ((findTag (infoOf ids) id).2 = true → ids[(findTag (infoOf ids) id).1]? = some id) := by decide +kernel

theorem bits_size : ∀ ids ∈ allIds, aField (infoOf ids) = ids.length ∧ ids.length ≤ 3 := by decide +kernel

theorem bits_insert : ∀ ids ∈ allIds, ∀ id ∈ fiveIds, ids.length < 3 → (findTag (infoOf ids) id).2 = false →
    insertBits (infoOf ids) ids.length (findTag (infoOf ids) id).1 id =
      infoOf (ids.take (findTag (infoOf ids) id).1 ++ id :: ids.drop (findTag (infoOf ids) id).1) := by decide +kernel

theorem bits_remove : ∀ ids ∈ allIds, ∀ id ∈ fiveIds, (findTag (infoOf ids) id).2 = true →
    removeBits (infoOf ids) ids.length (findTag (infoOf ids) id).1 = infoOf (ids.eraseIdx (findTag (infoOf ids) id).1) := by decide +kernel

theorem bits_tags : ∀ ids ∈ allIds,
    (ids[0]?.all fun x => variationTags[(infoOf ids &&& 31).toNat]? = some (tagAt x)) = true ∧
    (ids[1]?.all fun x => variationTags[((infoOf ids >>> 5) &&& 31).toNat]? = some (tagAt x)) = true ∧
    (ids[2]?.all fun x => variationTags[((infoOf ids >>> 5 >>> 5) &&& 31).toNat]? = some (tagAt x)) = true := by decide +kernel

theorem tag_mono : ∀ a ∈ fiveIds, ∀ b ∈ fiveIds, tagAt a < tagAt b ↔ a < b := by decide +kernel

theorem tag_valid : ∀ a ∈ fiveIds, isValidTag (tagAt a) = true ∧ variationToId (tagAt a) = some a ∧ a ≠ kInvalidId := by decide +kernel

/-- The identifier of a tag: one of five, or none. -/
theorem toId_cases (tag : UInt32) :
    (∃ id ∈ fiveIds, variationToId tag = some id ∧ tag = tagAt id ∧ id ≠ kInvalidId) ∨
    (variationToId tag = some kInvalidId ∧ ∀ id ∈ fiveIds, tagAt id ≠ tag) := by
  obtain ⟨id, e, h⟩ := variation_id tag
  have hne : ∀ x ∈ fiveIds, x ≠ kInvalidId := by decide
  rcases h with ⟨i, h1, h2, h3⟩ | ⟨h1, h2⟩
  · have hi : i < 5 := by
      have := (Array.getElem?_eq_some_iff.1 h1).1
      exact this
    have hmem : ∀ i < 5, UInt32.ofNat i ∈ fiveIds ∧ (UInt32.ofNat i).toNat = i := by decide
    refine .inl ⟨id, by rw [h2]; exact (hmem i hi).1, e, ?_, hne _ (by rw [h2]; exact (hmem i hi).1)⟩
    rw [tagAt, h2, (hmem i hi).2, Array.getD_eq_getD_getElem?, h1]
    rfl
  · refine .inr ⟨by rw [e, h2]; rfl, fun x hx hc => h1 ?_⟩
    have hm : ∀ x ∈ fiveIds, tagAt x ∈ variationTags := by decide +kernel
    rw [← hc]
    exact hm x hx

/-- Values that may be stored: all but negative zero, which is equal to zero and therefore not always stored. -/
def okV (v : F32) : Prop := v ≠ 0x80000000

/-- Values that are equal to themselves. -/
def okE (v : F32) : Prop := isNaN v = false

/-- The instance `d` holds the settings `m`. -/
def okS (d : Words) (m : Map F32) : Prop :=
  ∃ l : List (UInt32 × F32), d = encode l ∧ l.map (·.1) ∈ allIds ∧ Lists (toItems l) m ∧ ∀ p ∈ l, okV p.2

attribute [local irreducible] infoOf

theorem len_encode {l : List (UInt32 × F32)} (h : l.map (·.1) ∈ allIds) : l.length ≤ 3 := by
  have := (bits_size _ h).2
  simpa using this

theorem encode_nth (l : List (UInt32 × F32)) (h : l.length ≤ 3) : (encode l).getD 3 0 = infoOf (l.map (·.1)) ∧ (encode l).length = 4 ∧
    ∀ i, i < l.length → (encode l)[i]? = (l[i]?).map (·.2) := by
  match l with
  | [] => exact ⟨rfl, rfl, fun i hi => absurd hi (by simp)⟩
  | [a] =>
    refine ⟨rfl, rfl, fun i hi => ?_⟩
    match i with
    | 0 => rfl
    | i + 1 => simp only [List.length_cons, List.length_nil] at hi; omega
  | [a, b] =>
    refine ⟨rfl, rfl, fun i hi => ?_⟩
    match i with
    | 0 => rfl
    | 1 => rfl
    | i + 2 => simp only [List.length_cons, List.length_nil] at hi; omega
  | [a, b, c] =>
    refine ⟨rfl, rfl, fun i hi => ?_⟩
    match i with
    | 0 => rfl
    | 1 => rfl
    | 2 => rfl
    | i + 3 => simp only [List.length_cons, List.length_nil] at hi; omega
  | a :: b :: c :: d :: t => simp only [List.length_cons] at h; omega

theorem ssoSize_encode {l : List (UInt32 × F32)} (h : l.map (·.1) ∈ allIds) : ssoSize (encode l) = l.length := by
  rw [ssoSize, (encode_nth l (len_encode h)).1, (bits_size _ h).1, List.length_map]

theorem items_encode {l : List (UInt32 × F32)} (h : l.map (·.1) ∈ allIds) : items (encode l) = some (toItems l) := by
  rw [items, ssoSize_encode h, (encode_nth l (len_encode h)).1]
  have hl := len_encode h
  obtain ⟨t0, t1, t2⟩ := bits_tags _ h
  match l with
  | [] => rfl
  | [a] =>
    simp only [List.map_cons, List.map_nil, List.getElem?_cons_zero, Option.all_some, decide_eq_true_eq] at t0
    simp only [List.length_cons, List.length_nil, itemsLoop, List.map_cons, List.map_nil, t0, Option.bind_eq_bind, Option.bind_some]
    rfl
  | [a, b] =>
    simp only [List.map_cons, List.map_nil, List.getElem?_cons_zero, List.getElem?_cons_succ, Option.all_some, decide_eq_true_eq] at t0 t1
    simp only [List.length_cons, List.length_nil, itemsLoop, List.map_cons, List.map_nil, t0, t1, Option.bind_eq_bind, Option.bind_some]
    rfl
  | [a, b, c] =>
    simp only [List.map_cons, List.map_nil, List.getElem?_cons_zero, List.getElem?_cons_succ, Option.all_some, decide_eq_true_eq] at t0 t1 t2
    simp only [List.length_cons, List.length_nil, itemsLoop, List.map_cons, List.map_nil, t0, t1, t2, Option.bind_eq_bind, Option.bind_some]
    rfl
  | a :: b :: c :: d :: t => simp only [List.length_cons] at hl; omega

/-- Looking up an identifier. -/
theorem find_encode {l : List (UInt32 × F32)} {m : Map F32} (hl : l.map (·.1) ∈ allIds) (hm : Lists (toItems l) m) {id : UInt32} (hid : id ∈ fiveIds) :
    ∃ k, (findTag (infoOf (l.map (·.1))) id) = (k, (m (tagAt id)).isSome) ∧ k ≤ l.length ∧
      (∀ v, m (tagAt id) = some v → l[k]? = some (id, v)) ∧
      (∀ p (hp : p < (toItems l).length), p < k → (toItems l)[p].1 < tagAt id) ∧
      (m (tagAt id) = none → ∀ p (hp : p < (toItems l).length), k ≤ p → tagAt id < (toItems l)[p].1) := by
  obtain ⟨h1, h2, h3, h4⟩ := bits_find _ hl id hid
  obtain ⟨k, found, e⟩ : ∃ k found, findTag (infoOf (l.map (·.1))) id = (k, found) := ⟨_, _, rfl⟩
  rw [e] at h1 h2 h3 h4
  simp only at h1 h2 h3 h4
  rw [List.length_map] at h1
  have h5 : ∀ x ∈ l.map (·.1), x ∈ fiveIds := by
    have : ∀ ids ∈ allIds, ∀ x ∈ ids, x ∈ fiveIds := by decide
    exact this _ hl
  have hlen : (toItems l).length = l.length := by rw [toItems, List.length_map]
  have lo : ∀ p (hp : p < (toItems l).length), p < k → (toItems l)[p].1 < tagAt id := by
    intro p hp hk
    have hp' : p < l.length := by omega
    have e1 : (toItems l)[p].1 = tagAt (l[p]).1 := by simp [toItems]
    rw [e1, tag_mono _ (h5 _ (List.mem_map_of_mem (List.getElem_mem hp'))) _ hid]
    apply h2
    rw [List.mem_take_iff_getElem]
    exact ⟨p, by rw [List.length_map]; omega, by simp⟩
  have hi : ∀ p (hp : p < (toItems l).length), k ≤ p → if found then id ≤ (l[p]'(by omega)).1 else id < (l[p]'(by omega)).1 := by
    intro p hp hk
    apply h3
    rw [List.mem_drop_iff_getElem]
    exact ⟨p - k, by rw [List.length_map]; omega, by simp [Nat.add_sub_cancel' hk]⟩
  cases found with
  | true =>
    have h4 := h4 rfl
    rw [List.getElem?_map] at h4
    obtain ⟨⟨i', x⟩, e1, e2⟩ := Option.map_eq_some_iff.1 h4
    simp only at e2
    subst e2
    have hx : m (tagAt i') = some x := (hm.2 _ _).2 (List.mem_map.2 ⟨(i', x), List.mem_of_getElem? e1, rfl⟩)
    refine ⟨k, by rw [e, hx]; rfl, h1, fun v hv => ?_, lo, fun hn => by rw [hx] at hn; simp at hn⟩
    rw [hx] at hv
    rw [e1, Option.some.inj hv]
  | false =>
    have hn : m (tagAt id) = none := by
      cases hx : m (tagAt id) with
      | none => rfl
      | some x =>
        obtain ⟨q, hq, e1⟩ := List.mem_map.1 ((hm.2 _ _).1 hx)
        obtain ⟨p, hp, e2⟩ := List.getElem_of_mem hq
        have e3 := (Prod.mk.inj e1).1
        have hq5 := h5 q.1 (List.mem_map_of_mem hq)
        rcases Nat.lt_or_ge p k with hlt | hge
        · have := lo p (by omega) hlt
          have e4 : (toItems l)[p].1 = tagAt (l[p]).1 := by simp [toItems]
          rw [e4, e2, e3, UInt32.lt_iff_toNat_lt] at this
          omega
        · have := hi p (by omega) hge
          simp only [Bool.false_eq_true, if_false] at this
          rw [e2, ← tag_mono _ hid _ hq5, e3, UInt32.lt_iff_toNat_lt] at this
          omega
    refine ⟨k, by rw [e, hn]; rfl, h1, fun v hv => by rw [hn] at hv; simp at hv, lo, fun _ p hp hk => ?_⟩
    have := hi p hp hk
    simp only [Bool.false_eq_true, if_false] at this
    have e4 : (toItems l)[p].1 = tagAt (l[p]'(by omega)).1 := by simp [toItems]
    rw [e4, tag_mono _ hid _ (h5 _ (List.mem_map_of_mem (List.getElem_mem _)))]
    exact this

theorem not_known {l : List (UInt32 × F32)} {m : Map F32} (hl : l.map (·.1) ∈ allIds) (hm : Lists (toItems l) m) {tag : UInt32}
    (h : ∀ id ∈ fiveIds, tagAt id ≠ tag) : m tag = none := by
  cases hx : m tag with
  | none => rfl
  | some x =>
    obtain ⟨q, hq, e1⟩ := List.mem_map.1 ((hm.2 _ _).1 hx)
    have h5 : ∀ ids ∈ allIds, ∀ x ∈ ids, x ∈ fiveIds := by decide
    exact absurd (Prod.mk.inj e1).1 (h q.1 (h5 _ hl _ (List.mem_map_of_mem hq)))

/-! ### The values -/

theorem write_encode {l : List (UInt32 × F32)} (h : l.length ≤ 3) {k : Nat} {id : UInt32} {x : F32} (hk : l[k]? = some (id, x)) (v : F32) :
    write (encode l) k v = some (encode (l.set k (id, v))) := by
  have hlt := (List.getElem?_eq_some_iff.1 hk).1
  match l, k with
  | [a], 0 => simp at hk; subst hk; rfl
  | [a, b], 0 => simp at hk; subst hk; rfl
  | [a, b], 1 => simp at hk; subst hk; rfl
  | [a, b, c], 0 => simp at hk; subst hk; rfl
  | [a, b, c], 1 => simp at hk; subst hk; rfl
  | [a, b, c], 2 => simp at hk; subst hk; rfl
  | [], k => simp at hlt
  | [a], k + 1 => simp at hlt
  | [a, b], k + 2 => simp at hlt
  | [a, b, c], k + 3 => simp at hlt
  | a :: b :: c :: d :: t, _ => simp at h

theorem insert_encode {l : List (UInt32 × F32)} (h : l.length < 3) {k : Nat} (hk : k ≤ l.length) (id : UInt32) (v : F32) :
    ∃ d', shiftUp k (l.length - k) (encode l) = some d' ∧ ∃ d'', write d' k v = some d'' ∧
      d''.set 3 (infoOf ((l.map (·.1)).take k ++ id :: (l.map (·.1)).drop k)) = encode (l.take k ++ (id, v) :: l.drop k) := by
  match l, k with
  | [], 0 => exact ⟨_, rfl, _, rfl, rfl⟩
  | [a], 0 => exact ⟨_, rfl, _, rfl, rfl⟩
  | [a], 1 => exact ⟨_, rfl, _, rfl, rfl⟩
  | [a, b], 0 => exact ⟨_, rfl, _, rfl, rfl⟩
  | [a, b], 1 => exact ⟨_, rfl, _, rfl, rfl⟩
  | [a, b], 2 => exact ⟨_, rfl, _, rfl, rfl⟩
  | [], k + 1 => simp at hk
  | [a], k + 2 => simp at hk
  | [a, b], k + 3 => simp at hk
  | a :: b :: c :: t, _ => simp at h; omega

theorem remove_encode {l : List (UInt32 × F32)} (h : l.length ≤ 3) {k : Nat} (hk : k < l.length) :
    ∃ d', shiftDown (l.length - k) k (encode l) = some d' ∧ ∃ d'', write d' (l.length - 1) 0 = some d'' ∧
      d''.set 3 (infoOf ((l.map (·.1)).eraseIdx k)) = encode (l.eraseIdx k) := by
  match l, k with
  | [a], 0 => exact ⟨_, rfl, _, rfl, rfl⟩
  | [a, b], 0 => exact ⟨_, rfl, _, rfl, rfl⟩
  | [a, b], 1 => exact ⟨_, rfl, _, rfl, rfl⟩
  | [a, b, c], 0 => exact ⟨_, rfl, _, rfl, rfl⟩
  | [a, b, c], 1 => exact ⟨_, rfl, _, rfl, rfl⟩
  | [a, b, c], 2 => exact ⟨_, rfl, _, rfl, rfl⟩
  | [], k => simp at hk
  | [a], k + 1 => simp at hk
  | [a, b], k + 2 => simp at hk
  | [a, b, c], k + 3 => simp at hk
  | a :: b :: c :: d :: t, _ => simp at h

end Blend2D.Variation
