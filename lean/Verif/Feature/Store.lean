import Verif.Feature.Abs
/-! # The stores to an instance -/
set_option linter.unnecessarySeqFocus false
namespace Blend2D.Feature
open Blend2D.FontTag (isValidTag featureTags featureToId kInvalidId)
open Blend2D.Settings
open Blend2D.Settings.Spec (Map Lists nothing put)

theorem info_succ (n : Nat) (F : List (UInt32 × UInt32)) : UInt32.ofNat (infoN n F) + ((1 : UInt32) <<< 16) = UInt32.ofNat (infoN (n + 1) F) := by
  have : infoN (n + 1) F = infoN n F + 65536 := by rw [infoN, infoN]; omega
  rw [this, UInt32.ofNat_add]
  rfl

theorem info_pred (n : Nat) (F : List (UInt32 × UInt32)) : UInt32.ofNat (infoN (n + 1) F) - ((1 : UInt32) <<< 16) = UInt32.ofNat (infoN n F) := by
  rw [← info_succ]
  simp

theorem addBit_encode (A : Abs) (n b : Nat) (v : UInt32) :
    addBit (encode A n) b v = encode ⟨A.b0 ||| ((1 : UInt32) <<< UInt32.ofNat b), A.b1 ||| (v <<< UInt32.ofNat b), A.fat⟩ (n + 1) := by
  simp only [addBit, encode, info_succ]

theorem removeBit_encode (A : Abs) (n b : Nat) :
    removeBit (encode A (n + 1)) b =
      encode ⟨A.b0 &&& ~~~((1 : UInt32) <<< UInt32.ofNat b), A.b1 &&& ~~~((1 : UInt32) <<< UInt32.ofNat b), A.fat⟩ n := by
  simp only [removeBit, encode, info_pred]

theorem init_encode : ∀ n, n < 64 → initSso n = encode ⟨0, 0, []⟩ n := by decide +kernel

theorem canInsert_encode {A : Abs} (h : Good A) (n : Nat) : canInsertFat (encode A n) = true ↔ A.fat.length < 4 := by
  have e : ((encode A n).d2 >>> 24).toNat = tagsN 4 A.fat / 2 ^ 24 := by
    have := shr_toNat (encode A n).d2 (o := 24) (by omega)
    rw [d2_encode h n] at this
    simpa using this
  rw [canInsertFat, beq_iff_eq, ← UInt32.toNat_inj, e, show (255 : UInt32).toNat = 255 from rfl]
  have hlen := h.len
  have hr := h.fat.range
  generalize A.fat = F at *
  match F with
  | [] => simp [tagsN]
  | [a] => simp only [List.mem_cons, List.not_mem_nil, or_false, forall_eq] at hr; simp [tagsN]; omega
  | [a, b] =>
    simp only [List.mem_cons, List.not_mem_nil, or_false, forall_eq_or_imp, forall_eq] at hr; simp [tagsN]; omega
  | [a, b, c] =>
    simp only [List.mem_cons, List.not_mem_nil, or_false, forall_eq_or_imp, forall_eq] at hr; simp [tagsN]; omega
  | [a, b, c, d] =>
    simp only [List.mem_cons, List.not_mem_nil, or_false, forall_eq_or_imp, forall_eq] at hr; simp [tagsN]; omega
  | a :: b :: c :: d :: e :: t => simp at hlen

theorem words_ext {d e : Words} (h0 : d.d0 = e.d0) (h1 : d.d1 = e.d1) (h2 : d.d2.toNat = e.d2.toNat) (h3 : d.d3.toNat = e.d3.toNat) : d = e := by
  cases d
  cases e
  simp only at h0 h1
  rw [Words.mk.injEq]
  exact ⟨h0, h1, UInt32.toNat_inj.1 h2, UInt32.toNat_inj.1 h3⟩

theorem updateFat_encode {A : Abs} (h : Good A) {n : Nat} (hn : n ≤ 63) {k : Nat} {id x v : UInt32} (hk : A.fat[k]? = some (id, x))
    (hv : v.toNat < 16) (h' : Good ⟨A.b0, A.b1, A.fat.set k (id, v)⟩) :
    updateFat (encode A n) k v = encode ⟨A.b0, A.b1, A.fat.set k (id, v)⟩ n := by
  have hlt := (List.getElem?_eq_some_iff.1 hk).1
  have hlen := h.len
  apply words_ext
  · rfl
  · rfl
  · rw [d2_encode h' n]
    show (encode A n).d2.toNat = _
    rw [d2_encode h n]
    generalize A.fat = F at *
    match F, k with
    | [a], 0 => simp at hk; subst hk; rfl
    | [a, b], 0 => simp at hk; subst hk; rfl
    | [a, b], 1 => simp at hk; subst hk; rfl
    | [a, b, c], 0 => simp at hk; subst hk; rfl
    | [a, b, c], 1 => simp at hk; subst hk; rfl
    | [a, b, c], 2 => simp at hk; subst hk; rfl
    | [a, b, c, d], 0 => simp at hk; subst hk; rfl
    | [a, b, c, d], 1 => simp at hk; subst hk; rfl
    | [a, b, c, d], 2 => simp at hk; subst hk; rfl
    | [a, b, c, d], 3 => simp at hk; subst hk; rfl
    | [], k => simp at hlt
    | [a], k + 1 => simp at hlt
    | [a, b], k + 2 => simp at hlt
    | [a, b, c], k + 3 => simp at hlt
    | [a, b, c, d], k + 4 => simp at hlt
    | a :: b :: c :: d :: e :: t, _ => simp at hlen
  · rw [d3_encode h' hn]
    show (((encode A n).d3 &&& ~~~((15 : UInt32) <<< UInt32.ofNat (k * 4))) ||| (v <<< UInt32.ofNat (k * 4))).toNat = _
    rw [update_toNat _ _ (by omega) hv, d3_encode h hn]
    have hr := h.fat.range
    simp only [infoN]
    generalize A.fat = F at *
    match F, k with
    | [a], 0 => simp only [List.mem_cons, List.not_mem_nil, or_false, forall_eq] at hr; simp at hk; subst hk; dsimp only at hr; simp [valsN]; omega
    | [a, b], 0 | [a, b], 1 | [a, b, c], 0 | [a, b, c], 1 | [a, b, c], 2 | [a, b, c, d], 0 | [a, b, c, d], 1 | [a, b, c, d], 2 | [a, b, c, d], 3 =>
      simp only [List.mem_cons, List.not_mem_nil, or_false, forall_eq_or_imp, forall_eq] at hr
      simp at hk; subst hk; dsimp only at hr; simp [valsN]; omega
    | [], k => simp at hlt
    | [a], k + 1 => simp at hlt
    | [a, b], k + 2 => simp at hlt
    | [a, b, c], k + 3 => simp at hlt
    | [a, b, c, d], k + 4 => simp at hlt
    | a :: b :: c :: d :: e :: t, _ => simp at hlen

theorem info_or {x y : UInt32} (hx : x.toNat / 65536 * 65536 + 65536 < 2 ^ 32) :
    (((x &&& ~~~lsb 16) + ((1 : UInt32) <<< 16)) ||| (y &&& lsb 16)).toNat = x.toNat / 65536 * 65536 + 65536 + y.toNat % 65536 := by
  have e1 : ((x &&& ~~~lsb 16) + ((1 : UInt32) <<< 16)).toNat = (x.toNat / 65536 + 1) * 2 ^ 16 := by
    rw [UInt32.toNat_add, and_not_lsb _ (by omega), show ((1 : UInt32) <<< 16).toNat = 65536 from by decide]
    omega
  rw [UInt32.toNat_or, e1, and_lsb _ (by omega), Nat.or_comm, or_add (Nat.mod_lt _ (by decide))]
  omega

theorem info_or' {x y : UInt32} (hx : 65536 ≤ x.toNat) :
    (((x &&& ~~~lsb 16) - ((1 : UInt32) <<< 16)) ||| (y &&& lsb 16)).toNat = (x.toNat / 65536 - 1) * 65536 + y.toNat % 65536 := by
  have e0 : ((1 : UInt32) <<< 16).toNat = 65536 := by decide
  have e1 : ((x &&& ~~~lsb 16) - ((1 : UInt32) <<< 16)).toNat = (x.toNat / 65536 - 1) * 2 ^ 16 := by
    rw [UInt32.toNat_sub_of_le, and_not_lsb _ (by omega), e0]
    · omega
    · rw [UInt32.le_iff_toNat_le, and_not_lsb _ (by omega), e0]; omega
  rw [UInt32.toNat_or, e1, and_lsb _ (by omega), Nat.or_comm, or_add (Nat.mod_lt _ (by decide))]
  omega

theorem valMask_eq : valMask = lsb 16 := by decide

theorem addFat_eq (d : Words) {k : Nat} (hk : k < 4) (id v : UInt32) : addFat d k id v = some ⟨d.d0, d.d1,
    (d.d2 &&& lsb (k * 8)) ||| ((d.d2 &&& ~~~lsb (k * 8)) <<< UInt32.ofNat 8) ||| (id <<< UInt32.ofNat (k * 8)),
    ((d.d3 &&& ~~~lsb 16) + ((1 : UInt32) <<< 16)) |||
      ((((d.d3 &&& lsb 16) &&& lsb (k * 4)) ||| (((d.d3 &&& lsb 16) &&& ~~~lsb (k * 4)) <<< UInt32.ofNat 4) ||| (v <<< UInt32.ofNat (k * 4))) &&& lsb 16)⟩ := by
  rw [addFat, if_pos hk, valMask_eq]
  rfl


/-- `F` has entries a byte and a nibble can hold. -/
def Fits (F : List (UInt32 × UInt32)) : Prop := ∀ p ∈ F, p.1.toNat < 241 ∧ p.2.toNat < 16

theorem fits_good {A : Abs} (h : Good A) : Fits A.fat := fun p hp => ⟨(h.fat.range p hp).1, (h.fat.range p hp).2.2⟩

theorem fits1 {a : UInt32 × UInt32} (h : Fits [a]) : a.1.toNat < 241 ∧ a.2.toNat < 16 := h a (by simp)
theorem fits2 {a b : UInt32 × UInt32} (h : Fits [a, b]) : (a.1.toNat < 241 ∧ a.2.toNat < 16) ∧ (b.1.toNat < 241 ∧ b.2.toNat < 16) :=
  ⟨h a (by simp), h b (by simp)⟩
theorem fits3 {a b c : UInt32 × UInt32} (h : Fits [a, b, c]) :
    (a.1.toNat < 241 ∧ a.2.toNat < 16) ∧ (b.1.toNat < 241 ∧ b.2.toNat < 16) ∧ (c.1.toNat < 241 ∧ c.2.toNat < 16) :=
  ⟨h a (by simp), h b (by simp), h c (by simp)⟩
theorem fits4 {a b c d : UInt32 × UInt32} (h : Fits [a, b, c, d]) :
    (a.1.toNat < 241 ∧ a.2.toNat < 16) ∧ (b.1.toNat < 241 ∧ b.2.toNat < 16) ∧ (c.1.toNat < 241 ∧ c.2.toNat < 16) ∧ (d.1.toNat < 241 ∧ d.2.toNat < 16) :=
  ⟨h a (by simp), h b (by simp), h c (by simp), h d (by simp)⟩

theorem info_div {n : Nat} {F : List (UInt32 × UInt32)} (h : valsN F < 65536) : infoN n F / 65536 = n + 33856 := by
  rw [infoN]; omega

theorem info_mod {n : Nat} {F : List (UInt32 × UInt32)} (h : valsN F < 65536) : infoN n F % 65536 = valsN F := by
  rw [infoN]; omega

theorem insTags_0_0 {id v : UInt32} (hr : Fits ([])) (hid : id.toNat < 241) :
    tagsN 4 ([]) % 2 ^ (0 * 8) + id.toNat * 2 ^ (0 * 8) + tagsN 4 ([]) / 2 ^ (0 * 8) * 2 ^ (0 * 8 + 8) % 2 ^ 32 = tagsN 4 (([]).take 0 ++ (id, v) :: ([]).drop 0) := by simp [tagsN] <;> omega
theorem insTags_1_0 {a : UInt32 × UInt32} {id v : UInt32} (hr : Fits ([a])) (hid : id.toNat < 241) :
    tagsN 4 ([a]) % 2 ^ (0 * 8) + id.toNat * 2 ^ (0 * 8) + tagsN 4 ([a]) / 2 ^ (0 * 8) * 2 ^ (0 * 8 + 8) % 2 ^ 32 = tagsN 4 (([a]).take 0 ++ (id, v) :: ([a]).drop 0) := by have := fits1 hr; simp [tagsN] <;> omega
theorem insTags_1_1 {a : UInt32 × UInt32} {id v : UInt32} (hr : Fits ([a])) (hid : id.toNat < 241) :
    tagsN 4 ([a]) % 2 ^ (1 * 8) + id.toNat * 2 ^ (1 * 8) + tagsN 4 ([a]) / 2 ^ (1 * 8) * 2 ^ (1 * 8 + 8) % 2 ^ 32 = tagsN 4 (([a]).take 1 ++ (id, v) :: ([a]).drop 1) := by have := fits1 hr; simp [tagsN] <;> omega
theorem insTags_2_0 {a b : UInt32 × UInt32} {id v : UInt32} (hr : Fits ([a, b])) (hid : id.toNat < 241) :
    tagsN 4 ([a, b]) % 2 ^ (0 * 8) + id.toNat * 2 ^ (0 * 8) + tagsN 4 ([a, b]) / 2 ^ (0 * 8) * 2 ^ (0 * 8 + 8) % 2 ^ 32 = tagsN 4 (([a, b]).take 0 ++ (id, v) :: ([a, b]).drop 0) := by have := fits2 hr; simp [tagsN] <;> omega
theorem insTags_2_1 {a b : UInt32 × UInt32} {id v : UInt32} (hr : Fits ([a, b])) (hid : id.toNat < 241) :
    tagsN 4 ([a, b]) % 2 ^ (1 * 8) + id.toNat * 2 ^ (1 * 8) + tagsN 4 ([a, b]) / 2 ^ (1 * 8) * 2 ^ (1 * 8 + 8) % 2 ^ 32 = tagsN 4 (([a, b]).take 1 ++ (id, v) :: ([a, b]).drop 1) := by have := fits2 hr; simp [tagsN] <;> omega
theorem insTags_2_2 {a b : UInt32 × UInt32} {id v : UInt32} (hr : Fits ([a, b])) (hid : id.toNat < 241) :
    tagsN 4 ([a, b]) % 2 ^ (2 * 8) + id.toNat * 2 ^ (2 * 8) + tagsN 4 ([a, b]) / 2 ^ (2 * 8) * 2 ^ (2 * 8 + 8) % 2 ^ 32 = tagsN 4 (([a, b]).take 2 ++ (id, v) :: ([a, b]).drop 2) := by have := fits2 hr; simp [tagsN] <;> omega
theorem insTags_3_0 {a b c : UInt32 × UInt32} {id v : UInt32} (hr : Fits ([a, b, c])) (hid : id.toNat < 241) :
    tagsN 4 ([a, b, c]) % 2 ^ (0 * 8) + id.toNat * 2 ^ (0 * 8) + tagsN 4 ([a, b, c]) / 2 ^ (0 * 8) * 2 ^ (0 * 8 + 8) % 2 ^ 32 = tagsN 4 (([a, b, c]).take 0 ++ (id, v) :: ([a, b, c]).drop 0) := by have := fits3 hr; simp [tagsN] <;> omega
theorem insTags_3_1 {a b c : UInt32 × UInt32} {id v : UInt32} (hr : Fits ([a, b, c])) (hid : id.toNat < 241) :
    tagsN 4 ([a, b, c]) % 2 ^ (1 * 8) + id.toNat * 2 ^ (1 * 8) + tagsN 4 ([a, b, c]) / 2 ^ (1 * 8) * 2 ^ (1 * 8 + 8) % 2 ^ 32 = tagsN 4 (([a, b, c]).take 1 ++ (id, v) :: ([a, b, c]).drop 1) := by have := fits3 hr; simp [tagsN] <;> omega
theorem insTags_3_2 {a b c : UInt32 × UInt32} {id v : UInt32} (hr : Fits ([a, b, c])) (hid : id.toNat < 241) :
    tagsN 4 ([a, b, c]) % 2 ^ (2 * 8) + id.toNat * 2 ^ (2 * 8) + tagsN 4 ([a, b, c]) / 2 ^ (2 * 8) * 2 ^ (2 * 8 + 8) % 2 ^ 32 = tagsN 4 (([a, b, c]).take 2 ++ (id, v) :: ([a, b, c]).drop 2) := by have := fits3 hr; simp [tagsN] <;> omega
theorem insTags_3_3 {a b c : UInt32 × UInt32} {id v : UInt32} (hr : Fits ([a, b, c])) (hid : id.toNat < 241) :
    tagsN 4 ([a, b, c]) % 2 ^ (3 * 8) + id.toNat * 2 ^ (3 * 8) + tagsN 4 ([a, b, c]) / 2 ^ (3 * 8) * 2 ^ (3 * 8 + 8) % 2 ^ 32 = tagsN 4 (([a, b, c]).take 3 ++ (id, v) :: ([a, b, c]).drop 3) := by have := fits3 hr; simp [tagsN] <;> omega

theorem insTags (F : List (UInt32 × UInt32)) (k : Nat) {id v : UInt32} (hr : Fits F) (hk : k ≤ F.length) (hl : F.length < 4) (hid : id.toNat < 241)
    {P Q M : Nat} (hP : P = 2 ^ (k * 8)) (hQ : Q = 2 ^ (k * 8 + 8)) (hM : M = 2 ^ 32) :
    tagsN 4 F % P + id.toNat * P + tagsN 4 F / P * Q % M =
      tagsN 4 (F.take k ++ (id, v) :: F.drop k) := by
  rcases F with _ | ⟨a, _ | ⟨b, _ | ⟨c, _ | ⟨d, t⟩⟩⟩⟩
  · obtain rfl : k = 0 := by simpa using hk
    rw [hP, hQ, hM]; exact insTags_0_0 hr hid
  · obtain rfl | rfl : k = 0 ∨ k = 1 := by simp at hk; omega
    · rw [hP, hQ, hM]; exact insTags_1_0 hr hid
    · rw [hP, hQ, hM]; exact insTags_1_1 hr hid
  · obtain rfl | rfl | rfl : k = 0 ∨ k = 1 ∨ k = 2 := by simp at hk; omega
    · rw [hP, hQ, hM]; exact insTags_2_0 hr hid
    · rw [hP, hQ, hM]; exact insTags_2_1 hr hid
    · rw [hP, hQ, hM]; exact insTags_2_2 hr hid
  · obtain rfl | rfl | rfl | rfl : k = 0 ∨ k = 1 ∨ k = 2 ∨ k = 3 := by simp at hk; omega
    · rw [hP, hQ, hM]; exact insTags_3_0 hr hid
    · rw [hP, hQ, hM]; exact insTags_3_1 hr hid
    · rw [hP, hQ, hM]; exact insTags_3_2 hr hid
    · rw [hP, hQ, hM]; exact insTags_3_3 hr hid
  · simp at hl; omega

theorem insVals (F : List (UInt32 × UInt32)) (k : Nat) {id v : UInt32} (hr : Fits F) (hk : k ≤ F.length) (hl : F.length < 4) (hv : v.toNat < 16)
    {P Q M : Nat} (hP : P = 2 ^ (k * 4)) (hQ : Q = 2 ^ (k * 4 + 4)) (hM : M = 2 ^ 32) :
    (valsN F % P + v.toNat * P + valsN F / P * Q % M) % 65536 =
      valsN (F.take k ++ (id, v) :: F.drop k) := by
  match F, k with
  | [], 0 => simp at hP hQ hM; subst hP hQ hM; simp [valsN] <;> omega
  | [], k + 1 => simp at hk
  | [a], 0 => have := fits1 hr; simp at hP hQ hM; subst hP hQ hM; simp [valsN] <;> omega
  | [a], 1 => have := fits1 hr; simp at hP hQ hM; subst hP hQ hM; simp [valsN] <;> omega
  | [a], k + 2 => simp at hk
  | [a, b], 0 => have := fits2 hr; simp at hP hQ hM; subst hP hQ hM; simp [valsN] <;> omega
  | [a, b], 1 => have := fits2 hr; simp at hP hQ hM; subst hP hQ hM; simp [valsN] <;> omega
  | [a, b], 2 => have := fits2 hr; simp at hP hQ hM; subst hP hQ hM; simp [valsN] <;> omega
  | [a, b], k + 3 => simp at hk
  | [a, b, c], 0 => have := fits3 hr; simp at hP hQ hM; subst hP hQ hM; simp [valsN] <;> omega
  | [a, b, c], 1 => have := fits3 hr; simp at hP hQ hM; subst hP hQ hM; simp [valsN] <;> omega
  | [a, b, c], 2 => have := fits3 hr; simp at hP hQ hM; subst hP hQ hM; simp [valsN] <;> omega
  | [a, b, c], 3 => have := fits3 hr; simp at hP hQ hM; subst hP hQ hM; simp [valsN] <;> omega
  | [a, b, c], k + 4 => simp at hk
  | a :: b :: c :: d :: t, _ => simp at hl; omega

theorem delTags (F : List (UInt32 × UInt32)) (k : Nat) (hr : Fits F) (hk : k < F.length) (hl : F.length ≤ 4)
    {P M : Nat} (hP : P = 2 ^ (k * 8)) (hM : M = 2 ^ 24) :
    tagsN 4 F % P + tagsN 4 F / 256 / P * P + 255 * M = tagsN 4 (F.eraseIdx k) := by
  match F, k with
  | [], k => simp at hk
  | [a], 0 => have := fits1 hr; simp at hP hM; subst hP hM; simp only [tagsN, List.eraseIdx, Nat.reduceSub, Nat.reducePow]; omega
  | [a], k + 1 => simp at hk
  | [a, b], 0 => have := fits2 hr; simp at hP hM; subst hP hM; simp only [tagsN, List.eraseIdx, Nat.reduceSub, Nat.reducePow]; omega
  | [a, b], 1 => have := fits2 hr; simp at hP hM; subst hP hM; simp only [tagsN, List.eraseIdx, Nat.reduceSub, Nat.reducePow]; omega
  | [a, b], k + 2 => simp at hk
  | [a, b, c], 0 => have := fits3 hr; simp at hP hM; subst hP hM; simp only [tagsN, List.eraseIdx, Nat.reduceSub, Nat.reducePow]; omega
  | [a, b, c], 1 => have := fits3 hr; simp at hP hM; subst hP hM; simp only [tagsN, List.eraseIdx, Nat.reduceSub, Nat.reducePow]; omega
  | [a, b, c], 2 => have := fits3 hr; simp at hP hM; subst hP hM; simp only [tagsN, List.eraseIdx, Nat.reduceSub, Nat.reducePow]; omega
  | [a, b, c], k + 3 => simp at hk
  | [a, b, c, d], 0 => have := fits4 hr; simp at hP hM; subst hP hM; simp only [tagsN, List.eraseIdx, Nat.reduceSub, Nat.reducePow]; omega
  | [a, b, c, d], 1 => have := fits4 hr; simp at hP hM; subst hP hM; simp only [tagsN, List.eraseIdx, Nat.reduceSub, Nat.reducePow]; omega
  | [a, b, c, d], 2 => have := fits4 hr; simp at hP hM; subst hP hM; simp only [tagsN, List.eraseIdx, Nat.reduceSub, Nat.reducePow]; omega
  | [a, b, c, d], 3 => have := fits4 hr; simp at hP hM; subst hP hM; simp only [tagsN, List.eraseIdx, Nat.reduceSub, Nat.reducePow]; omega
  | [a, b, c, d], k + 4 => simp at hk
  | a :: b :: c :: d :: e :: t, _ => simp at hl

theorem delVals (F : List (UInt32 × UInt32)) (k : Nat) (hr : Fits F) (hk : k < F.length) (hl : F.length ≤ 4)
    (hz : k = 0 ∨ ∀ p, F[k + 1]? = some p → p.2.toNat = 0) :
    (valsN F % 2 ^ (k * 4) + valsN F / 16 / 2 ^ (k * 8) * 2 ^ (k * 8)) % 65536 = valsN (F.eraseIdx k) := by
  match F, k with
  | [], k => simp at hk
  | [a], 0 => have := fits1 hr; simp [valsN] <;> omega
  | [a], k + 1 => simp at hk
  | [a, b], 0 => have := fits2 hr; simp [valsN] <;> omega
  | [a, b], 1 => have := fits2 hr; simp [valsN] <;> omega
  | [a, b], k + 2 => simp at hk
  | [a, b, c], 0 => have := fits3 hr; simp [valsN] <;> omega
  | [a, b, c], 1 =>
    have := fits3 hr
    rcases hz with hz | hz
    · simp at hz
    · have hq := hz _ rfl
      simp [valsN] <;> omega
  | [a, b, c], 2 => have := fits3 hr; simp [valsN] <;> omega
  | [a, b, c], k + 3 => simp at hk
  | [a, b, c, d], 0 => have := fits4 hr; simp [valsN] <;> omega
  | [a, b, c, d], 1 =>
    have := fits4 hr
    rcases hz with hz | hz
    · simp at hz
    · have hq := hz _ rfl
      simp [valsN] <;> omega
  | [a, b, c, d], 2 =>
    have := fits4 hr
    rcases hz with hz | hz
    · simp at hz
    · have hq := hz _ rfl
      simp [valsN] <;> omega
  | [a, b, c, d], 3 => have := fits4 hr; simp [valsN] <;> omega
  | [a, b, c, d], k + 4 => simp at hk
  | a :: b :: c :: d :: e :: t, _ => simp at hl

theorem appTags (F : List (UInt32 × UInt32)) (hr : Fits F) (hl : F.length < 4) : tagsN 4 F / 2 ^ (F.length * 8) % 256 = 255 := by
  match F with
  | [] => simp [tagsN] <;> omega
  | [a] => have := fits1 hr; simp [tagsN] <;> omega
  | [a, b] => have := fits2 hr; simp [tagsN] <;> omega
  | [a, b, c] => have := fits3 hr; simp [tagsN] <;> omega
  | a :: b :: c :: d :: t => simp at hl; omega

theorem appTags' (F : List (UInt32 × UInt32)) {id v : UInt32} (hr : Fits F) (hl : F.length < 4) (hid : id.toNat < 241) :
    tagsN 4 F - 255 * 2 ^ (F.length * 8) + id.toNat * 2 ^ (F.length * 8) = tagsN 4 (F ++ [(id, v)]) := by
  match F with
  | [] => simp [tagsN] <;> omega
  | [a] => have := fits1 hr; simp [tagsN] <;> omega
  | [a, b] => have := fits2 hr; simp [tagsN] <;> omega
  | [a, b, c] => have := fits3 hr; simp [tagsN] <;> omega
  | a :: b :: c :: d :: t => simp at hl; omega

theorem appVals (F : List (UInt32 × UInt32)) (n : Nat) (hr : Fits F) (hl : F.length < 4) : infoN n F / 2 ^ (F.length * 4) % 16 = 0 := by
  match F with
  | [] => simp [infoN, valsN] <;> omega
  | [a] => have := fits1 hr; simp [infoN, valsN] <;> omega
  | [a, b] => have := fits2 hr; simp [infoN, valsN] <;> omega
  | [a, b, c] => have := fits3 hr; simp [infoN, valsN] <;> omega
  | a :: b :: c :: d :: t => simp at hl; omega

theorem appVals' (F : List (UInt32 × UInt32)) (n : Nat) {id v : UInt32} (hr : Fits F) (hl : F.length < 4) :
    infoN n F + v.toNat * 2 ^ (F.length * 4) = infoN n (F ++ [(id, v)]) := by
  match F with
  | [] => simp [infoN, valsN] <;> omega
  | [a] => have := fits1 hr; simp [infoN, valsN] <;> omega
  | [a, b] => have := fits2 hr; simp [infoN, valsN] <;> omega
  | [a, b, c] => have := fits3 hr; simp [infoN, valsN] <;> omega
  | a :: b :: c :: d :: t => simp at hl; omega

theorem addFat_encode {A : Abs} (h : Good A) {n : Nat} (hn : n < 63) {k : Nat} (hk : k ≤ A.fat.length) (hl : A.fat.length < 4) {id v : UInt32}
    (hid : id.toNat < 241) (hv : v.toNat < 16) (h' : Good ⟨A.b0, A.b1, A.fat.take k ++ (id, v) :: A.fat.drop k⟩) :
    addFat (encode A n) k id v = some (encode ⟨A.b0, A.b1, A.fat.take k ++ (id, v) :: A.fat.drop k⟩ (n + 1)) := by
  rw [addFat_eq _ (by omega)]
  congr 1
  have h3 : (encode A n).d3.toNat = infoN n A.fat := d3_encode h (by omega)
  have hvl := valsN_lt4 h.fat (by omega)
  apply words_ext
  · rfl
  · rfl
  · rw [d2_encode h' (n + 1)]
    show ((((encode A n).d2 &&& lsb (k * 8)) ||| (((encode A n).d2 &&& ~~~lsb (k * 8)) <<< UInt32.ofNat 8) ||| (id <<< UInt32.ofNat (k * 8)))).toNat = _
    rw [insert_toNat _ _ (by omega) (by omega) (by omega) (by omega) (by omega), d2_encode h n]
    exact insTags A.fat k (fits_good h) hk hl hid rfl rfl rfl
  · rw [d3_encode h' (by omega)]
    have hb : infoN n A.fat / 65536 * 65536 + 65536 < 2 ^ 32 := by rw [info_div hvl]; omega
    show (((((encode A n).d3 &&& ~~~lsb 16) + ((1 : UInt32) <<< 16))) |||
      (((((encode A n).d3 &&& lsb 16) &&& lsb (k * 4)) ||| ((((encode A n).d3 &&& lsb 16) &&& ~~~lsb (k * 4)) <<< UInt32.ofNat 4) |||
        (v <<< UInt32.ofNat (k * 4))) &&& lsb 16)).toNat = _
    rw [info_or (by rw [h3]; exact hb), insert_toNat _ _ (by omega) (by omega) (by omega) (by omega) (by omega), and_lsb _ (by omega), h3,
      info_div hvl, show (2 : Nat) ^ 16 = 65536 from rfl, info_mod hvl, insVals A.fat k (id := id) (fits_good h) hk hl hv rfl rfl rfl, infoN]
    dsimp only
    omega

theorem removeFat_eq (d : Words) (k : Nat) : removeFat d k = ⟨d.d0, d.d1,
    (d.d2 &&& lsb (k * 8)) ||| ((d.d2 >>> 8) &&& ~~~lsb (k * 8)) ||| ((255 : UInt32) <<< 24),
    ((d.d3 &&& ~~~lsb 16) - ((1 : UInt32) <<< 16)) |||
      ((((d.d3 &&& lsb 16) &&& lsb (k * 4)) ||| (((d.d3 &&& lsb 16) >>> 4) &&& ~~~lsb (k * 8))) &&& lsb 16)⟩ := by
  rw [removeFat, valMask_eq]
  rfl

theorem removeFat_encode {A : Abs} (h : Good A) {n : Nat} (hn : n < 63) {k : Nat} (hk : k < A.fat.length)
    (hz : k = 0 ∨ ∀ p, A.fat[k + 1]? = some p → p.2.toNat = 0) (h' : Good ⟨A.b0, A.b1, A.fat.eraseIdx k⟩) :
    removeFat (encode A (n + 1)) k = encode ⟨A.b0, A.b1, A.fat.eraseIdx k⟩ n := by
  rw [removeFat_eq]
  have hl := h.len
  have h3 : (encode A (n + 1)).d3.toNat = infoN (n + 1) A.fat := d3_encode h (by omega)
  have hvl := valsN_lt4 h.fat (by omega)
  apply words_ext
  · rfl
  · rfl
  · rw [d2_encode h' n]
    show ((((encode A (n + 1)).d2 &&& lsb (k * 8)) ||| (((encode A (n + 1)).d2 >>> 8) &&& ~~~lsb (k * 8)) ||| ((255 : UInt32) <<< 24))).toNat = _
    rw [removeTag_toNat _ (by omega) (by omega), d2_encode h (n + 1)]
    exact delTags A.fat k (fits_good h) hk hl rfl rfl
  · rw [d3_encode h' (by omega)]
    show (((((encode A (n + 1)).d3 &&& ~~~lsb 16) - ((1 : UInt32) <<< 16))) |||
      (((((encode A (n + 1)).d3 &&& lsb 16) &&& lsb (k * 4)) ||| ((((encode A (n + 1)).d3 &&& lsb 16) >>> 4) &&& ~~~lsb (k * 8))) &&& lsb 16)).toNat = _
    rw [info_or' (by rw [h3, infoN]; omega), removeVal_toNat _ (by omega) (by omega) (by omega), and_lsb _ (by omega), h3,
      info_div hvl, show (2 : Nat) ^ 16 = 65536 from rfl, info_mod hvl, delVals A.fat k (fits_good h) hk hl hz, infoN]
    dsimp only
    omega

/-- Appending a fat feature in `convert_items_to_sso`. -/
theorem append_encode {A : Abs} (h : Good A) {n : Nat} (hn : n ≤ 63) (hl : A.fat.length < 4) {id v : UInt32}
    (hid : id.toNat < 241) (hv : v.toNat < 16) (h' : Good ⟨A.b0, A.b1, A.fat ++ [(id, v)]⟩) :
    (⟨(encode A n).d0, (encode A n).d1, (encode A n).d2 ^^^ ((id ^^^ 255) <<< UInt32.ofNat (A.fat.length * 8)),
      (encode A n).d3 ||| (v <<< UInt32.ofNat (A.fat.length * 4))⟩ : Words) = encode ⟨A.b0, A.b1, A.fat ++ [(id, v)]⟩ n := by
  have h3 : (encode A n).d3.toNat = infoN n A.fat := d3_encode h (by omega)
  have h2 := d2_encode h n
  apply words_ext
  · rfl
  · rfl
  · rw [d2_encode h' n]
    show ((encode A n).d2 ^^^ ((id ^^^ 255) <<< UInt32.ofNat (A.fat.length * 8))).toNat = _
    rw [(xorTag_toNat _ _ (by omega) (by omega) (by omega) (by rw [h2]; exact appTags _ (fits_good h) hl)).1, h2]
    exact appTags' A.fat (fits_good h) hl hid
  · rw [d3_encode h' hn]
    show ((encode A n).d3 ||| (v <<< UInt32.ofNat (A.fat.length * 4))).toNat = _
    rw [orVal_toNat _ _ (by omega) hv (by rw [h3]; exact appVals _ _ (fits_good h) hl), h3]
    exact appVals' A.fat n (fits_good h) hl

end Blend2D.Feature
