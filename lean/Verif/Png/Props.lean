import Verif.Util.Bits
import Verif.Png.Model
import Verif.Png.Spec
/-! # C06: the PNG inverse filter undoes the filters of the standard. -/
namespace Blend2D.Png
open Bits Spec

/-! ## Byte-level lemmas -/

theorem applySum_toNat (a b : UInt32) (ha : a.toNat ≤ 255) (hb : b.toNat ≤ 255) :
    (applySum a b).toNat = (a.toNat + b.toNat) % 256 := by
  unfold applySum
  rw [UInt32.toNat_toUInt8, UInt32.toNat_and, UInt32.toNat_add]
  simp only [UInt32.reduceToNat, and_255]
  omega

/-- The optimised Paeth predictor equals the predictor of the standard, for all byte operands. -/
theorem C06_paeth_exact (a b c : UInt8) :
    (applyPaeth a.toUInt32 b.toUInt32 c.toUInt32).toNat = paeth a.toNat b.toNat c.toNat := by
  have ha := a.toNat_lt
  have hb := b.toNat_lt
  have hc := c.toNat_lt
  have h3 : (c.toUInt32 * 3).toNat = c.toNat * 3 := by
    rw [UInt32.toNat_mul]; simp only [UInt32.reduceToNat, UInt8.toNat_toUInt32]; omega
  have hab : (a.toUInt32 + b.toUInt32).toNat = a.toNat + b.toNat := by
    rw [UInt32.toNat_add]; simp only [UInt8.toNat_toUInt32]; omega
  unfold applyPaeth paeth
  simp only [h3, hab, UInt32.lt_iff_toNat_lt, UInt8.toNat_toUInt32]
  by_cases hlt : a.toNat < b.toNat
  · simp only [hlt, if_true, UInt8.toNat_toUInt32]
    split
    · split
      · split
        · simp only [UInt8.toNat_toUInt32] <;> omega
        · split <;> simp only [UInt8.toNat_toUInt32] <;> omega
      · split
        · simp only [UInt8.toNat_toUInt32] <;> omega
        · split <;> simp only [UInt8.toNat_toUInt32] <;> omega
    · split
      · simp only [UInt8.toNat_toUInt32]; omega
      · split <;> simp only [UInt8.toNat_toUInt32] <;> omega
  · simp only [hlt, if_false, UInt8.toNat_toUInt32]
    split
    · split
      · split
        · simp only [UInt8.toNat_toUInt32] <;> omega
        · split <;> simp only [UInt8.toNat_toUInt32] <;> omega
      · split
        · simp only [UInt8.toNat_toUInt32] <;> omega
        · split <;> simp only [UInt8.toNat_toUInt32] <;> omega
    · split
      · simp only [UInt8.toNat_toUInt32] <;> omega
      · split <;> simp only [UInt8.toNat_toUInt32] <;> omega

example : applyPaeth 10 20 16 = 16 ∧ paeth 10 20 16 = 16 ∧ applyPaeth 10 20 30 = 10 := by decide

theorem paeth_le (a b c : Nat) (ha : a ≤ 255) (hb : b ≤ 255) (hc : c ≤ 255) : paeth a b c ≤ 255 := by
  unfold paeth; simp only; split
  · exact ha
  · split <;> assumption

theorem byte_le (x : UInt8) : x.toNat ≤ 255 := by have := x.toNat_lt; omega

theorem left_le (bpp : Nat) (r : List UInt8) (i : Nat) : left bpp r i ≤ 255 := by
  unfold left; split
  · omega
  · exact byte_le _

theorem predict_le (t a b c : Nat) (ha : a ≤ 255) (hb : b ≤ 255) (hc : c ≤ 255) : predict t a b c ≤ 255 := by
  unfold predict
  split
  · exact ha
  · exact hb
  · omega
  · exact paeth_le a b c ha hb hc
  · omega

/-- Filtered byte plus prediction is the original byte. -/
theorem unfilter (f raw : UInt8) (pr : Nat) (v : UInt32) (hv : v.toNat = pr) (hp : pr ≤ 255)
    (hf : f = UInt8.ofNat (raw.toNat + 256 - pr % 256)) : applySum f.toUInt32 v = raw := by
  apply UInt8.toNat_inj.mp
  have hr := raw.toNat_lt
  rw [applySum_toNat _ _ (by rw [UInt8.toNat_toUInt32]; exact byte_le f) (by omega), UInt8.toNat_toUInt32, hf,
    UInt8.toNat_ofNat', hv]
  omega

/-! ## One row -/

/-- Memory while a row is processed: the first `k` bytes are restored. -/
def mid (pre raw f post : List UInt8) (k : Nat) : Mem := pre ++ (raw.take k ++ f.drop k) ++ post

theorem getElem?_mid {pre raw f post : List UInt8} {k j : Nat} (hl : f.length = raw.length) (hk : k ≤ raw.length)
    (hj : j < raw.length) :
    (mid pre raw f post k)[pre.length + j]? = some (if j < k then raw.getD j 0 else f.getD j 0) := by
  unfold mid
  rw [List.append_assoc, List.getElem?_append_right (by omega), Nat.add_sub_cancel_left,
    List.getElem?_append_left (by simp; omega)]
  split
  · rename_i h
    rw [List.getElem?_append_left (by simp; omega), List.getElem?_take_of_lt h, List.getD_eq_getElem?_getD,
      List.getElem?_eq_getElem hj]
    rfl
  · rename_i h
    rw [List.getElem?_append_right (by simp; omega), List.getElem?_drop, List.length_take,
      show k + (j - min k raw.length) = j by omega, List.getD_eq_getElem?_getD,
      List.getElem?_eq_getElem (by omega)]
    rfl

theorem getElem?_pre {pre raw f post : List UInt8} {k j : Nat} (hj : j < pre.length) :
    (mid pre raw f post k)[j]? = some (pre.getD j 0) := by
  unfold mid
  rw [List.append_assoc, List.getElem?_append_left hj, List.getD_eq_getElem?_getD, List.getElem?_eq_getElem hj]
  rfl

theorem set_mid {pre raw f post : List UInt8} {k : Nat} (hl : f.length = raw.length) (hk : k < raw.length) :
    wr (mid pre raw f post k) (pre.length + k) (raw.getD k 0) = some (mid pre raw f post (k + 1)) := by
  unfold wr mid
  rw [if_pos (by simp; omega)]
  congr 1
  rw [List.append_assoc, List.set_append_right _ _ (by omega), Nat.add_sub_cancel_left,
    List.set_append_left _ _ (by simp; omega), List.set_append_right _ _ (by simp; omega), List.length_take,
    show k - min k raw.length = 0 by omega, List.append_assoc, List.drop_eq_getElem_cons (by omega),
    List.set_cons_zero, List.getD_eq_getElem?_getD, List.getElem?_eq_getElem hk, Option.getD_some,
    List.append_assoc, List.append_assoc, ← List.take_append_getElem hk, List.append_assoc]
  rfl

theorem writeLoop_mid {pre raw f post : List UInt8} (hl : f.length = raw.length) (off : Nat)
    (val : Mem → Nat → Nat → Option UInt8) : ∀ (n k p u : Nat), p + off = pre.length + k → k + n ≤ raw.length →
    (∀ j, j < n → val (mid pre raw f post (k + j)) (p + j) (u + j) = some (raw.getD (k + j) 0)) →
    writeLoop off val n p u (mid pre raw f post k) = some (mid pre raw f post (k + n)) := by
  intro n
  induction n with
  | zero => intro k p u _ _ _; rfl
  | succ n ih =>
    intro k p u hp hk hval
    unfold writeLoop
    have h0 := hval 0 (by omega)
    simp only [Nat.add_zero] at h0
    rw [h0]
    simp only [Option.bind_eq_bind, Option.bind_some]
    rw [hp, set_mid hl (by omega)]
    simp only [Option.bind_some]
    rw [ih (k + 1) (p + 1) (u + 1) (by omega) (by omega) ?_]
    · rw [show k + 1 + n = k + (n + 1) by omega]
    · intro j hj
      have := hval (j + 1) (by omega)
      rw [show k + 1 + j = k + (j + 1) by omega, show p + 1 + j = p + (j + 1) by omega,
        show u + 1 + j = u + (j + 1) by omega]
      exact this

theorem filterRow_length (bpp t : Nat) (prior raw : List UInt8) : (filterRow bpp t prior raw).length = raw.length := by
  simp [filterRow]

theorem filterRow_getD (bpp t : Nat) (prior raw : List UInt8) (i : Nat) (hi : i < raw.length) :
    (filterRow bpp t prior raw).getD i 0 = UInt8.ofNat ((raw.getD i 0).toNat + 256 -
      predict t (left bpp raw i) (prior.getD i 0).toNat (left bpp prior i) % 256) := by
  rw [List.getD_eq_getElem?_getD, filterRow, List.getElem?_map, List.getElem?_range hi]
  rfl

theorem mid_zero (pre raw f post : List UInt8) : mid pre raw f post 0 = pre ++ f ++ post := by simp [mid]

theorem mid_all (pre raw f post : List UInt8) (hl : f.length = raw.length) :
    mid pre raw f post raw.length = pre ++ raw ++ post := by
  unfold mid; rw [List.take_length, ← hl, List.drop_length, List.append_nil]

theorem take_agree {raw f : List UInt8} (hl : f.length = raw.length) (k : Nat)
    (h : ∀ i, i < k → i < raw.length → f.getD i 0 = raw.getD i 0) : f.take k = raw.take k := by
  apply List.ext_getElem?
  intro i
  by_cases hi : i < k
  · rw [List.getElem?_take_of_lt hi, List.getElem?_take_of_lt hi]
    by_cases hi2 : i < raw.length
    · have := h i hi hi2
      rw [List.getD_eq_getElem?_getD, List.getD_eq_getElem?_getD, List.getElem?_eq_getElem (by omega),
        List.getElem?_eq_getElem hi2, Option.getD_some, Option.getD_some] at this
      rw [List.getElem?_eq_getElem (by omega), List.getElem?_eq_getElem hi2, this]
    · rw [List.getElem?_eq_none (by omega), List.getElem?_eq_none (by omega)]
  · rw [List.getElem?_eq_none (by simp; omega), List.getElem?_eq_none (by simp; omega)]

theorem mid_agree {pre raw f post : List UInt8} (hl : f.length = raw.length) (k : Nat)
    (h : ∀ i, i < k → i < raw.length → f.getD i 0 = raw.getD i 0) : mid pre raw f post 0 = mid pre raw f post k := by
  unfold mid
  rw [← take_agree hl k h, List.take_append_drop]
  simp

theorem ofNat_self (x : UInt8) : UInt8.ofNat (x.toNat + 256 - 0 % 256) = x := by
  apply UInt8.toNat_inj.mp
  rw [UInt8.toNat_ofNat']
  have := x.toNat_lt
  omega

/-- A row whose prior row lies in `pre` at `u`, any filter type below 5. -/
theorem row_spec (t bpp : Nat) (prior raw pre post : List UInt8) (u : Nat) (ht : t < 5) (hb : 1 ≤ bpp)
    (hbl : bpp ≤ raw.length) (hu : u + raw.length ≤ pre.length)
    (hprior : ∀ i, i < raw.length → pre.getD (u + i) 0 = prior.getD i 0) :
    row (UInt32.ofNat t) bpp raw.length pre.length (some u) (pre ++ filterRow bpp t prior raw ++ post) =
      some (pre ++ raw ++ post) := by
  have hl := filterRow_length bpp t prior raw
  have hg := filterRow_getD bpp t prior raw
  generalize filterRow bpp t prior raw = f at *
  rw [← mid_zero pre raw f post, ← mid_all pre raw f post hl]
  unfold row
  rw [if_neg (by omega)]
  -- reads
  have rp : ∀ k j, k ≤ raw.length → j < raw.length → rd (mid pre raw f post k) (pre.length + j) =
      some (if j < k then raw.getD j 0 else f.getD j 0) := fun k j hk hj => getElem?_mid hl hk hj
  have ru : ∀ k j, j < raw.length → rd (mid pre raw f post k) (u + j) = some (prior.getD j 0) := by
    intro k j hj
    unfold rd
    rw [getElem?_pre (by omega), hprior j hj]
  have hle : ∀ i, predict t (left bpp raw i) (prior.getD i 0).toNat (left bpp prior i) ≤ 255 :=
    fun i => predict_le _ _ _ _ (left_le _ _ _) (byte_le _) (left_le _ _ _)
  obtain rfl | rfl | rfl | rfl | rfl : t = 0 ∨ t = 1 ∨ t = 2 ∨ t = 3 ∨ t = 4 := by omega
  · rw [if_neg (by decide), if_neg (by decide), if_neg (by decide), if_neg (by decide), if_neg (by decide)]
    rw [mid_agree hl raw.length]
    intro i _ hi
    rw [hg i hi]
    exact ofNat_self _
  · rw [if_pos (by decide)]
    -- the first bpp bytes are unchanged: they are already restored
    have hfirst : mid pre raw f post 0 = mid pre raw f post bpp := by
      apply mid_agree hl bpp
      intro i hib hi
      rw [hg i hi]
      simp only [predict, left, hib, if_true]
      exact ofNat_self _
    rw [hfirst, writeLoop_mid hl bpp (valSub bpp) (raw.length - bpp) bpp pre.length 0 rfl (by omega) ?_,
      show bpp + (raw.length - bpp) = raw.length by omega]
    intro j hj
    unfold valSub
    rw [show pre.length + j + bpp = pre.length + (bpp + j) by omega, rp _ _ (by omega) (by omega),
      rp _ _ (by omega) (by omega), if_neg (by omega), if_pos (by omega)]
    simp only [Option.bind_eq_bind, Option.bind_some]
    congr 1
    refine unfilter _ _ _ _ ?_ (hle (bpp + j)) (hg (bpp + j) (by omega))
    simp only [predict, left, UInt8.toNat_toUInt32]
    rw [if_neg (by omega), Nat.add_sub_cancel_left]
  · rw [if_neg (by decide), if_pos (by decide)]
    simp only [Option.bind_eq_bind, Option.bind_some]
    rw [writeLoop_mid hl 0 valUp raw.length 0 pre.length u rfl (by omega) ?_, Nat.zero_add]
    intro j hj
    unfold valUp
    rw [rp _ _ (by omega) hj, ru _ _ hj, if_neg (by omega), Nat.zero_add]
    simp only [Option.bind_eq_bind, Option.bind_some]
    congr 1
    refine unfilter _ _ _ _ ?_ (hle j) (hg j hj)
    simp only [predict, UInt8.toNat_toUInt32]
  · rw [if_neg (by decide), if_neg (by decide), if_pos (by decide)]
    simp only [Option.bind_eq_bind, Option.bind_some]
    rw [writeLoop_mid hl 0 valUpHalf bpp 0 pre.length u rfl (by omega) ?_]
    · simp only [Option.bind_some]
      rw [Nat.zero_add, writeLoop_mid hl bpp (valAvg bpp) (raw.length - bpp) bpp pre.length (u + bpp) rfl (by omega) ?_,
        show bpp + (raw.length - bpp) = raw.length by omega]
      intro j hj
      unfold valAvg
      rw [show pre.length + j + bpp = pre.length + (bpp + j) by omega, rp _ _ (by omega) (by omega),
        rp _ _ (by omega) (by omega), if_neg (by omega), if_pos (by omega), show u + bpp + j = u + (bpp + j) by omega,
        ru _ _ (by omega)]
      simp only [Option.bind_eq_bind, Option.bind_some]
      congr 1
      refine unfilter _ _ _ _ ?_ (hle (bpp + j)) (hg (bpp + j) (by omega))
      simp only [predict, left]
      rw [if_neg (by omega), Nat.add_sub_cancel_left]
      unfold applyAvg
      have h1 := (raw.getD j 0).toNat_lt
      have h2 := (prior.getD (bpp + j) 0).toNat_lt
      simp only [UInt32.toNat_shiftRight, UInt32.toNat_add, UInt8.toNat_toUInt32, UInt32.reduceToNat,
        Nat.shiftRight_eq_div_pow, Nat.reduceMod]
      omega
    · intro j hj
      unfold valUpHalf
      rw [rp _ _ (by omega) (by omega), ru _ _ (by omega), if_neg (by omega), Nat.zero_add]
      simp only [Option.bind_eq_bind, Option.bind_some]
      congr 1
      refine unfilter _ _ _ _ ?_ (hle j) (hg j (by omega))
      simp only [predict, left]
      rw [if_pos hj]
      have h2 := (prior.getD j 0).toNat_lt
      simp only [UInt32.toNat_shiftRight, UInt8.toNat_toUInt32, UInt32.reduceToNat,
        Nat.shiftRight_eq_div_pow, Nat.reduceMod]
      omega
  · rw [if_neg (by decide), if_neg (by decide), if_neg (by decide), if_pos (by decide)]
    simp only [Option.bind_eq_bind, Option.bind_some]
    rw [writeLoop_mid hl 0 valUp bpp 0 pre.length u rfl (by omega) ?_]
    · simp only [Option.bind_some]
      rw [Nat.zero_add, writeLoop_mid hl bpp (valPaeth bpp) (raw.length - bpp) bpp pre.length u rfl (by omega) ?_,
        show bpp + (raw.length - bpp) = raw.length by omega]
      intro j hj
      unfold valPaeth
      rw [show pre.length + j + bpp = pre.length + (bpp + j) by omega, rp _ _ (by omega) (by omega),
        rp _ _ (by omega) (by omega), if_neg (by omega), if_pos (by omega), show u + j + bpp = u + (bpp + j) by omega,
        ru _ _ (by omega), ru _ _ (by omega)]
      simp only [Option.bind_eq_bind, Option.bind_some]
      congr 1
      refine unfilter _ _ _ _ ?_ (hle (bpp + j)) (hg (bpp + j) (by omega))
      rw [C06_paeth_exact]
      simp only [predict, left]
      rw [if_neg (by omega), if_neg (by omega), Nat.add_sub_cancel_left]
    · intro j hj
      unfold valUp
      rw [rp _ _ (by omega) (by omega), ru _ _ (by omega), if_neg (by omega), Nat.zero_add]
      simp only [Option.bind_eq_bind, Option.bind_some]
      congr 1
      refine unfilter _ _ _ _ ?_ (hle j) (hg j (by omega))
      simp only [predict, left, UInt8.toNat_toUInt32]
      rw [if_pos hj, if_pos hj]
      unfold paeth
      simp only
      split
      · omega
      · split <;> omega

theorem zeros_getD (L i : Nat) : (List.replicate L (0 : UInt8)).getD i 0 = 0 := by
  rw [List.getD_eq_getElem?_getD, List.getElem?_replicate]
  split <;> rfl

theorem zeros_left (bpp L i : Nat) : left bpp (List.replicate L 0) i = 0 := by
  unfold left
  split
  · rfl
  · rw [zeros_getD]; rfl

/-- The prediction on the first row depends on the byte to the left only. -/
theorem predict_first (t a : Nat) : predict t a 0 0 =
    (if t = 1 ∨ t = 4 then a else if t = 3 then a / 2 else 0) := by
  unfold predict
  split
  · simp
  · simp
  · simp
  · simp only [or_true, if_true]
    unfold paeth
    simp only
    split
    · rfl
    · split <;> omega
  · rename_i h1 h2 h3 h4
    have h1 : t ≠ 1 := h1
    have h3 : t ≠ 3 := h3
    have h4 : t ≠ 4 := h4
    rw [if_neg (by omega), if_neg h3]

/-- The first row. -/
theorem row_first (t bpp : Nat) (raw pre post : List UInt8) (ht : t < 5) (hb : 1 ≤ bpp) (hbl : bpp ≤ raw.length) :
    row (simplifyFirst (UInt32.ofNat t)) bpp raw.length pre.length none
      (pre ++ filterRow bpp t (List.replicate raw.length 0) raw ++ post) = some (pre ++ raw ++ post) := by
  have hl := filterRow_length bpp t (List.replicate raw.length 0) raw
  have hg := filterRow_getD bpp t (List.replicate raw.length 0) raw
  generalize filterRow bpp t (List.replicate raw.length 0) raw = f at *
  simp only [zeros_getD, zeros_left, UInt8.reduceToNat, predict_first] at hg
  rw [← mid_zero pre raw f post, ← mid_all pre raw f post hl]
  unfold row
  rw [if_neg (by omega)]
  have rp : ∀ k j, k ≤ raw.length → j < raw.length → rd (mid pre raw f post k) (pre.length + j) =
      some (if j < k then raw.getD j 0 else f.getD j 0) := fun k j hk hj => getElem?_mid hl hk hj
  -- the first `bpp` bytes are stored as they are
  have hfirst : mid pre raw f post 0 = mid pre raw f post bpp := by
    apply mid_agree hl bpp
    intro i hib hi
    rw [hg i hi]
    simp only [left, hib, if_true, ite_self, Nat.zero_div]
    exact ofNat_self _
  have hll : ∀ j, left bpp raw (bpp + j) = (raw.getD j 0).toNat := by
    intro j; unfold left; rw [if_neg (by omega), Nat.add_sub_cancel_left]
  have hnone : (t = 0 ∨ t = 2) → mid pre raw f post 0 = mid pre raw f post raw.length := by
    intro ht
    apply mid_agree hl
    intro i _ hi
    rw [hg i hi, if_neg (by omega), if_neg (by omega)]
    exact ofNat_self _
  have hsub : (t = 1 ∨ t = 4) → writeLoop bpp (valSub bpp) (raw.length - bpp) pre.length 0 (mid pre raw f post 0) =
      some (mid pre raw f post raw.length) := by
    intro ht
    rw [hfirst, writeLoop_mid hl bpp (valSub bpp) (raw.length - bpp) bpp pre.length 0 rfl (by omega) ?_,
      show bpp + (raw.length - bpp) = raw.length by omega]
    intro j hj
    unfold valSub
    rw [show pre.length + j + bpp = pre.length + (bpp + j) by omega, rp _ _ (by omega) (by omega),
      rp _ _ (by omega) (by omega), if_neg (by omega), if_pos (by omega)]
    simp only [Option.bind_eq_bind, Option.bind_some]
    congr 1
    have h := hg (bpp + j) (by omega)
    rw [if_pos ht, hll] at h
    exact unfilter _ _ _ _ (UInt8.toNat_toUInt32 _) (byte_le _) h
  obtain rfl | rfl | rfl | rfl | rfl : t = 0 ∨ t = 1 ∨ t = 2 ∨ t = 3 ∨ t = 4 := by omega
  · rw [show simplifyFirst (UInt32.ofNat 0) = kNone by decide]
    rw [if_neg (by decide), if_neg (by decide), if_neg (by decide), if_neg (by decide), if_neg (by decide),
      hnone (by omega)]
  · rw [show simplifyFirst (UInt32.ofNat 1) = kSub by decide, if_pos rfl, hsub (by omega)]
  · rw [show simplifyFirst (UInt32.ofNat 2) = kNone by decide]
    rw [if_neg (by decide), if_neg (by decide), if_neg (by decide), if_neg (by decide), if_neg (by decide),
      hnone (by omega)]
  · rw [show simplifyFirst (UInt32.ofNat 3) = kAvg0 by decide]
    rw [if_neg (by decide), if_neg (by decide), if_neg (by decide), if_neg (by decide), if_pos rfl]
    rw [hfirst, writeLoop_mid hl bpp (valAvg0 bpp) (raw.length - bpp) bpp pre.length 0 rfl (by omega) ?_,
      show bpp + (raw.length - bpp) = raw.length by omega]
    intro j hj
    unfold valAvg0
    rw [show pre.length + j + bpp = pre.length + (bpp + j) by omega, rp _ _ (by omega) (by omega),
      rp _ _ (by omega) (by omega), if_neg (by omega), if_pos (by omega)]
    simp only [Option.bind_eq_bind, Option.bind_some]
    congr 1
    have h := hg (bpp + j) (by omega)
    rw [if_neg (by omega), if_pos rfl, hll] at h
    have hle := byte_le (raw.getD j 0)
    refine unfilter _ _ _ _ ?_ (by omega) h
    simp only [UInt32.toNat_shiftRight, UInt8.toNat_toUInt32, UInt32.reduceToNat, Nat.shiftRight_eq_div_pow,
      Nat.reduceMod, Nat.reducePow]
  · rw [show simplifyFirst (UInt32.ofNat 4) = kSub by decide, if_pos rfl, hsub (by omega)]

/-! ## The whole image -/

theorem filterRow_big (bpp t : Nat) (prior raw : List UInt8) (ht : 5 ≤ t) : filterRow bpp t prior raw = raw := by
  have hl := filterRow_length bpp t prior raw
  have := take_agree hl raw.length (fun i _ hi => by
    rw [filterRow_getD bpp t prior raw i hi]
    have : predict t (left bpp raw i) (prior.getD i 0).toNat (left bpp prior i) = 0 := by
      unfold predict
      split
      all_goals first | omega | rfl
    rw [this]
    exact ofNat_self _)
  rw [List.take_length, ← hl, List.take_length] at this
  exact this

/-- The filter byte as the code treats it. -/
theorem ft_eq (f : UInt8) : (if f.toUInt32 ≥ 5 then kNone else f.toUInt32) =
    UInt32.ofNat (if f.toNat < 5 then f.toNat else 0) := by
  by_cases h : f.toNat < 5
  · rw [if_neg, if_pos h]
    · apply UInt32.toNat_inj.mp; simp
    · rw [ge_iff_le, UInt32.le_iff_toNat_le]; simp; omega
  · rw [if_pos, if_neg h]
    · rfl
    · rw [ge_iff_le, UInt32.le_iff_toNat_le]; simp; omega

theorem filterRow_eff (bpp : Nat) (f : UInt8) (prior raw : List UInt8) :
    filterRow bpp f.toNat prior raw = filterRow bpp (if f.toNat < 5 then f.toNat else 0) prior raw := by
  split
  · rfl
  · rw [filterRow_big bpp f.toNat prior raw (by omega)]
    have hl := filterRow_length bpp 0 prior raw
    have := take_agree hl raw.length (fun i _ hi => by
      rw [filterRow_getD bpp 0 prior raw i hi]
      exact ofNat_self _)
    rw [List.take_length, ← hl, List.take_length] at this
    exact this.symm

theorem rows_spec (bpp L : Nat) (hb : 1 ≤ bpp) (hbl : bpp ≤ L) (post : List UInt8) :
    ∀ (rs : List (UInt8 × List UInt8)) (pre prior : List UInt8), prior.length = L →
    (∀ r ∈ rs, r.2.length = L) →
    rows bpp L rs.length (pre ++ prior).length ((pre ++ prior) ++ filterImage bpp prior rs ++ post) =
      some ((pre ++ prior) ++ rawImage rs ++ post) := by
  intro rs
  induction rs with
  | nil => intro pre prior _ _; simp [rows, filterImage, rawImage]
  | cons r rs ih =>
    intro pre prior hp hr
    obtain ⟨f, raw⟩ := r
    have hraw : raw.length = L := hr (f, raw) (by simp)
    rw [List.length_cons]
    unfold rows filterImage
    have e1 : (pre ++ prior) ++ (f :: filterRow bpp f.toNat prior raw ++ filterImage bpp raw rs) ++ post =
        (pre ++ prior ++ [f]) ++ filterRow bpp f.toNat prior raw ++ (filterImage bpp raw rs ++ post) := by simp
    rw [e1]
    have hrd : rd ((pre ++ prior ++ [f]) ++ filterRow bpp f.toNat prior raw ++ (filterImage bpp raw rs ++ post))
        (pre ++ prior).length = some f := by
      unfold rd
      rw [List.append_assoc, List.append_assoc, List.getElem?_append_right (by simp)]
      simp
    rw [hrd]
    simp only [Option.bind_eq_bind, Option.bind_some]
    rw [ft_eq, filterRow_eff]
    have hrow := row_spec (if f.toNat < 5 then f.toNat else 0) bpp prior raw (pre ++ prior ++ [f])
      (filterImage bpp raw rs ++ post) ((pre ++ prior).length - L) (by split <;> omega) hb (by omega)
      (by simp; omega) (by
        intro i hi
        rw [List.getD_eq_getElem?_getD, List.append_assoc, List.getElem?_append_right (by simp; omega),
          List.getElem?_append_left (by simp; omega), List.getD_eq_getElem?_getD]
        congr 2
        simp; omega)
    rw [hraw] at hrow
    have elen : (pre ++ prior ++ [f]).length = (pre ++ prior).length + 1 := by simp; omega
    rw [elen] at hrow
    rw [hrow]
    simp only [Option.bind_some]
    have := ih (pre ++ prior ++ [f]) raw hraw (fun r hr' => hr r (by simp [hr']))
    have e2 : (pre ++ prior ++ [f] ++ raw).length = (pre ++ prior).length + 1 + L := by simp [hraw]; omega
    rw [e2] at this
    have e3 : pre ++ prior ++ [f] ++ raw ++ filterImage bpp raw rs ++ post =
        pre ++ prior ++ [f] ++ raw ++ (filterImage bpp raw rs ++ post) := by simp
    rw [e3] at this
    rw [this]
    simp [rawImage]

/-- C06: for every image (any number of scanlines of any equal length, any filter type per scanline, any bytes per
pixel), running the inverse filter on the data filtered as the PNG standard prescribes restores exactly the original
scanlines, touches nothing else (`post` is whatever follows in memory), and never accesses memory out of bounds.
A filter byte outside `0..4`, which the standard does not define, leaves the scanline as it is. -/
theorem C06_inverse_filter (bpp L : Nat) (hb : 1 ≤ bpp) (hbl : bpp ≤ L) (image : List (UInt8 × List UInt8))
    (hne : image ≠ []) (hr : ∀ r ∈ image, r.2.length = L) (post : List UInt8) :
    inverseFilter (filterImage bpp (List.replicate L 0) image ++ post) bpp (L + 1) image.length =
      some (rawImage image ++ post) := by
  match image, hne, hr with
  | (f, raw) :: rs, _, hr =>
    have hraw : raw.length = L := hr (f, raw) (by simp)
    unfold inverseFilter filterImage
    simp only [Nat.add_sub_cancel, List.length_cons]
    have hrd : rd (f :: filterRow bpp f.toNat (List.replicate L 0) raw ++ filterImage bpp raw rs ++ post) 0 = some f := by
      simp [rd]
    rw [hrd]
    simp only [Option.bind_eq_bind, Option.bind_some]
    rw [ft_eq, filterRow_eff]
    have hrow := row_first (if f.toNat < 5 then f.toNat else 0) bpp raw [f] (filterImage bpp raw rs ++ post)
      (by split <;> omega) hb (by omega)
    rw [hraw] at hrow
    have e1 : f :: filterRow bpp (if f.toNat < 5 then f.toNat else 0) (List.replicate L 0) raw ++ filterImage bpp raw rs ++ post
        = [f] ++ filterRow bpp (if f.toNat < 5 then f.toNat else 0) (List.replicate L 0) raw ++ (filterImage bpp raw rs ++ post) := by
      simp
    rw [e1]
    simp only [List.length_singleton] at hrow
    rw [hrow]
    simp only [Option.bind_some]
    have := rows_spec bpp L hb hbl post rs [f] raw hraw (fun r hr' => hr r (by simp [hr']))
    have e2 : ([f] ++ raw).length = 1 + L := by simp [hraw]; omega
    rw [e2] at this
    rw [← List.append_assoc, this]
    simp [rawImage]

/-- Three scanlines, filters Avg, Paeth, Sub, two bytes per pixel. -/
example : inverseFilter (filterImage 2 [0, 0, 0, 0, 0, 0]
      [(3, [1, 2, 3, 250, 5, 6]), (4, [9, 8, 7, 6, 5, 4]), (1, [0, 255, 1, 254, 2, 253])]) 2 7 3 =
    some [3, 1, 2, 3, 250, 5, 6, 4, 9, 8, 7, 6, 5, 4, 1, 0, 255, 1, 254, 2, 253] := by
  have := C06_inverse_filter 2 6 (by decide) (by decide)
    [(3, [1, 2, 3, 250, 5, 6]), (4, [9, 8, 7, 6, 5, 4]), (1, [0, 255, 1, 254, 2, 253])] (by decide) (by decide) []
  simpa [rawImage] using this

/-- ... and the filtered data really differs from the raw data. -/
example : filterImage 2 [0, 0, 0, 0, 0, 0] [(3, [1, 2, 3, 250, 5, 6])] = [3, 1, 2, 3, 249, 4, 137] := by decide +kernel

end Blend2D.Png
