import Verif.PixConv.Spec
import Verif.Pixel.Lemmas
import Mathlib.Tactic.IntervalCases
import Mathlib.Tactic.Ring

/-!
# Lemmas about pixel converters
-/
namespace Blend2D.PixConv
open Spec Pixel Bits

/-! ## Bytes -/

theorem leVal_eq_number (l : List UInt8) : leVal l = number false l := by
  unfold number
  induction l with
  | nil => rfl
  | cons b l ih => simp only [leVal, List.foldr_cons, ih, Bool.false_eq_true, if_false]

theorem foldl_reverse_eq (l : List UInt8) :
    l.foldl (fun n b => n * 256 + b.toNat) 0 = leVal l.reverse := by
  rw [leVal_eq_number]
  unfold number
  simp only [Bool.false_eq_true, if_false, List.foldr_reverse]
  congr 1
  funext n b
  omega

theorem number_eq (swap : Bool) (l : List UInt8) : number swap l = leVal (if swap then l.reverse else l) := by
  cases swap
  · exact (leVal_eq_number l).symm
  · simp only [number, if_true, foldl_reverse_eq]

theorem leVal_lt (l : List UInt8) : leVal l < 256 ^ l.length := by
  induction l with
  | nil => simp [leVal]
  | cons b l ih =>
    have := b.toNat_lt
    simp only [leVal, List.length_cons, Nat.pow_succ]
    omega

theorem leBytes_length (n v : Nat) : (leBytes n v).length = n := by
  induction n generalizing v with
  | zero => rfl
  | succ n ih => simp [leBytes, ih]

theorem leVal_leBytes (n v : Nat) : leVal (leBytes n v) = v % 256 ^ n := by
  induction n generalizing v with
  | zero => simp [leBytes, leVal, Nat.mod_one]
  | succ n ih =>
    simp only [leBytes, leVal, ih, UInt8.toNat_ofNat']
    rw [Nat.pow_succ 256 n, Nat.mul_comm (256 ^ n), Nat.mod_mul]

theorem store_length (n : Nat) (swap : Bool) (v : UInt32) : (store n swap v).length = n := by
  unfold store
  split <;> simp [leBytes_length]

theorem number_store (n : Nat) (swap : Bool) (v : UInt32) : number swap (store n swap v) = v.toNat % 256 ^ n := by
  rw [number_eq]
  unfold store
  cases swap <;> simp [leVal_leBytes]

theorem fetch_toNat (swap : Bool) (l : List UInt8) (h : l.length ≤ 4) : (fetch swap l).toNat = number swap l := by
  rw [number_eq]
  unfold fetch
  have h1 := leVal_lt (if swap then l.reverse else l)
  have h2 : (if swap then l.reverse else l).length = l.length := by split <;> simp
  have h3 : 256 ^ l.length ≤ 256 ^ 4 := Nat.pow_le_pow_right (by omega) h
  rw [h2] at h1
  rw [UInt32.toNat_ofNat', Nat.mod_eq_of_lt (by omega)]

theorem leVal_byte (l : List UInt8) (k : Nat) : leVal l / 256 ^ k % 256 = ((l[k]?).getD 0).toNat := by
  induction l generalizing k with
  | nil => simp [leVal]
  | cons b l ih =>
    have := b.toNat_lt
    cases k with
    | zero => simp only [leVal, Nat.pow_zero, Nat.div_one, List.getElem?_cons_zero, Option.getD_some]; omega
    | succ k =>
      simp only [leVal, List.getElem?_cons_succ, ← ih]
      rw [Nat.pow_succ, Nat.mul_comm (256 ^ k), ← Nat.div_div_eq_div_mul]
      congr 2
      omega

theorem leVal_reverse_byte (l : List UInt8) (k : Nat) (h : k < l.length) :
    leVal l.reverse / 256 ^ k % 256 = leVal l / 256 ^ (l.length - 1 - k) % 256 := by
  rw [leVal_byte, leVal_byte, List.getElem?_reverse h]

/-! ## Rows -/

theorem slice_length (n i : Nat) (row : List UInt8) (h : (i + 1) * n ≤ row.length) : (slice n i row).length = n := by
  unfold slice
  rw [Nat.succ_mul] at h
  simp only [List.length_take, List.length_drop]
  omega

theorem slice_zero (n : Nat) (row : List UInt8) : slice n 0 row = row.take n := by simp [slice]

theorem slice_succ (n i : Nat) (row : List UInt8) : slice n (i + 1) row = slice n i (row.drop n) := by
  unfold slice
  rw [List.drop_drop]
  congr 2
  rw [Nat.succ_mul]; omega

theorem slice_append (n i : Nat) (x l : List UInt8) (h : x.length = n) : slice n (i + 1) (x ++ l) = slice n i l := by
  rw [slice_succ, ← h, List.drop_left]

theorem mapRow_some (sb : Nat) (ss : Bool) (db : Nat) (ds : Bool) (f : UInt32 → UInt32) (w : Nat) (src : List UInt8)
    (h : w * sb ≤ src.length) :
    ∃ out, mapRow sb ss db ds f w src = some out ∧ out.length = w * db ∧
      ∀ i < w, slice db i out = store db ds (f (fetch ss (slice sb i src))) := by
  induction w generalizing src with
  | zero => exact ⟨[], rfl, by simp, fun i hi => by omega⟩
  | succ w ih =>
    rw [Nat.succ_mul] at h
    obtain ⟨out, h1, h2, h3⟩ := ih (src.drop sb) (by simp; omega)
    refine ⟨store db ds (f (fetch ss (src.take sb))) ++ out, ?_, ?_, ?_⟩
    · simp only [mapRow, h1]
      rw [if_neg (by omega)]
      rfl
    · rw [List.length_append, store_length, h2, Nat.succ_mul, Nat.add_comm]
    · intro i hi
      cases i with
      | zero => rw [slice_zero, slice_zero, List.take_left' (store_length _ _ _)]
      | succ i => rw [slice_append _ _ _ _ (store_length _ _ _), h3 i (by omega), slice_succ]

/-! ## Components -/

theorem and_lsb (x n : Nat) : x &&& lsb n = x % 2 ^ n := Nat.and_two_pow_sub_one_eq_mod x n

theorem tab_table : ∀ n : Fin 9, ∀ v : Fin 256, ∀ base : Fin 3, 1 ≤ n.val → v.val < 2 ^ n.val →
    (UInt32.ofNat v.val * (tabOf (8 * (base.val + 1)) n.val 0).scale).toNat / 2 ^ (8 * (base.val + 1)) = scale n.val 8 v.val ∧
    (UInt32.ofNat v.val * (tabOf (8 * (base.val + 1)) n.val 0).scale).toNat % 2 ^ (8 * base.val) = 0 := by
  decide +kernel

theorem scale_top (n v : Nat) (h : 8 ≤ n) (hv : v < 2 ^ n) : scale n 8 v = v / 2 ^ (n - 8) := by
  have e : 2 ^ n = 2 ^ (n - 8) * 256 := by rw [show (256 : Nat) = 2 ^ 8 from rfl, ← Nat.pow_add]; congr 1; omega
  have hp : 0 < 2 ^ (n - 8) := Nat.two_pow_pos _
  unfold scale
  generalize 2 ^ (n - 8) = K at *
  rw [e] at hv ⊢
  have hq : v = K * (v / K) + v % K := (Nat.div_add_mod v K).symm
  have hr : v % K < K := Nat.mod_lt _ hp
  have hql : v / K < 256 := Nat.div_lt_of_lt_mul hv
  generalize v / K = q at *
  generalize v % K = r at *
  have e2 : 2 ^ 8 * v = q * (K * 256 - 1) + (q + 256 * r) := by
    have : q * (K * 256 - 1) + q = q * (K * 256) := by
      rw [Nat.mul_sub, Nat.mul_one, Nat.sub_add_cancel]
      exact Nat.le_mul_of_pos_right _ (by omega)
    have e3 : 2 ^ 8 * v = q * (K * 256) + 256 * r := by
      rw [hq]
      ring
    rw [e3, ← this]
    omega
  rw [e2]
  have hd : 0 < K * 256 - 1 := by omega
  rw [Nat.mul_comm q, Nat.mul_add_div hd]
  by_cases h255 : q = 255
  · subst h255
    rw [Nat.min_eq_left (Nat.le_add_right _ _)]
  · rw [Nat.div_eq_of_lt (by omega)]; omega

theorem field_lt (c : Ch) (p : Nat) : field c p < 2 ^ c.size := Nat.mod_lt _ (Nat.two_pow_pos _)

theorem scale_le (m n v : Nat) : scale m n v ≤ 2 ^ n - 1 := Nat.min_le_left _ _

theorem ofNat_shift (p : UInt32) (s : Nat) (h : s < 32) : (p >>> UInt32.ofNat s).toNat = p.toNat / 2 ^ s := by
  rw [UInt32.toNat_shiftRight, UInt32.toNat_ofNat', Nat.shiftRight_eq_div_pow]
  rw [Nat.mod_eq_of_lt (show s < 2 ^ 32 by omega), Nat.mod_eq_of_lt h]

theorem part_tab (i : Nat) (hi : i < 3) (n s : Nat) (h1 : 1 ≤ n) (h8 : n ≤ 8) (hs : s < 32) (pix : UInt32) :
    (part (tabOf (8 * (i + 1)) n s) pix).toNat / 2 ^ (8 * (i + 1)) = scale n 8 (pix.toNat / 2 ^ s % 2 ^ n) ∧
    (part (tabOf (8 * (i + 1)) n s) pix).toNat % 2 ^ (8 * i) = 0 := by
  have hv : (pix >>> UInt32.ofNat s &&& UInt32.ofNat (lsb n)) = UInt32.ofNat (pix.toNat / 2 ^ s % 2 ^ n) := by
    apply UInt32.toNat_inj.1
    have hn : 2 ^ n ≤ 2 ^ 8 := Nat.pow_le_pow_right (by omega) h8
    have hl : lsb n < 2 ^ 32 := by unfold lsb; omega
    have := Nat.mod_lt (pix.toNat / 2 ^ s) (Nat.two_pow_pos n)
    rw [UInt32.toNat_and, ofNat_shift _ _ hs, UInt32.toNat_ofNat', UInt32.toNat_ofNat', Nat.mod_eq_of_lt hl, and_lsb]
    exact (Nat.mod_eq_of_lt (by omega)).symm
  have hp : part (tabOf (8 * (i + 1)) n s) pix =
      UInt32.ofNat (pix.toNat / 2 ^ s % 2 ^ n) * (tabOf (8 * (i + 1)) n 0).scale := by
    unfold part tabOf
    simp only [hv]
  have hn : 2 ^ n ≤ 2 ^ 8 := Nat.pow_le_pow_right (by omega) h8
  have hlt := Nat.mod_lt (pix.toNat / 2 ^ s) (Nat.two_pow_pos n)
  have := tab_table ⟨n, by omega⟩ ⟨pix.toNat / 2 ^ s % 2 ^ n, by omega⟩ ⟨i, hi⟩ h1 hlt
  rw [hp]
  exact this

/-- A component of a foreign pixel, moved to its place: the 8-bit component from bit `8 * (i + 1)` on, and nothing in the byte
`i - 1` and below. -/
theorem part_chan (i : Nat) (hi : i < 3) (c : Ch) (h16 : c.size ≤ 16) (hs : c.shift + c.size ≤ 32) (pix : UInt32) :
    (part (nffChan (8 * (i + 1)) c) pix).toNat / 2 ^ (8 * (i + 1)) = scale c.size 8 (field c pix.toNat) ∧
    (part (nffChan (8 * (i + 1)) c) pix).toNat % 2 ^ (8 * i) = 0 := by
  unfold nffChan
  split
  · rename_i h0
    constructor
    · simp [part, scale, field, h0, Nat.mod_one]
    · simp [part]
  · split
    · rename_i h0 h8
      have := part_tab i hi 8 (c.shift + (c.size - 8)) (by omega) (by omega) (by omega) pix
      refine ⟨?_, this.2⟩
      rw [this.1, scale_top c.size _ (by omega) (field_lt c _), scale_top 8 _ (by omega) (Nat.mod_lt _ (by omega))]
      unfold field
      rw [Nat.sub_self, Nat.pow_zero, Nat.div_one]
      have e : 2 ^ c.size = 2 ^ (c.size - 8) * 2 ^ 8 := by rw [← Nat.pow_add]; congr 1; omega
      rw [e, Nat.mod_mul_right_div_self, Nat.div_div_eq_div_mul, ← Nat.pow_add]
    · rename_i h0 h8
      exact part_tab i hi c.size c.shift (by omega) (by omega) (by omega) pix

/-! ## Native pixels from foreign pixels -/

/-- The components of a foreign pixel with 8 bits. -/
def comp (c : Ch) (p : Nat) : Nat := scale c.size 8 (field c p)

theorem comp_lt (c : Ch) (p : Nat) : comp c p < 256 := by
  have := scale_le c.size 8 (field c p)
  unfold comp
  omega

/-- The sizes and shifts of a format that has been accepted. -/
structure Fits (s : Fmt) : Prop where
  r : s.r.size ≤ 16 ∧ s.r.shift + s.r.size ≤ 32
  g : s.g.size ≤ 16 ∧ s.g.shift + s.g.size ≤ 32
  b : s.b.size ≤ 16 ∧ s.b.shift + s.b.size ≤ 32
  a : s.a.size ≤ 16 ∧ s.a.shift + s.a.size ≤ 32

theorem parts (s : Fmt) (h : Fits s) (pix : UInt32) :
    ((part (nff s).r pix).toNat / 2 ^ 16 = comp s.r pix.toNat ∧ (part (nff s).r pix).toNat % 2 ^ 8 = 0) ∧
    ((part (nff s).g pix).toNat / 2 ^ 8 = comp s.g pix.toNat) ∧
    ((part (nff s).b pix).toNat / 2 ^ 8 = comp s.b pix.toNat) ∧
    ((part (nff s).a pix).toNat / 2 ^ 24 = comp s.a pix.toNat ∧ (part (nff s).a pix).toNat % 2 ^ 16 = 0) :=
  ⟨part_chan 1 (by omega) s.r h.r.1 h.r.2 pix, (part_chan 0 (by omega) s.g h.g.1 h.g.2 pix).1,
    (part_chan 0 (by omega) s.b h.b.1 h.b.2 pix).1, part_chan 2 (by omega) s.a h.a.1 h.a.2 pix⟩

theorem and_FF0000 (x : Nat) : x &&& 0xFF0000 = x / 65536 % 256 * 65536 := by
  apply Nat.eq_of_testBit_eq
  intro i
  have e : (0xFF0000 : Nat) = 255 * 2 ^ 16 := by norm_num
  have e2 : (65536 : Nat) = 2 ^ 16 := by norm_num
  have e3 : (256 : Nat) = 2 ^ 8 := by norm_num
  rw [Nat.testBit_and, e, Nat.testBit_mul_two_pow, show (255 : Nat) = 2 ^ 8 - 1 by norm_num, Nat.testBit_two_pow_sub_one, e2, e3,
    Nat.testBit_mul_two_pow, Nat.testBit_mod_two_pow, Nat.testBit_div_two_pow]
  by_cases h : 16 ≤ i
  · simp only [h, decide_true, Bool.true_and, Nat.add_sub_cancel' h, Nat.sub_add_cancel h]
    rw [Bool.and_comm]
  · simp [h]

theorem and_FF00 (x : Nat) : x &&& 0xFF00 = x / 256 % 256 * 256 := by
  apply Nat.eq_of_testBit_eq
  intro i
  have e : (0xFF00 : Nat) = 255 * 2 ^ 8 := by norm_num
  have e3 : (256 : Nat) = 2 ^ 8 := by norm_num
  rw [Nat.testBit_and, e, Nat.testBit_mul_two_pow, show (255 : Nat) = 2 ^ 8 - 1 by norm_num, Nat.testBit_two_pow_sub_one, e3,
    Nat.testBit_mul_two_pow, Nat.testBit_mod_two_pow, Nat.testBit_div_two_pow]
  by_cases h : 8 ≤ i
  · simp only [h, decide_true, Bool.true_and, Nat.add_sub_cancel' h, Nat.sub_add_cancel h]
    rw [Bool.and_comm]
  · simp [h]

theorem fromXrgb_toNat (s : Fmt) (h : Fits s) (ha : s.alpha = false) (pix : UInt32) :
    (fromXrgb (nff s) pix).toNat = pack4 255 (comp s.r pix.toNat) (comp s.g pix.toNat) (comp s.b pix.toNat) := by
  obtain ⟨⟨hr, -⟩, hg, hb, -⟩ := parts s h pix
  have lr := comp_lt s.r pix.toNat
  have lg := comp_lt s.g pix.toNat
  have lb := comp_lt s.b pix.toNat
  unfold fromXrgb
  have hf : (nff s).fill = 0xFF000000 := by simp [nff, ha]
  rw [hf]
  simp only [UInt32.toNat_or, UInt32.toNat_and, UInt32.toNat_shiftRight, UInt32.reduceToNat, Nat.shiftRight_eq_div_pow,
    Nat.reducePow, Nat.reduceMod, and_FF0000, and_FF00]
  norm_num at hr hg hb
  rw [hr, hg, hb, Nat.mod_eq_of_lt lr, Nat.mod_eq_of_lt lg]
  have := pack_or 255 (comp s.r pix.toNat) (comp s.g pix.toNat) (comp s.b pix.toNat) lr lg lb
  rw [← this]
  norm_num
  ac_rfl

/-- The arithmetic of a premultiplication of two times two components. -/
def lanes (rb ag a : UInt32) : UInt32 :=
  let rb := rb * a + 0x00800080
  let ag := ag * a + 0x00800080
  let rb := (rb + ((rb >>> 8) &&& 0x00FF00FF)) &&& 0xFF00FF00
  let ag := (ag + ((ag >>> 8) &&& 0x00FF00FF)) &&& 0xFF00FF00
  ag ||| (rb >>> 8)

theorem premul_core (v a rb ag : UInt32) (h1 : (v ||| 0xFF000000) &&& 0x00FF00FF = rb)
    (h2 : ((v ||| 0xFF000000) >>> 8) &&& 0x00FF00FF = ag) : cvtPrgb32FromArgb32With v a = lanes rb ag a := by
  subst h1 h2
  rfl

theorem fromArgb_toNat (s : Fmt) (h : Fits s) (pix : UInt32) :
    (fromArgb (nff s) pix).toNat = pack4 (comp s.a pix.toNat) (r255 (comp s.r pix.toNat * comp s.a pix.toNat))
      (r255 (comp s.g pix.toNat * comp s.a pix.toNat)) (r255 (comp s.b pix.toNat * comp s.a pix.toNat)) := by
  obtain ⟨⟨hr, -⟩, hg, hb, ha, -⟩ := parts s h pix
  have lr := comp_lt s.r pix.toNat
  have lg := comp_lt s.g pix.toNat
  have lb := comp_lt s.b pix.toNat
  have la := comp_lt s.a pix.toNat
  norm_num at hr hg hb ha
  have hv : ∃ v : UInt32, v.toNat = pack4 0 (comp s.r pix.toNat) (comp s.g pix.toNat) (comp s.b pix.toNat) :=
    ⟨UInt32.ofNat (pack4 0 (comp s.r pix.toNat) (comp s.g pix.toNat) (comp s.b pix.toNat)), by
      rw [UInt32.toNat_ofNat', Nat.mod_eq_of_lt (by unfold pack4; omega)]⟩
  obtain ⟨v, hv⟩ := hv
  have hp := premul_core v (part (nff s).a pix >>> 24)
    ((part (nff s).r pix &&& 0x00FF0000) ||| (part (nff s).b pix >>> (8 : UInt32)))
    ((part (nff s).g pix >>> (8 : UInt32)) ||| 0x00FF0000) ?_ ?_
  · have e : fromArgb (nff s) pix = cvtPrgb32FromArgb32With v (part (nff s).a pix >>> 24) := by
      rw [hp]; rfl
    have ea : (part (nff s).a pix >>> 24).toNat = comp s.a pix.toNat := by
      simp only [UInt32.toNat_shiftRight, UInt32.reduceToNat, Nat.shiftRight_eq_div_pow, Nat.reducePow, Nat.reduceMod]
      exact ha
    rw [e, cvtPrgbWith_toNat _ _ (by omega), ea, hv]
    have e1 : pack4 0 (comp s.r pix.toNat) (comp s.g pix.toNat) (comp s.b pix.toNat) / 65536 % 256 = comp s.r pix.toNat := by
      unfold pack4; omega
    have e2 : pack4 0 (comp s.r pix.toNat) (comp s.g pix.toNat) (comp s.b pix.toNat) / 256 % 256 = comp s.g pix.toNat := by
      unfold pack4; omega
    have e3 : pack4 0 (comp s.r pix.toNat) (comp s.g pix.toNat) (comp s.b pix.toNat) % 256 = comp s.b pix.toNat := by
      unfold pack4; omega
    rw [e1, e2, e3]
  all_goals
    apply UInt32.toNat_inj.1
    have hw : (v ||| 0xFF000000).toNat = pack4 255 (comp s.r pix.toNat) (comp s.g pix.toNat) (comp s.b pix.toNat) := by
      rw [UInt32.toNat_or, hv, ← pack_or _ _ _ _ lr lg lb, ← pack_or _ _ _ _ lr lg lb,
        show (0xFF000000 : UInt32).toNat = 255 * 16777216 from rfl, Nat.zero_mul, Nat.zero_or]
      ac_rfl
    rw [UInt32.toNat_and]
  · rw [hw]
    simp only [UInt32.toNat_or, UInt32.toNat_and, UInt32.toNat_shiftRight, UInt32.reduceToNat, Nat.shiftRight_eq_div_pow,
      Nat.reducePow, Nat.reduceMod, and_FF0000, and_00FF00FF]
    rw [hr, hb, Nat.mod_eq_of_lt lr]
    have := pack_or 0 (comp s.r pix.toNat) 0 (comp s.b pix.toNat) lr (by omega) lb
    simp only [Nat.zero_mul, Nat.zero_or, Nat.or_zero] at this
    rw [this]
    unfold pack4
    omega
  · rw [UInt32.toNat_shiftRight, hw]
    simp only [UInt32.toNat_or, UInt32.toNat_and, UInt32.toNat_shiftRight, UInt32.reduceToNat, Nat.shiftRight_eq_div_pow,
      Nat.reducePow, Nat.reduceMod, and_00FF00FF]
    rw [hg]
    have := pack_or 0 255 0 (comp s.g pix.toNat) (by omega) (by omega) lg
    simp only [Nat.zero_mul, Nat.zero_or, Nat.or_zero, Nat.reduceMul] at this
    rw [Nat.or_comm, this]
    unfold pack4
    omega

theorem fromPrgb_toNat (s : Fmt) (h : Fits s) (pix : UInt32) :
    (fromPrgb (nff s) pix).toNat = pack4 (comp s.a pix.toNat) (comp s.r pix.toNat) (comp s.g pix.toNat) (comp s.b pix.toNat) := by
  obtain ⟨⟨hr, hr0⟩, hg, hb, ha, ha0⟩ := parts s h pix
  have lr := comp_lt s.r pix.toNat
  have lg := comp_lt s.g pix.toNat
  have lb := comp_lt s.b pix.toNat
  have la := comp_lt s.a pix.toNat
  norm_num at hr hr0 hg hb ha ha0
  unfold fromPrgb
  have la2 := (part (nff s).a pix).toNat_lt
  simp only [UInt32.toNat_or, UInt32.toNat_and, UInt32.toNat_add, UInt32.toNat_shiftRight, UInt32.reduceToNat,
    Nat.shiftRight_eq_div_pow, Nat.reducePow, Nat.reduceMod, and_00FF00FF, and_FF00FF00]
  generalize (part (nff s).r pix).toNat = R at *
  generalize (part (nff s).g pix).toNat = G at *
  generalize (part (nff s).b pix).toNat = B at *
  generalize (part (nff s).a pix).toNat = A at *
  generalize comp s.r pix.toNat = r at *
  generalize comp s.g pix.toNat = g at *
  generalize comp s.b pix.toNat = b at *
  generalize comp s.a pix.toNat = a at *
  have e1 : (A + G) % 4294967296 / 16777216 % 256 = a := by omega
  have e2 : (A + G) % 4294967296 / 256 % 256 = g := by omega
  have e3 : (R + B / 256) % 4294967296 / 65536 % 256 = r := by omega
  have e4 : (R + B / 256) % 4294967296 % 256 = b := by omega
  rw [e1, e2, e3, e4]
  have h1 := pack_or a 0 g 0 (by omega) lg (by omega)
  have h2 := pack_or 0 r 0 b lr (by omega) lb
  have h3 := pack_or a r g b lr lg lb
  unfold pack4 at h1 h2 h3 ⊢
  simp only [Nat.zero_mul, Nat.zero_or, Nat.or_zero, Nat.add_zero, Nat.zero_add] at h1 h2
  rw [← h1, ← h2, ← h3]
  ac_rfl

end Blend2D.PixConv
