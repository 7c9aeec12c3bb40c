import Verif.BitArr.Model
import Verif.BitOps.Props
/-! # What `combine_word_data` does to the bits -/
namespace Blend2D.BitArr
open Blend2D.BitOps

/-- Bit `i` of a list of words. -/
abbrev bit (ws : List W) (i : Nat) : Bool := bitAt .msb ws i

/-- What a combining operator does to a bit. -/
def Comb.f : Comb → Bool → Bool → Bool
  | .or, x, y => x || y
  | .andNot, x, y => x && !y
  | .assign, _, y => y

theorem bit_split (ws : List W) (k j : Nat) (hj : j < 32) (x : W) (hx : ws[k]? = some x) :
    bit ws (32 * k + j) = hasBit .msb x j := by
  have := bitAt_word .msb ws (k := k) hj
  rw [hx] at this
  rw [bit, Nat.mul_comm]; exact this

theorem op_bit (c : Comb) (x y : W) (j : Nat) (hj : j < 32) :
    hasBit .msb (c.op x y) j = c.f (hasBit .msb x j) (hasBit .msb y j) := by
  cases c <;> simp [Comb.op, Comb.f, hasBit_or, hasBit_and, hasBit_not _ _ hj]

theorem opMasked_bit (c : Comb) (x y m : W) (j : Nat) (hj : j < 32) :
    hasBit .msb (c.opMasked x y m) j = if hasBit .msb m j then c.f (hasBit .msb x j) (hasBit .msb y j) else hasBit .msb x j := by
  cases hm : hasBit .msb m j <;> cases c <;> simp [Comb.opMasked, Comb.f, hasBit_or, hasBit_and, hasBit_not _ _ hj, hm]

/-- The bits from `lo` to `hi` are combined with the source's, the others are those of `dst0`. -/
structure Done (c : Comb) (lo : Nat) (src dst0 dst : List W) (hi : Nat) : Prop where
  len : dst.length = dst0.length
  val : ∀ p, bit dst p = if lo ≤ p ∧ p < hi then c.f (bit dst0 p) (bit src (p - lo)) else bit dst0 p

theorem Done.start (c : Comb) (lo : Nat) (src dst : List W) : Done c lo src dst dst lo :=
  ⟨rfl, fun p => by rw [if_neg (by omega)]⟩

/-- One more word. -/
theorem Done.next {c : Comb} {lo : Nat} {src dst0 dst : List W} {hi : Nat} (h : Done c lo src dst0 dst hi) (k a b : Nat)
    (x x' : W) (hx : dst[k]? = some x) (hk : hi = 32 * k + a) (hlo : lo ≤ hi) (hb : b ≤ 32) (hab : a ≤ b)
    (hx' : ∀ j, j < 32 → hasBit .msb x' j = if a ≤ j ∧ j < b then c.f (hasBit .msb x j) (bit src (32 * k + j - lo)) else hasBit .msb x j) :
    Done c lo src dst0 (dst.set k x') (32 * k + b) := by
  have hkl : k < dst.length := (List.getElem?_eq_some_iff.1 hx).1
  refine ⟨by rw [List.length_set]; exact h.len, ?_⟩
  intro p
  have hp : p = 32 * (p / 32) + p % 32 := by omega
  have hpm : p % 32 < 32 := by omega
  rw [bit, bitAt_set .msb dst hkl]
  by_cases hq : p / 32 = k
  · rw [if_pos hq, hx' _ hpm]
    have hold : bit dst p = hasBit .msb x (p % 32) := by
      have := bit_split dst k (p % 32) hpm x hx
      rw [← hq, ← hp] at this; exact this
    rw [← hold, h.val]
    have e1 : 32 * k + p % 32 - lo = p - lo := by omega
    rw [e1]
    by_cases h1 : a ≤ p % 32 ∧ p % 32 < b
    · rw [if_pos h1, if_neg (by omega), if_pos (by omega)]
    · rw [if_neg h1]
      by_cases h2 : lo ≤ p ∧ p < hi
      · rw [if_pos h2, if_pos (by omega)]
      · rw [if_neg h2, if_neg (by omega)]
  · rw [if_neg hq]
    show bit dst p = _
    rw [h.val]
    by_cases h2 : lo ≤ p ∧ p < hi
    · rw [if_pos h2, if_pos (by omega)]
    · rw [if_neg h2, if_neg (by omega)]

theorem startMask_ok (n : Nat) (h0 : 0 < n) (h : n ≤ 32) :
    ∃ m, startMask .msb 32 n = some m ∧ ∀ j, j < 32 → hasBit .msb m j = decide (j < n) := by
  obtain ⟨m, h1, h2⟩ := hasBit_startMask .msb (N := 32) h0 h
  exact ⟨m, h1, fun j hj => h2 j hj⟩

theorem endMask_ok (n : Nat) (h0 : 0 < n) (h : n ≤ 32) :
    ∃ m, endMask n = some m ∧ ∀ j, j < 32 → hasBit .msb m j = decide (32 - n ≤ j) := by
  refine ⟨_, by unfold endMask; rw [if_pos ⟨h0, h⟩], ?_⟩
  intro j hj
  have h2 := hasBit_shiftToEnd .msb (BitVec.allOnes 32) (k := 32 - n) (by omega)
  obtain ⟨y, e, hb⟩ := h2
  simp only [shiftToEnd, if_pos (show 32 - n < 32 by omega), Option.some.injEq] at e
  rw [e, hb j hj]
  by_cases h1 : 32 - n ≤ j
  · rw [hasBit_ones .msb (by omega), Bool.and_true]
  · simp only [h1, decide_false, Bool.false_and]

theorem toEnd_ok (x : W) (k : Nat) (h : k < 32) :
    ∃ y, shiftToEnd .msb x k = some y ∧ ∀ j, j < 32 → hasBit .msb y j = if k ≤ j then hasBit .msb x (j - k) else false := by
  refine ⟨x >>> k, by simp [shiftToEnd, h], ?_⟩
  intro j hj
  simp only [hasBit, BitVec.getMsbD_ushiftRight]
  by_cases h1 : k ≤ j
  · simp [h1, hj, Nat.not_lt.2 h1]
  · simp [h1, Nat.lt_of_not_le h1]

theorem toStart_ok (x : W) (k : Nat) (h : k < 32) :
    ∃ y, shiftToStart x k = some y ∧ ∀ j, j < 32 → hasBit .msb y j = if j + k < 32 then hasBit .msb x (j + k) else false := by
  refine ⟨x <<< k, by simp [shiftToStart, h], ?_⟩
  intro j hj
  simp only [hasBit, BitVec.getMsbD_shiftLeft]
  by_cases h1 : j + k < 32
  · simp only [h1, if_true]
  · rw [if_neg h1]
    rw [Nat.add_comm] at h1
    exact BitVec.getMsbD_of_ge _ _ (by omega)

theorem startMaskAt_ok (n k : Nat) (h0 : 0 < n) (h : n + k ≤ 32) :
    ∃ m, startMaskAt n k = some m ∧ ∀ j, j < 32 → hasBit .msb m j = decide (k ≤ j ∧ j < k + n) := by
  obtain ⟨m, h1, h2⟩ := startMask_ok n h0 (by omega)
  obtain ⟨y, h3, h4⟩ := toEnd_ok m k (by omega)
  refine ⟨y, by simp [startMaskAt, h1, h3], ?_⟩
  intro j hj
  rw [h4 j hj]
  by_cases hk : k ≤ j
  · rw [if_pos hk, h2 _ (by omega)]
    apply decide_eq_decide.2; omega
  · rw [if_neg hk]
    symm; apply decide_eq_false; omega

theorem combineWords_ok (c : Comb) (src dst0 : List W) (k0 : Nat) (n : Nat) : ∀ (dst : List W) (i : Nat),
    Done c (32 * k0) src dst0 dst (32 * (k0 + i)) → k0 + i + n ≤ dst.length → i + n ≤ src.length →
    ∃ r, combineWords c dst src (k0 + i) i n = some r ∧ Done c (32 * k0) src dst0 r (32 * (k0 + i + n)) := by
  induction n with
  | zero => intro dst i h _ _; exact ⟨dst, rfl, h⟩
  | succ n ih =>
    intro dst i h h1 h2
    have hx := List.getElem?_eq_getElem (l := dst) (i := k0 + i) (by omega)
    have hy := List.getElem?_eq_getElem (l := src) (i := i) (by omega)
    have hn := h.next (k0 + i) 0 32 dst[k0 + i] (c.op dst[k0 + i] src[i]) hx (by omega) (by omega) (by omega) (by omega) (by
      intro j hj
      rw [if_pos ⟨by omega, hj⟩, op_bit c _ _ j hj]
      have e : 32 * (k0 + i) + j - 32 * k0 = 32 * i + j := by omega
      rw [e, bit_split src i j hj _ hy])
    have e1 : 32 * (k0 + i) + 32 = 32 * (k0 + (i + 1)) := by omega
    rw [e1] at hn
    obtain ⟨r, r1, r2⟩ := ih (dst.set (k0 + i) (c.op dst[k0 + i] src[i])) (i + 1) hn (by rw [List.length_set]; omega) (by omega)
    refine ⟨r, by simp only [combineWords, hx, hy, Option.bind_eq_bind, Option.bind_some]; exact r1, ?_⟩
    have e2 : k0 + (i + 1) + n = k0 + i + (n + 1) := by omega
    rw [e2] at r2; exact r2

/-- The bits of two adjacent source words. -/
theorem pair_bits (src : List W) (i shift : Nat) (hs : 0 < shift) (hs2 : shift < 32) (w : W) (hw : src[i]? = some w) :
    ∃ p, shiftToStart w (32 - shift) = some p ∧
      (∀ j, j < 32 → hasBit .msb p j = if j < shift then bit src (32 * (i + 1) + j - shift) else false) ∧
      ∀ w', src[i + 1]? = some w' → ∃ y, shiftToEnd .msb w' shift = some y ∧
        ∀ j, j < 32 → hasBit .msb (p ||| y) j = bit src (32 * (i + 1) + j - shift) := by
  obtain ⟨p, hp, hpb⟩ := toStart_ok w (32 - shift) (by omega)
  have hp2 : ∀ j, j < 32 → hasBit .msb p j = if j < shift then bit src (32 * (i + 1) + j - shift) else false := by
    intro j hj
    rw [hpb j hj]
    by_cases h : j < shift
    · rw [if_pos h, if_pos (by omega)]
      have e : 32 * (i + 1) + j - shift = 32 * i + (j + (32 - shift)) := by omega
      rw [e, bit_split src i _ (by omega) w hw]
    · rw [if_neg h, if_neg (by omega)]
  refine ⟨p, hp, hp2, ?_⟩
  intro w' hw'
  obtain ⟨y, hy, hyb⟩ := toEnd_ok w' shift hs2
  refine ⟨y, hy, ?_⟩
  intro j hj
  rw [hasBit_or, hp2 j hj, hyb j hj]
  by_cases h : j < shift
  · rw [if_pos h, if_neg (by omega), Bool.or_false]
  · rw [if_neg h, if_pos (by omega), Bool.false_or]
    have e : 32 * (i + 1) + j - shift = 32 * (i + 1) + (j - shift) := by omega
    rw [e, bit_split src (i + 1) _ (by omega) w' hw']

theorem combineLoop_ok (c : Comb) (src dst0 : List W) (k0 shift : Nat) (hs : 0 < shift) (hs2 : shift < 32) (n : Nat) :
    ∀ (dst : List W) (w : W) (i : Nat), src[i]? = some w →
    Done c (32 * k0 + shift) src dst0 dst (32 * (k0 + (i + 1))) → k0 + (i + 1) + n ≤ dst.length → i + 1 + n ≤ src.length →
    ∃ r w', combineLoop c src shift (32 - shift) dst w k0 (i + 1) n = some (r, w') ∧ src[i + n]? = some w' ∧
      Done c (32 * k0 + shift) src dst0 r (32 * (k0 + (i + 1) + n)) := by
  induction n with
  | zero => intro dst w i hw h _ _; exact ⟨dst, w, rfl, hw, h⟩
  | succ n ih =>
    intro dst w i hw h h1 h2
    have hx := List.getElem?_eq_getElem (l := dst) (i := k0 + (i + 1)) (by omega)
    have hy := List.getElem?_eq_getElem (l := src) (i := i + 1) (by omega)
    obtain ⟨p, hp, _, hpy⟩ := pair_bits src i shift hs hs2 w hw
    obtain ⟨y, hy1, hy2⟩ := hpy _ hy
    have hn := h.next (k0 + (i + 1)) 0 32 dst[k0 + (i + 1)] (c.op dst[k0 + (i + 1)] (p ||| y)) hx (by omega) (by omega) (by omega) (by omega) (by
      intro j hj
      rw [if_pos ⟨by omega, hj⟩, op_bit c _ _ j hj, hy2 j hj]
      have e : 32 * (k0 + (i + 1)) + j - (32 * k0 + shift) = 32 * (i + 1) + j - shift := by omega
      rw [e])
    have e1 : 32 * (k0 + (i + 1)) + 32 = 32 * (k0 + (i + 1 + 1)) := by omega
    rw [e1] at hn
    obtain ⟨r, w', r1, r2, r3⟩ := ih (dst.set (k0 + (i + 1)) (c.op dst[k0 + (i + 1)] (p ||| y))) _ (i + 1) hy hn (by rw [List.length_set]; omega) (by omega)
    refine ⟨r, w', by simp only [combineLoop, hp, hx, hy, hy1, Option.bind_eq_bind, Option.bind_some]; exact r1, ?_, ?_⟩
    · have : i + 1 + n = i + (n + 1) := by omega
      rw [← this]; exact r2
    · have e2 : k0 + (i + 1 + 1) + n = k0 + (i + 1) + (n + 1) := by omega
      rw [e2] at r3; exact r3

/-- The cases in which `combine_word_data` is right: the bits start at a word boundary, or end in the first word or at
a word boundary, or the last word does not need source bits that are not read (`r ≤ shift`) and none are read that do
not exist. -/
def CombineOk (size index : Nat) (src : List W) : Prop :=
  let bits := min (src.length * 32) (size - index)
  let shift := index % 32
  let rest := bits - (32 - shift)
  shift = 0 ∨ src ≠ [] ∧ (bits ≤ 32 - shift ∨ rest % 32 = 0 ∨
    (if 32 - shift < rest % 32 then 1 + rest / 32 < src.length else rest % 32 ≤ shift))

instance (size index : Nat) (src : List W) : Decidable (CombineOk size index src) := by
  unfold CombineOk; exact inferInstance

theorem combine_ok (c : Comb) (size : Nat) (dst : List W) (index : Nat) (src : List W) (hd : size ≤ 32 * dst.length)
    (hi : index < size) (hok : CombineOk size index src) :
    ∃ r, combine c size dst index src = some r ∧
      Done c index src dst r (index + min (src.length * 32) (size - index)) := by
  unfold combine
  simp only [CombineOk] at hok
  generalize hbits : min (src.length * 32) (size - index) = bits at *
  have hb1 : bits ≤ src.length * 32 := by omega
  have hb2 : index + bits ≤ size := by omega
  have hsub : index + bits - index = bits := by omega
  simp only [hsub]
  generalize hk : index / 32 = k at *
  generalize hsh : index % 32 = shift at *
  have hidx : index = 32 * k + shift := by omega
  have hs32 : shift < 32 := by omega
  by_cases h0 : shift = 0
  · rw [if_pos h0]
    subst h0
    have hidx' : index = 32 * k := by omega
    have hn : min (wordCount bits) src.length = wordCount bits := by unfold wordCount; omega
    have he : (index + bits) % 32 = bits % 32 := by omega
    rw [hn, he]
    have hstart : Done c (32 * k) src dst dst (32 * (k + 0)) := Done.start c (32 * k) src dst
    by_cases hz : bits % 32 = 0
    · rw [if_neg (fun h => h hz)]
      have hwc : wordCount bits - 0 = bits / 32 := by unfold wordCount; omega
      rw [hwc]
      obtain ⟨r, r1, r2⟩ := combineWords_ok c src dst k (bits / 32) dst 0 hstart (by omega) (by omega)
      simp only [Nat.add_zero] at r1
      refine ⟨r, by simp [r1, hz], ?_⟩
      rw [hidx']
      have : 32 * (k + 0 + bits / 32) = 32 * k + bits := by omega
      rw [this] at r2; exact r2
    · rw [if_pos hz]
      have hwc : wordCount bits - 1 = bits / 32 := by unfold wordCount; omega
      rw [hwc]
      obtain ⟨r, r1, r2⟩ := combineWords_ok c src dst k (bits / 32) dst 0 hstart (by omega) (by omega)
      simp only [Nat.add_zero] at r1 r2
      have hlen : k + bits / 32 < r.length := by rw [r2.len]; omega
      have hx := List.getElem?_eq_getElem hlen
      have hsl : bits / 32 < src.length := by omega
      have hy := List.getElem?_eq_getElem hsl
      obtain ⟨m, hm, hmb⟩ := startMask_ok (bits % 32) (by omega) (by omega)
      refine ⟨_, by simp only [r1, hx, hy, hm, Option.bind_eq_bind, Option.bind_some]; rw [if_pos hz]; rfl, ?_⟩
      rw [hidx']
      have := r2.next (k + bits / 32) 0 (bits % 32) _ (c.opMasked r[k + bits / 32] src[bits / 32] m) hx (by omega) (by omega) (by omega) (by omega) (by
        intro j hj
        rw [opMasked_bit c _ _ _ j hj, hmb j hj]
        by_cases h : j < bits % 32
        · rw [if_pos (by simpa using h), if_pos ⟨by omega, h⟩]
          have e : 32 * (k + bits / 32) + j - 32 * k = 32 * (bits / 32) + j := by omega
          rw [e, bit_split src _ j hj _ hy]
        · rw [if_neg (by simpa using h), if_neg (by omega)])
      have e : 32 * (k + bits / 32) + bits % 32 = 32 * k + bits := by omega
      rw [e] at this; exact this
  · rw [if_neg h0]
    rcases hok with hok | ⟨hne, hok⟩
    · exact absurd hok h0
    have hpos : 0 < src.length := List.length_pos_iff.2 hne
    have hw0 := List.getElem?_eq_getElem (l := src) (i := 0) hpos
    obtain ⟨y, hy, hyb⟩ := toEnd_ok src[0] shift hs32
    have hkl : k < dst.length := by omega
    have hx := List.getElem?_eq_getElem hkl
    simp only [hw0, hy, hx, Option.bind_eq_bind, Option.bind_some]
    have hfirst : ∀ b, b ≤ 32 → shift ≤ b → ∀ m, (∀ j, j < 32 → hasBit .msb m j = decide (shift ≤ j ∧ j < b)) →
        Done c index src dst (dst.set k (c.opMasked dst[k] y m)) (32 * k + b) := by
      intro b hb hbs m hm
      refine (Done.start c index src dst).next k shift b _ _ hx hidx (by omega) hb hbs ?_
      intro j hj
      rw [opMasked_bit c _ _ _ j hj, hm j hj]
      by_cases h : shift ≤ j ∧ j < b
      · rw [if_pos (by simpa using h), if_pos h, hyb j hj, if_pos h.1]
        have e : 32 * k + j - index = 32 * 0 + (j - shift) := by omega
        rw [e, bit_split src 0 _ (by omega) _ hw0]
      · rw [if_neg (by simpa using h), if_neg h]
    by_cases hfit : bits ≤ 32 - shift
    · rw [if_pos hfit]
      have hb0 : 0 < bits := by omega
      obtain ⟨m, hm, hmb⟩ := startMaskAt_ok bits shift hb0 (by omega)
      refine ⟨_, by rw [hm]; rfl, ?_⟩
      have := hfirst (shift + bits) (by omega) (by omega) m hmb
      have e : 32 * k + (shift + bits) = index + bits := by omega
      rw [e] at this; exact this
    · rw [if_neg hfit]
      obtain ⟨m, hm, hmb⟩ := endMask_ok (32 - shift) (by omega) (by omega)
      have hD := hfirst 32 (by omega) (by omega) m (by
        intro j hj; rw [hmb j hj]; apply decide_eq_decide.2; omega)
      simp only [hm, Option.bind_some]
      generalize hrest : bits - (32 - shift) = rest at *
      have e0 : 32 * k + 32 = 32 * (k + (0 + 1)) := by omega
      rw [e0] at hD
      obtain ⟨r, w', r1, r2, r3⟩ : ∃ r w', combineLoop c src shift (32 - shift) (dst.set k (c.opMasked dst[k] y m)) src[0] k (0 + 1) (rest / 32) = some (r, w') ∧
          src[0 + rest / 32]? = some w' ∧ Done c index src dst r (32 * (k + (0 + 1) + rest / 32)) := by
        rw [hidx] at hD ⊢
        exact combineLoop_ok c src dst k shift (by omega) hs32 (rest / 32) _ _ 0 hw0 hD (by rw [List.length_set]; omega) (by omega)
      simp only [Nat.zero_add] at r1 r2 r3
      simp only [r1, Option.bind_some]
      by_cases hz : rest % 32 = 0
      · rw [if_pos hz]
        refine ⟨r, rfl, ?_⟩
        have e : 32 * (k + 1 + rest / 32) = index + bits := by omega
        rw [e] at r3; exact r3
      · rw [if_neg hz]
        have hcond : if 32 - shift < rest % 32 then 1 + rest / 32 < src.length else rest % 32 ≤ shift := by
          rcases hok with h | h | h
          · omega
          · omega
          · exact h
        unfold combineLast
        obtain ⟨p, hp, hpb, hpy⟩ := pair_bits src (rest / 32) shift (by omega) hs32 w' r2
        have hxl : k + (1 + rest / 32) < r.length := by rw [r3.len]; omega
        have hxx := List.getElem?_eq_getElem hxl
        obtain ⟨m2, hm2, hmb2⟩ := startMask_ok (rest % 32) (by omega) (by omega)
        simp only [hp, Option.bind_eq_bind, Option.bind_some, hm2, hxx]
        have hlast : ∀ z : W, (∀ j, j < rest % 32 → hasBit .msb z j = bit src (32 * (rest / 32 + 1) + j - shift)) →
            Done c index src dst (r.set (k + (1 + rest / 32)) (c.opMasked r[k + (1 + rest / 32)] z m2)) (index + bits) := by
          intro z hz
          have hlo : index ≤ 32 * (k + 1 + rest / 32) := by omega
          have := r3.next (k + (1 + rest / 32)) 0 (rest % 32) _ (c.opMasked r[k + (1 + rest / 32)] z m2) hxx (by omega) hlo (by omega) (by omega) (by
            intro j hj
            rw [opMasked_bit c _ _ _ j hj, hmb2 j hj]
            by_cases h : j < rest % 32
            · rw [if_pos (by simpa using h), if_pos ⟨by omega, h⟩, hz j h]
              have e : 32 * (k + (1 + rest / 32)) + j - index = 32 * (rest / 32 + 1) + j - shift := by omega
              rw [e]
            · rw [if_neg (by simpa using h), if_neg (by omega)])
          have e : 32 * (k + (1 + rest / 32)) + rest % 32 = index + bits := by omega
          rw [e] at this; exact this
        by_cases hc : 32 - shift < rest % 32
        · rw [if_pos hc] at hcond ⊢
          have hs1 : rest / 32 + 1 < src.length := by omega
          have hsx := List.getElem?_eq_getElem hs1
          obtain ⟨y2, hy2, hyb2⟩ := hpy _ hsx
          have e : 1 + rest / 32 = rest / 32 + 1 := by omega
          have hsx' : src[1 + rest / 32]? = some src[rest / 32 + 1] := by rw [e]; exact hsx
          exact ⟨_, by simp only [hsx', Option.bind_some, hy2]; rfl, hlast (p ||| y2) (fun j hj => hyb2 j (by omega))⟩
        · rw [if_neg hc] at hcond ⊢
          refine ⟨_, rfl, hlast p (fun j hj => ?_)⟩
          rw [hpb j (by omega), if_pos (by omega)]

end Blend2D.BitArr
