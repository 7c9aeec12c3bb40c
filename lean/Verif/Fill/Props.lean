import Verif.Fill.Start
import Verif.Comp.Props
/-!
# C47 — shapes are painted as their coverage says, and the buffers are left clean
-/
namespace Blend2D.Fill
open BitOps (Order bitAt)
open Spec

variable {P : Type} {o : Order} {A : Args} {C : Comp P}

/-! ## The composition operators of the reference pipeline (C11) are allowed -/

/-- The operators of C11 with the pixels `src` as source. -/
def ofOp (op : Comp.Op) (src : Nat → UInt32) : Comp UInt32 where
  masked x d m := op.masked d (src x) (UInt32.ofNat m)
  full x d := op.opaque d (src x)
  optimize := op.optimizeOpaque

theorem good_ofOp (op : Comp.Op) (src : Nat → UInt32) (h : ∀ x, Pixel.Spec.Premultiplied (src x).toNat) : Good (ofOp op src) :=
  ⟨fun x d => (Comp.C11_mask_neutral op d (src x) (h x)).2, fun _ x d => (Comp.C11_mask_neutral op d (src x) (h x)).1.symm⟩

/-! ## Scanlines -/

/-- **C47** (scanlines) A scanline as the rasterizer leaves it is filled without any access outside of the buffers, every
pixel before `xEnd` is composed with the mask of the coverage at that pixel, which is the sum of the cells up to it, the
other pixels are not changed, and all cells and marks are cleared for the next shape. -/
theorem C47_scanline (hC : Good C) (hr : A.rule = BitVec.allOnes 32 ∨ A.rule = 0x1FF#32) {r0 : Row P}
    (H : Ready o A.xEnd r0.bits r0.cells) (hd : A.xEnd ≤ r0.dst.length) :
    ∃ r, scanline o A C r0 = some r ∧ (∀ w ∈ r.bits, w = 0) ∧ (∀ c ∈ r.cells, c = 0) ∧
      r.bits.length = r0.bits.length ∧ r.cells.length = r0.cells.length ∧ r.dst.length = r0.dst.length ∧
      (∀ x (hx : x < r0.dst.length), x < A.xEnd →
        r.dst[x]? = some (C.masked x r0.dst[x] (calcMask (0x20000#32 + sum r0.cells (x + 1)) A.rule A.alpha))) ∧
      ∀ x, A.xEnd ≤ x → r.dst[x]? = r0.dst[x]? := by
  obtain ⟨r, h1, h2⟩ := scan_ok hC hr H hd r0.bits.length 0 (by omega) (fun g h => by omega)
  refine ⟨r, h1, ?_, ?_, h2.bits.1, h2.cells.1, h2.dst.1, ?_, ?_⟩
  · intro w hw
    obtain ⟨k, hk, e⟩ := List.getElem_of_mem hw
    have := h2.bits.2 k
    rw [if_pos (by have := h2.bits.1; omega), List.getElem?_eq_getElem hk, List.getElem?_eq_getElem (by have := h2.bits.1; omega)] at this
    rw [← e]; simpa [zap] using this
  · intro w hw
    obtain ⟨k, hk, e⟩ := List.getElem_of_mem hw
    have := h2.cells.2 k
    rw [if_pos (by have := h2.cells.1; omega), List.getElem?_eq_getElem hk, List.getElem?_eq_getElem (by have := h2.cells.1; omega)] at this
    rw [← e]; simpa [zap] using this
  · intro x hx hx2
    rw [h2.dst.2 x, if_pos hx2, List.getElem?_eq_getElem hx]
    rfl
  · intro x hx
    rw [h2.dst.2 x, if_neg (by omega)]

/-- **C47** (shapes) The same for all scanlines of a shape. -/
theorem C47_fill {C : Nat → Comp P} (hC : ∀ y, Good (C y)) (hr : A.rule = BitVec.allOnes 32 ∨ A.rule = 0x1FF#32)
    (rows : List (Row P)) (y0 : Nat) (H : ∀ r ∈ rows, Ready o A.xEnd r.bits r.cells ∧ A.xEnd ≤ r.dst.length) :
    ∃ rows', fill o A C y0 rows = some rows' ∧ rows'.length = rows.length ∧
      ∀ y r r', rows[y]? = some r → rows'[y]? = some r' →
        (∀ w ∈ r'.bits, w = 0) ∧ (∀ c ∈ r'.cells, c = 0) ∧ r'.bits.length = r.bits.length ∧
        r'.cells.length = r.cells.length ∧ r'.dst.length = r.dst.length ∧
        (∀ x (hx : x < r.dst.length), x < A.xEnd →
          r'.dst[x]? = some ((C (y0 + y)).masked x r.dst[x] (calcMask (0x20000#32 + sum r.cells (x + 1)) A.rule A.alpha))) ∧
        ∀ x, A.xEnd ≤ x → r'.dst[x]? = r.dst[x]? := by
  induction rows generalizing y0 with
  | nil => exact ⟨[], rfl, rfl, fun y r r' h => by simp at h⟩
  | cons r rs ih =>
    obtain ⟨h1, h2⟩ := H r (List.mem_cons_self ..)
    obtain ⟨r1, e1, p1, p2, p6, p7, p3, p4, p5⟩ := C47_scanline (hC y0) hr h1 h2
    obtain ⟨rs1, e2, q1, q2⟩ := ih (y0 + 1) (fun r hr => H r (List.mem_cons_of_mem _ hr))
    refine ⟨r1 :: rs1, by simp [fill, e1, e2], by simp [q1], ?_⟩
    intro y s s' hs hs'
    cases y with
    | zero =>
      simp only [List.getElem?_cons_zero, Option.some.injEq] at hs hs'
      subst hs; subst hs'
      exact ⟨p1, p2, p6, p7, p3, p4, p5⟩
    | succ y =>
      simp only [List.getElem?_cons_succ] at hs hs'
      have := q2 y s s' hs hs'
      rw [show y0 + (y + 1) = y0 + 1 + y by omega]
      exact this

/-- Not vacuous: two runs, the second in another group. -/
example : ∃ r : Row UInt32,
    scanline .lsb { rule := BitVec.allOnes 32, alpha := 255, xEnd := 12 } (ofOp .srcCopy fun _ => 0xFFFFFFFF)
      { bits := [0b101#64], cells := [0#32, 0x20000#32, -0x20000#32, 0, 0, 0, 0, 0, 0, 0x10000#32, 0, -0x10000#32, 0],
        dst := List.replicate 12 0xFF000000, pos := 0 } = some r ∧
      r.dst = [0xFF000000, 0xFFFFFFFF, 0xFF000000, 0xFF000000, 0xFF000000, 0xFF000000, 0xFF000000, 0xFF000000, 0xFF000000,
        0xFF7F7F7F, 0xFF7F7F7F, 0xFF000000] ∧ r.bits = [0] ∧ r.cells = List.replicate 13 0 := by
  have h : ((scanline .lsb { rule := BitVec.allOnes 32, alpha := 255, xEnd := 12 } (ofOp .srcCopy fun _ => 0xFFFFFFFF)
      { bits := [0b101#64], cells := [0#32, 0x20000#32, -0x20000#32, 0, 0, 0, 0, 0, 0, 0x10000#32, 0, -0x10000#32, 0],
        dst := List.replicate 12 0xFF000000, pos := 0 }).map fun r => (r.dst, r.bits, r.cells)) =
      some ([0xFF000000, 0xFFFFFFFF, 0xFF000000, 0xFF000000, 0xFF000000, 0xFF000000, 0xFF000000, 0xFF000000, 0xFF000000,
        0xFF7F7F7F, 0xFF7F7F7F, 0xFF000000], [0], List.replicate 13 0) := by decide +kernel
  obtain ⟨r, h1, h2⟩ := Option.map_eq_some_iff.1 h
  simp only [Prod.mk.injEq] at h2
  exact ⟨r, h1, h2⟩

/-! ## What the masks mean -/

theorem sar9 (c : BitVec 32) : (c.sshiftRight 9).toInt = c.toInt / 512 := by
  rw [BitVec.toInt_sshiftRight, Int.shiftRight_eq_div_pow]; rfl

theorem calc_nonzero {a : Int} (h1 : -(2 ^ 31) ≤ 0x20000 + a) (h2 : 0x20000 + a < 2 ^ 31) {alpha : Nat} (ha : alpha ≤ 255)
    {c : BitVec 32} (hc : c.toInt = 0x20000 + a) : calcMask c (BitVec.allOnes 32) alpha = nonZero a alpha := by
  have e1 : ((c.sshiftRight 9 &&& BitVec.allOnes 32) - 256#32).toInt = a / 512 := by
    rw [BitVec.and_allOnes, BitVec.toInt_sub, sar9, hc]
    have : (256#32).toInt = 256 := by decide
    rw [this, Int.bmod_def]
    omega
  rw [calcMask, nonZero]
  generalize hm : (c.sshiftRight 9 &&& BitVec.allOnes 32) - 256#32 = m at e1
  have e2 : (if m.msb then (-m).toNat else m.toNat) = (a / 512).natAbs := by
    rw [← e1]
    have h3 := BitVec.toInt_eq_msb_cond m
    have hlt := m.isLt
    cases hb : m.msb with
    | false => rw [hb] at h3; simp only [Bool.false_eq_true, if_false] at h3 ⊢; rw [h3]; simp
    | true =>
      rw [hb] at h3
      simp only [if_true] at h3 ⊢
      rw [h3, BitVec.toNat_neg]
      have := BitVec.toNat_ge_of_msb_true hb
      omega
  rw [e2]
  have h5 : min (a / 512).natAbs 256 * alpha ≤ 256 * 255 := Nat.mul_le_mul (Nat.min_le_right ..) ha
  rw [Nat.mod_eq_of_lt (by omega)]

/-- **C47** (non-zero rule) If the accumulated coverage is `a` (it cannot overflow for less than 16000 overlapping edges),
the mask is the covered part of the pixel, `|a| / 512` in 256 parts and at most 256, times the alpha value. -/
theorem C47_mask_nonzero {cells : List (BitVec 32)} {n : Nat} {a : Int} (h1 : -(2 ^ 31) ≤ 0x20000 + a) (h2 : 0x20000 + a < 2 ^ 31)
    {alpha : Nat} (ha : alpha ≤ 255) (hs : sum cells n = BitVec.ofInt 32 a) :
    calcMask (0x20000#32 + sum cells n) (BitVec.allOnes 32) alpha = nonZero a alpha := by
  refine calc_nonzero h1 h2 ha ?_
  rw [hs, BitVec.toInt_add, BitVec.toInt_ofInt]
  have : (0x20000#32).toInt = 0x20000 := by decide
  rw [this, Int.bmod_def, Int.bmod_def]
  omega

/-- **C47** (even-odd rule) The mask is the coverage folded at 256: twice covered parts are empty. -/
theorem C47_mask_evenodd {cells : List (BitVec 32)} {n : Nat} {a : Int} (h1 : -(2 ^ 31) ≤ 0x20000 + a) (h2 : 0x20000 + a < 2 ^ 31)
    {alpha : Nat} (ha : alpha ≤ 255) (hs : sum cells n = BitVec.ofInt 32 a) :
    calcMask (0x20000#32 + sum cells n) 0x1FF#32 alpha = evenOdd a alpha := by
  have hc : (0x20000#32 + sum cells n).toInt = 0x20000 + a := by
    rw [hs, BitVec.toInt_add, BitVec.toInt_ofInt]
    have : (0x20000#32).toInt = 0x20000 := by decide
    rw [this, Int.bmod_def, Int.bmod_def]
    omega
  generalize 0x20000#32 + sum cells n = c at hc
  have e1 : (c.sshiftRight 9 &&& 0x1FF#32).toNat = ((0x20000 + a) / 512 % 512).toNat := by
    rw [BitVec.toNat_and]
    have : (0x1FF#32).toNat = 2 ^ 9 - 1 := by decide
    rw [this, Nat.and_two_pow_sub_one_eq_mod]
    have h3 := sar9 c
    rw [hc, BitVec.toInt_eq_toNat_cond] at h3
    have := (c.sshiftRight 9).isLt
    split at h3 <;> omega
  rw [calcMask, evenOdd]
  have hlt : (c.sshiftRight 9 &&& 0x1FF#32).toNat < 512 := by rw [e1]; omega
  generalize c.sshiftRight 9 &&& 0x1FF#32 = x at e1 hlt
  have e2 : (if (x - 256#32).msb then (-(x - 256#32)).toNat else (x - 256#32).toNat) = (Int.ofNat x.toNat - 256).natAbs := by
    have hi : (x - 256#32).toInt = Int.ofNat x.toNat - 256 := by
      rw [BitVec.toInt_sub, BitVec.toInt_eq_toNat_of_lt (by omega)]
      have : (256#32).toInt = 256 := by decide
      rw [this, Int.bmod_def]
      simp only [Int.ofNat_eq_natCast]
      omega
    rw [← hi]
    generalize x - 256#32 = m
    have h3 := BitVec.toInt_eq_msb_cond m
    have hlt := m.isLt
    cases hb : m.msb with
    | false => rw [hb] at h3; simp only [Bool.false_eq_true, if_false] at h3 ⊢; rw [h3]; simp
    | true =>
      rw [hb] at h3
      simp only [if_true] at h3 ⊢
      rw [h3, BitVec.toNat_neg]
      have := BitVec.toNat_ge_of_msb_true hb
      omega
  rw [e2]
  have e3 : min (Int.ofNat x.toNat - 256).natAbs 256 =
      if (a / 512 % 512).toNat ≤ 256 then (a / 512 % 512).toNat else 512 - (a / 512 % 512).toNat := by
    rw [e1]
    simp only [Int.ofNat_eq_natCast]
    split <;> omega
  rw [e3]
  have h5 : (if (a / 512 % 512).toNat ≤ 256 then (a / 512 % 512).toNat else 512 - (a / 512 % 512).toNat) * alpha ≤ 256 * 255 :=
    Nat.mul_le_mul (by split <;> omega) ha
  rw [Nat.mod_eq_of_lt (by omega)]

/-- A mask is at most the alpha value; uncovered pixels have mask 0, and pixels that are covered once and completely (256 rows
of 512) have the mask `alpha`, with both rules. -/
theorem C47_mask_range (a : Int) {alpha : Nat} : nonZero a alpha ≤ alpha ∧ evenOdd a alpha ≤ alpha ∧
    nonZero 0 alpha = 0 ∧ evenOdd 0 alpha = 0 ∧ nonZero 0x20000 alpha = alpha ∧ evenOdd 0x20000 alpha = alpha ∧
    nonZero (-0x20000) alpha = alpha ∧ evenOdd (-0x20000) alpha = alpha ∧ evenOdd 0x40000 alpha = 0 ∧ nonZero 0x40000 alpha = alpha := by
  have hd : ∀ k, k ≤ 256 → k * alpha / 256 ≤ alpha := by
    intro k hk
    have h1 : k * alpha ≤ 256 * alpha := Nat.mul_le_mul_right _ hk
    omega
  refine ⟨hd _ (Nat.min_le_right ..), hd _ (by split <;> omega), ?_, ?_, ?_, ?_, ?_, ?_, ?_, ?_⟩ <;> simp [nonZero, evenOdd]

/-- The hypotheses are met by a rectangle: cells 1 to 2 covered once. -/
example : Ready .lsb 12 [0b101#64]
    [0#32, 0x20000#32, -0x20000#32, 0, 0, 0, 0, 0, 0, 0x10000#32, 0, -0x10000#32, 0] := by
  have hb : ∀ g, bitAt Order.lsb [0b101#64] g = true ↔ g = 0 ∨ g = 2 := by
    intro g
    by_cases h : g < 64
    · revert g; decide +kernel
    · rw [BitOps.bitAt_ge _ _ (by omega) (by simp; omega)]
      simp; omega
  have hlen : ∀ k, 13 ≤ k → ([0#32, 0x20000#32, -0x20000#32, 0, 0, 0, 0, 0, 0, 0x10000#32, 0, -0x10000#32, 0][k]?).getD 0 = 0 := by
    intro k hk
    rw [List.getElem?_eq_none (by simpa using hk)]; rfl
  refine ⟨?_, ?_, fun k hk => hlen k (by omega), by decide, by decide, by decide⟩
  · intro k hk
    have : k < 13 := by
      apply Classical.byContradiction; intro h; exact hk (hlen k (by omega))
    simp only [marked, hb]
    revert k
    have : ∀ k : Fin 13, ([0#32, 0x20000#32, -0x20000#32, 0, 0, 0, 0, 0, 0, 0x10000#32, 0, -0x10000#32, 0][k.val]?).getD 0 ≠ 0 →
        (k.val / 4 = 0 ∨ k.val / 4 = 2) ∨ k.val % 4 = 0 ∧ 0 < k.val ∧ (k.val / 4 - 1 = 0 ∨ k.val / 4 - 1 = 2) := by decide +kernel
    intro k hk h
    exact this ⟨k, h⟩ hk
  · intro g hg
    rcases (hb g).1 hg with rfl | rfl <;> omega

end Blend2D.Fill
