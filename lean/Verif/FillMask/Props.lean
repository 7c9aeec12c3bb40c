import Verif.FillMask.BoxM
import Verif.Fill.Props
import Verif.Pixel.Props
/-!
# C48 — boxes are painted with the area they cover, mask images with their bytes
-/
namespace Blend2D.FillMask
open Fill (Comp Row Good ofOp good_ofOp)
open Spec

variable {P : Type} {C : Nat → Comp P}

/-! ## Boxes -/

theorem boxLines_ok (hC : ∀ y, Good (C y)) {m a w stride : Nat} (hw : 0 < w) (hs : a + w ≤ stride) :
    ∀ (h y : Nat) (dst : List P), (y + h) * stride ≤ dst.length →
    ∃ dst', boxLines C m stride a w h y (y * stride + a) dst = some dst' ∧ dst'.length = dst.length ∧
      ∀ k, dst'[k]? = if y ≤ k / stride ∧ k / stride < y + h ∧ a ≤ k % stride ∧ k % stride < a + w
        then (dst[k]?).map (fun p => (C (k / stride)).masked (k % stride) p m) else dst[k]? := by
  have hpos : 0 < stride := by omega
  intro h
  induction h with
  | zero => intro y dst _; exact ⟨dst, rfl, rfl, fun k => by rw [if_neg (by omega)]⟩
  | succ h ih =>
    intro y dst hl
    have hl2 : (y + 1) * stride ≤ dst.length := Nat.le_trans (Nat.mul_le_mul_right _ (by omega)) hl
    rw [Nat.add_mul, Nat.one_mul] at hl2
    obtain ⟨r, e1, _, e3⟩ := span_seg (hC y) (m := m) w ⟨[], [], dst, a⟩ (y * stride + a) hw (by simp only []; omega)
    obtain ⟨dst', g1, g2, g3⟩ := ih (y + 1) r.dst (by rw [e3.1, show y + 1 + h = y + (h + 1) by omega]; exact hl)
    refine ⟨dst', ?_, g2.trans e3.1, fun k => ?_⟩
    · cases w with
      | zero => omega
      | succ n =>
        rw [Fill.span] at e1
        simp only [boxLines, Option.bind_eq_bind]
        rw [show y * stride + a + stride = (y + 1) * stride + a by rw [Nat.add_mul, Nat.one_mul]; omega]
        by_cases c : (C y).optimize = true ∧ m = 255
        · simp only [if_pos c] at e1 ⊢
          rw [e1]
          exact g1
        · simp only [if_neg c] at e1 ⊢
          rw [e1]
          exact g1
    · rw [g3 k]
      have hr : r.dst[k]? = if k / stride = y ∧ a ≤ k % stride ∧ k % stride < a + w
          then (dst[k]?).map (fun p => (C y).masked (k % stride) p m) else dst[k]? := by
        rw [e3.2 k]
        have hk := Nat.div_add_mod k stride
        have hm := Nat.mod_lt k hpos
        by_cases c : k / stride = y ∧ a ≤ k % stride ∧ k % stride < a + w
        · have e : y * stride + k % stride = k := by rw [← c.1, Nat.mul_comm]; exact hk
          rw [if_pos c, if_pos (by omega)]
          show Option.map (fun p => (C y).masked (a + (k - (y * stride + a))) p m) _ = _
          rw [show a + (k - (y * stride + a)) = k % stride by omega]
        · rw [if_neg c, if_neg]
          rintro ⟨c1, c2⟩
          have : k / stride = y := by
            rw [Nat.div_eq_iff hpos]
            constructor
            · omega
            · have : y * stride + stride - 1 = y * stride + (stride - 1) := by omega
              omega
          have e : y * stride + k % stride = k := by rw [← this, Nat.mul_comm]; exact hk
          omega
      by_cases c : k / stride = y ∧ a ≤ k % stride ∧ k % stride < a + w
      · rw [if_neg (by omega), hr, if_pos c, if_pos (by omega), c.1]
      · rw [if_neg c] at hr
        rw [hr]
        by_cases c' : y + 1 ≤ k / stride ∧ k / stride < y + 1 + h ∧ a ≤ k % stride ∧ k % stride < a + w
        · rw [if_pos c', if_pos (by omega)]
        · rw [if_neg c', if_neg (by omega)]

theorem map_id' {f : P → P} {o : Option P} (h : ∀ p, f p = p) : o.map f = o := by
  cases o with
  | none => rfl
  | some p => simp [h]

theorem boxA_ok (hC : ∀ y, Good (C y)) {alpha stride x0 y0 x1 y1 : Nat} (hx : x0 < x1) (hs : x1 ≤ stride) {dst : List P}
    (hy : y0 < y1) (hl : y1 * stride ≤ dst.length) : ∃ dst', fillBoxA C alpha stride x0 y0 x1 y1 dst = some dst' ∧ dst'.length = dst.length ∧
      ∀ k, dst'[k]? = (dst[k]?).map fun p =>
        (C (k / stride)).masked (k % stride) p (boxMask alpha (256 * x0) (256 * y0) (256 * x1) (256 * y1) (k % stride) (k / stride)) := by
  obtain ⟨dst', h1, h2, h3⟩ := boxLines_ok hC (m := alpha) (a := x0) (w := x1 - x0) (stride := stride) (by omega) (by omega) (y1 - y0) y0 dst
    (by rw [show y0 + (y1 - y0) = y1 by omega]; exact hl)
  refine ⟨dst', h1, h2, fun k => ?_⟩
  rw [h3 k]
  by_cases c : y0 ≤ k / stride ∧ k / stride < y0 + (y1 - y0) ∧ x0 ≤ k % stride ∧ k % stride < x0 + (x1 - x0)
  · have e1 : cov (256 * x0) (256 * x1) (k % stride) = 256 := by rw [cov]; omega
    have e2 : cov (256 * y0) (256 * y1) (k / stride) = 256 := by rw [cov]; omega
    rw [if_pos c, boxMask, e1, e2, mask_lr]
  · rw [if_neg c, map_id']
    intro p
    have : boxMask alpha (256 * x0) (256 * y0) (256 * x1) (256 * y1) (k % stride) (k / stride) = 0 := by
      by_cases c1 : x0 ≤ k % stride ∧ k % stride < x1
      · exact boxMask_zero_y (by rw [cov]; omega)
      · exact boxMask_zero_x (by rw [cov]; omega)
    rw [this, (hC _).zero]

theorem boxU_ok (hC : ∀ y, Good (C y)) {alpha stride x0 y0 x1 y1 : Nat} (ha : alpha ≤ 255) (hx : x0 < x1) (hy : y0 < y1)
    (hlt : y1 + 255 < 2 ^ 32) (hs : (x1 + 255) / 256 ≤ stride) {dst : List P} (hl : (y1 + 255) / 256 * stride ≤ dst.length) :
    ∃ dst', fillBoxU C alpha stride x0 y0 x1 y1 dst = some dst' ∧ dst'.length = dst.length ∧
      ∀ k, dst'[k]? = (dst[k]?).map fun p =>
        (C (k / stride)).masked (k % stride) p (boxMask alpha x0 y0 x1 y1 (k % stride) (k / stride)) := by
  obtain ⟨r, h1, h2⟩ := initBoxU_ok (alpha := alpha) ha hx hy hlt
  simp only [fillBoxU, h1, Option.bind_eq_bind, Option.bind_some]
  cases hsome : r.some with
  | false =>
    refine ⟨dst, rfl, rfl, fun k => ?_⟩
    rw [map_id']
    intro p
    rw [h2.none hsome, (hC _).zero]
  | true =>
    obtain ⟨a, gs, post, g1, g2, g3, g4, g5, g6⟩ := h2.some hsome
    simp only [if_true]
    obtain ⟨dst', q1, q2, q3⟩ := fillMask_ok hC (F := fun y x => boxMask alpha x0 y0 x1 y1 x y) g1 hs g4 g2 g3 (dst := dst)
      (Nat.le_trans (Nat.mul_le_mul_right _ g5) hl)
    refine ⟨dst', q1, q2, fun k => ?_⟩
    rw [q3 k]
    by_cases c : r.y0 ≤ k / stride ∧ k / stride < r.y1 ∧ a ≤ k % stride ∧ k % stride < (x1 + 255) / 256
    · rw [if_pos c]
    · rw [if_neg c, map_id']
      intro p
      rw [g6 _ _ c, (hC _).zero]

theorem aligned_iff {x0 y0 x1 y1 : Nat} (h : aligned x0 y0 x1 y1 = true) :
    x0 % 256 = 0 ∧ y0 % 256 = 0 ∧ x1 % 256 = 0 ∧ y1 % 256 = 0 := by
  rw [aligned, decide_eq_true_eq, show (256 : Nat) = 2 ^ 8 by rfl, Nat.or_mod_two_pow, Nat.or_mod_two_pow, Nat.or_mod_two_pow] at h
  have hl : ∀ a b : Nat, a ||| b = 0 → a = 0 ∧ b = 0 := by
    intro a b h
    have h1 : a ≤ a ||| b := Nat.left_le_or
    have h2 : b ≤ a ||| b := Nat.right_le_or
    omega
  obtain ⟨h1, h2⟩ := hl _ _ h
  obtain ⟨h3, h4⟩ := hl _ _ h1
  obtain ⟨h5, h6⟩ := hl _ _ h3
  exact ⟨h5, h6, h4, h2⟩

/-- **C48** (boxes) Filling a box whose edges are anywhere between pixel boundaries composes every pixel of the image with the
mask that is the area of the pixel covered by the box times alpha, rounded down, and nothing outside of the image, the
commands and the mask bytes is accessed.  In particular pixels that the box does not touch are not changed (mask 0). -/
theorem C48_box (hC : ∀ y, Good (C y)) {alpha stride x0 y0 x1 y1 : Nat} (ha : alpha ≤ 255) (hx : x0 < x1) (hy : y0 < y1)
    (hlt : y1 + 255 < 2 ^ 32) (hs : x1 ≤ 256 * stride) {dst : List P} (hl : (y1 + 255) / 256 * stride ≤ dst.length) :
    ∃ dst', fillBox C alpha stride x0 y0 x1 y1 dst = some dst' ∧ dst'.length = dst.length ∧
      ∀ x y, x < stride → dst'[y * stride + x]? = (dst[y * stride + x]?).map fun p =>
        (C y).masked x p (boxMask alpha x0 y0 x1 y1 x y) := by
  have key : ∃ dst', fillBox C alpha stride x0 y0 x1 y1 dst = some dst' ∧ dst'.length = dst.length ∧
      ∀ k, dst'[k]? = (dst[k]?).map fun p =>
        (C (k / stride)).masked (k % stride) p (boxMask alpha x0 y0 x1 y1 (k % stride) (k / stride)) := by
    rw [fillBox]
    cases h : aligned x0 y0 x1 y1 with
    | false => exact boxU_ok hC ha hx hy hlt (by omega) hl
    | true =>
      obtain ⟨a1, a2, a3, a4⟩ := aligned_iff h
      obtain ⟨d, b1, b2, b3⟩ := boxA_ok hC (alpha := alpha) (stride := stride) (x0 := x0 / 256) (x1 := x1 / 256) (y0 := y0 / 256)
        (y1 := y1 / 256) (by omega) (by omega) (dst := dst) (by omega) (by rw [show y1 / 256 = (y1 + 255) / 256 by omega]; exact hl)
      refine ⟨d, b1, b2, ?_⟩
      rw [show 256 * (x0 / 256) = x0 by omega, show 256 * (x1 / 256) = x1 by omega, show 256 * (y0 / 256) = y0 by omega,
        show 256 * (y1 / 256) = y1 by omega] at b3
      exact b3
  obtain ⟨dst', h1, h2, h3⟩ := key
  refine ⟨dst', h1, h2, fun x y hx => ?_⟩
  have hd : (y * stride + x) / stride = y := by
    rw [Nat.mul_comm, Nat.mul_add_div (by omega), Nat.div_eq_of_lt hx, Nat.add_zero]
  have hm : (y * stride + x) % stride = x := by
    rw [Nat.mul_comm, Nat.mul_add_mod, Nat.mod_eq_of_lt hx]
  have := h3 (y * stride + x)
  rw [hd, hm] at this
  exact this

/-- A box of 2 by 1 and a half pixels with half covered edges, on a white image, with opaque black. -/
example : fillBox (fun _ => ofOp .srcCopy fun _ => 0xFF000000) 255 4 128 256 640 640 (List.replicate 16 0xFFFFFFFF) =
    some [0xFFFFFFFF, 0xFFFFFFFF, 0xFFFFFFFF, 0xFFFFFFFF, 0xFF808080, 0xFF000000, 0xFF808080, 0xFFFFFFFF,
      0xFFC0C0C0, 0xFF808080, 0xFFC0C0C0, 0xFFFFFFFF, 0xFFFFFFFF, 0xFFFFFFFF, 0xFFFFFFFF, 0xFFFFFFFF] := by decide +kernel

/-- One band of a box: the scanlines of the band get what the whole box would give them, the others nothing. -/
theorem boxBand_ok (hC : ∀ y, Good (C y)) {alpha stride x0 y0 x1 y1 b0 b1 : Nat} (ha : alpha ≤ 255) (hx : x0 < x1)
    (hlt : y1 + 255 < 2 ^ 32) (hs : x1 ≤ 256 * stride) {dst : List P} (hl : (y1 + 255) / 256 * stride ≤ dst.length) :
    ∃ dst', fillBoxBand C alpha stride x0 y0 x1 y1 b0 b1 dst = some dst' ∧ dst'.length = dst.length ∧
      ∀ k, dst'[k]? = (dst[k]?).map fun p => if b0 ≤ k / stride ∧ k / stride < b1 then
        (C (k / stride)).masked (k % stride) p (boxMask alpha x0 y0 x1 y1 (k % stride) (k / stride)) else p := by
  have hband : ∀ x y u v, (∀ y, cov u v y = if b0 ≤ y ∧ y < b1 then cov y0 y1 y else 0) →
      boxMask alpha x0 u x1 v x y = if b0 ≤ y ∧ y < b1 then boxMask alpha x0 y0 x1 y1 x y else 0 := by
    intro x y u v h
    rw [boxMask, h y]
    split
    · rfl
    · simp
  have hall : ∀ (dst' : List P) (u v : Nat), (∀ y, cov u v y = if b0 ≤ y ∧ y < b1 then cov y0 y1 y else 0) →
      (∀ k : Nat, dst'[k]? = (dst[k]?).map fun p => (C (k / stride)).masked (k % stride) p (boxMask alpha x0 u x1 v (k % stride) (k / stride))) →
      ∀ k : Nat, dst'[k]? = (dst[k]?).map fun p => if b0 ≤ k / stride ∧ k / stride < b1 then
        (C (k / stride)).masked (k % stride) p (boxMask alpha x0 y0 x1 y1 (k % stride) (k / stride)) else p := by
    intro dst' u v hc h k
    rw [h k, hband _ _ _ _ hc]
    congr 1
    funext p
    split
    · rfl
    · exact (hC _).zero ..
  have hnone : ∀ u v, (∀ y, cov u v y = if b0 ≤ y ∧ y < b1 then cov y0 y1 y else 0) → ¬ u < v →
      ∀ k : Nat, dst[k]? = (dst[k]?).map fun p => if b0 ≤ k / stride ∧ k / stride < b1 then
        (C (k / stride)).masked (k % stride) p (boxMask alpha x0 y0 x1 y1 (k % stride) (k / stride)) else p := by
    intro u v hc huv
    refine hall dst u v hc fun k => ?_
    rw [map_id']
    intro p
    rw [boxMask_zero_y (by rw [cov]; omega), (hC _).zero]
  rw [fillBoxBand]
  cases h : aligned x0 y0 x1 y1 with
  | false =>
    simp only [Bool.false_eq_true, if_false]
    have hc : ∀ y, cov (max y0 (b0 * 256)) (min y1 (b1 * 256)) y = if b0 ≤ y ∧ y < b1 then cov y0 y1 y else 0 := by
      intro y; rw [cov, cov]; split <;> omega
    by_cases c : max y0 (b0 * 256) < min y1 (b1 * 256)
    · rw [if_pos c]
      obtain ⟨d, e1, e2, e3⟩ := boxU_ok hC (alpha := alpha) (stride := stride) ha hx c (by omega) (by omega) (dst := dst)
        (Nat.le_trans (Nat.mul_le_mul_right _ (by omega)) hl)
      exact ⟨d, e1, e2, hall d _ _ hc e3⟩
    · rw [if_neg c]
      exact ⟨dst, rfl, rfl, hnone _ _ hc c⟩
  | true =>
    obtain ⟨a1, a2, a3, a4⟩ := aligned_iff h
    simp only [if_true]
    have hc : ∀ y, cov (256 * max (y0 / 256) b0) (256 * min (y1 / 256) b1) y = if b0 ≤ y ∧ y < b1 then cov y0 y1 y else 0 := by
      intro y; rw [cov, cov]; split <;> omega
    by_cases c : max (y0 / 256) b0 < min (y1 / 256) b1
    · rw [if_pos c]
      obtain ⟨d, e1, e2, e3⟩ := boxA_ok hC (alpha := alpha) (stride := stride) (x0 := x0 / 256) (x1 := x1 / 256) (by omega) (by omega) (dst := dst)
        c (Nat.le_trans (Nat.mul_le_mul_right _ (by omega)) hl)
      rw [show 256 * (x0 / 256) = x0 by omega, show 256 * (x1 / 256) = x1 by omega] at e3
      exact ⟨d, e1, e2, hall d _ _ hc e3⟩
    · rw [if_neg c]
      exact ⟨dst, rfl, rfl, hnone _ _ hc (by omega)⟩

/-- The bands with the numbers `bs` are executed. -/
def bands (C : Nat → Comp P) (alpha stride x0 y0 x1 y1 bh : Nat) : List Nat → List P → Option (List P)
  | [], dst => some dst
  | i :: bs, dst => (fillBoxBand C alpha stride x0 y0 x1 y1 (i * bh) (i * bh + bh) dst).bind (bands C alpha stride x0 y0 x1 y1 bh bs)

/-- **C48** (boxes, asynchronous) Executing the bands of an image, in any order, each once, paints the same as filling the box
at once. -/
theorem C48_box_bands (hC : ∀ y, Good (C y)) {alpha stride x0 y0 x1 y1 bh : Nat} (ha : alpha ≤ 255) (hx : x0 < x1) (hy : y0 < y1)
    (hlt : y1 + 255 < 2 ^ 32) (hs : x1 ≤ 256 * stride) {dst : List P} (hl : (y1 + 255) / 256 * stride ≤ dst.length) (hbh : 0 < bh)
    (bs : List Nat) (hnd : bs.Nodup) (hall : ∀ y, y < (y1 + 255) / 256 → y / bh ∈ bs) :
    bands C alpha stride x0 y0 x1 y1 bh bs dst = fillBox C alpha stride x0 y0 x1 y1 dst := by
  have hstride : 0 < stride := by omega
  obtain ⟨d0, f1, f2, f3⟩ := C48_box hC (alpha := alpha) (stride := stride) ha hx hy hlt hs hl
  have key : ∀ (bs : List Nat) (dst : List P), bs.Nodup → (y1 + 255) / 256 * stride ≤ dst.length →
      ∃ dst', bands C alpha stride x0 y0 x1 y1 bh bs dst = some dst' ∧ dst'.length = dst.length ∧
        ∀ k, dst'[k]? = (dst[k]?).map fun p => if k / stride / bh ∈ bs then
          (C (k / stride)).masked (k % stride) p (boxMask alpha x0 y0 x1 y1 (k % stride) (k / stride)) else p := by
    intro bs
    induction bs with
    | nil => intro dst _ _; exact ⟨dst, rfl, rfl, fun k => by rw [map_id']; simp⟩
    | cons i bs ih =>
      intro dst hn hl
      rw [List.nodup_cons] at hn
      obtain ⟨d1, e1, e2, e3⟩ := boxBand_ok hC (alpha := alpha) (stride := stride) (y0 := y0) (b0 := i * bh) (b1 := i * bh + bh) ha hx hlt hs
        (dst := dst) hl
      obtain ⟨d2, g1, g2, g3⟩ := ih d1 hn.2 (by rw [e2]; exact hl)
      refine ⟨d2, by rw [bands, e1]; exact g1, g2.trans e2, fun k => ?_⟩
      rw [g3 k, e3 k, Option.map_map]
      congr 1
      funext p
      simp only [Function.comp]
      have hi : (i * bh ≤ k / stride ∧ k / stride < i * bh + bh) ↔ k / stride / bh = i := by
        rw [Nat.div_eq_iff hbh]
        omega
      by_cases c : k / stride / bh = i
      · rw [if_neg (by rw [c]; exact hn.1), if_pos (hi.2 c), if_pos (by rw [c]; exact List.mem_cons_self ..)]
      · rw [if_neg (fun h => c (hi.1 h))]
        simp only [List.mem_cons, c, false_or]
  obtain ⟨d, g1, g2, g3⟩ := key bs dst hnd hl
  rw [g1, f1]
  congr 1
  apply List.ext_getElem?
  intro k
  have hk : k / stride * stride + k % stride = k := by rw [Nat.mul_comm]; exact Nat.div_add_mod k stride
  have := f3 (k % stride) (k / stride) (Nat.mod_lt _ hstride)
  rw [hk] at this
  rw [g3 k, this]
  congr 1
  funext p
  split
  · rfl
  · rename_i hne
    have : ¬ k / stride < (y1 + 255) / 256 := fun h => hne (hall _ h)
    rw [boxMask_zero_y (cov_out (by omega)), (hC _).zero]

/-- Not vacuous: three bands of two scanlines in another order. -/
example : bands (fun _ => ofOp .srcCopy fun _ => 0xFF000000) 255 4 128 256 640 1000 2 [1, 0] (List.replicate 16 0xFFFFFFFF) =
    fillBox (fun _ => ofOp .srcCopy fun _ => 0xFF000000) 255 4 128 256 640 1000 (List.replicate 16 0xFFFFFFFF) := by decide +kernel

/-! ## Masks -/

/-- The product of a mask byte and alpha is the nearest byte. -/
theorem withAlpha_eq {b alpha : Nat} (hb : b ≤ 255) (ha : alpha ≤ 255) : withAlpha b alpha = Comp.Spec.mul255 b alpha := by
  have e1 : (UInt32.ofNat b).toNat = b := by simp; omega
  have e2 : (UInt32.ofNat alpha).toNat = alpha := by simp; omega
  obtain ⟨h1, h2⟩ := Pixel.C09_udiv255_exact (UInt32.ofNat b) (UInt32.ofNat alpha) (by rw [e1]; exact hb) (by rw [e2]; exact ha)
  rw [e1, e2] at h1
  rw [withAlpha, Comp.Spec.mul255, Comp.Spec.round255]
  unfold Pixel.Spec.Nearest at h1
  omega

/-- The byte of the mask image that belongs to the pixel (`x`, `y`) of a box at (`x0`, `y0`). -/
def Mask.at (M : Mask) (mx my x0 y0 x y : Nat) : Option Nat :=
  M.mem (M.base + M.stride * ((my + (y - y0) : Nat) : Int) + ((mx + (x - x0) : Nat) : Int))

theorem nexts_vmask {t a b : Nat} (ht : t ≠ 1) (ht8 : t < 8) : ∀ (n : Nat) (p adv : Int), nexts n [vmask t a b p adv] = [vmask t a b (p + n * adv) adv] := by
  intro n
  induction n with
  | zero => intro p adv; simp [nexts]
  | succ n ih =>
    intro p adv
    have h : (vmask t a b p adv).next = vmask t a b (p + adv) adv := by
      rw [Cmd.next, if_neg (by simp only [vmask, Cmd.type]; omega)]; rfl
    rw [nexts, List.map_cons, List.map_nil, h, ih]
    congr 2
    rw [Int.natCast_succ, Int.add_mul]; omega

/-- A mask fill with one command per scanline. -/
theorem maskLines (hC : ∀ y, Good (C y)) {alpha stride t x0 x1 u v : Nat} (ht : t = 2 ∨ t = 3) (hx : x0 < x1) (huv : u < v)
    (hs : x1 ≤ stride) (hv : v - u < 2 ^ 32) {dst : List P} (hl : v * stride ≤ dst.length) {mem : Mem} {p adv : Int} {B : Nat → Nat → Nat}
    (hB : ∀ x y, x0 ≤ x → x < x1 → u ≤ y → y < v → mem (p + ((y - u : Nat) : Int) * adv + ((x - x0 : Nat) : Int)) = some (B x y)) :
    ∃ dst', fillMask C alpha mem stride u v [vmask t x0 x1 p adv, repeats 0xFFFFFFFF] dst = some dst' ∧ dst'.length = dst.length ∧
      ∀ k, dst'[k]? = (dst[k]?).map fun p => if u ≤ k / stride ∧ k / stride < v ∧ x0 ≤ k % stride ∧ k % stride < x1 then
        (C (k / stride)).masked (k % stride) p (if t = 3 then withAlpha (B (k % stride) (k / stride)) alpha else B (k % stride) (k / stride))
        else p := by
  have h1 : ∀ q, (vmask t x0 x1 q adv).x1 = x1 := by intro q; simp only [vmask, Cmd.x1]; omega
  have h2 : ∀ q, (vmask t x0 x1 q adv).type = t := by intro q; simp only [vmask, Cmd.type]; omega
  have hf : Fits alpha mem (fun y x => if t = 3 then withAlpha (B x y) alpha else B x y) x0 x1
      [([vmask t x0 x1 p adv], 0xFFFFFFFF)] u (v - u) := by
    refine ⟨by omega, by omega, fun n n1 n2 => ?_, fun c => by omega⟩
    rw [nexts_vmask (by omega) (by omega)]
    have : Chain alpha mem (fun x => if t = 3 then withAlpha (B x (u + n)) alpha else B x (u + n)) (vmask t x0 x1 (p + n * adv) adv).x0
        x1 [vmask t x0 x1 (p + n * adv) adv] := by
      refine Chain.cons (by rw [h1]; exact hx) (.inr ⟨by rw [h2]; omega, ?_⟩) (by rw [h1]; exact Chain.nil _)
      intro x a b
      rw [h1] at b
      refine ⟨B x (u + n), ?_, by rw [h2]⟩
      have := hB x (u + n) a b (by omega) (by omega)
      rw [show u + n - u = n by omega] at this
      rw [← this]
      rfl
    exact this
  obtain ⟨d, e1, e2, e3⟩ := fillMask_ok hC (alpha := alpha) (mem := mem) (stride := stride) hx hs huv
    (cmds := [vmask t x0 x1 p adv, repeats 0xFFFFFFFF]) (post := []) (dst := dst) rfl hf hl
  refine ⟨d, e1, e2, fun k => ?_⟩
  rw [e3 k]
  by_cases c : u ≤ k / stride ∧ k / stride < v ∧ x0 ≤ k % stride ∧ k % stride < x1
  · simp only [if_pos c]
  · simp only [if_neg c, Option.map_id']

theorem rowcol {stride x y : Nat} (h : x < stride) : (y * stride + x) / stride = y ∧ (y * stride + x) % stride = x := by
  constructor
  · rw [Nat.mul_comm, Nat.mul_add_div (by omega), Nat.div_eq_of_lt h, Nat.add_zero]
  · rw [Nat.mul_comm, Nat.mul_add_mod, Nat.mod_eq_of_lt h]

theorem withAlpha_255 {b : Nat} (hb : b ≤ 255) : withAlpha b 255 = b := by
  rw [withAlpha_eq hb (Nat.le_refl _), Comp.mul255_255 b hb]

/-- **C48** (mask images) Filling a mask image composes every pixel of the box with the byte of the mask at its place, times
alpha (the nearest byte); other pixels do not change; only bytes of the mask that belong to the box are read. -/
theorem C48_mask (hC : ∀ y, Good (C y)) {alpha stride x0 y0 x1 y1 mx my : Nat} (ha : alpha ≤ 255) (hx : x0 < x1) (hy : y0 < y1)
    (hs : x1 ≤ stride) (hlt : y1 < 2 ^ 32) {dst : List P} (hl : y1 * stride ≤ dst.length) {M : Mask} {B : Nat → Nat → Nat}
    (hB : ∀ x y, x0 ≤ x → x < x1 → y0 ≤ y → y < y1 → M.at mx my x0 y0 x y = some (B x y) ∧ B x y ≤ 255) :
    ∃ dst', fillMaskSync C alpha stride M mx my x0 y0 x1 y1 dst = some dst' ∧ dst'.length = dst.length ∧
      ∀ x y, x < stride → dst'[y * stride + x]? = (dst[y * stride + x]?).map fun p =>
        if x0 ≤ x ∧ x < x1 ∧ y0 ≤ y ∧ y < y1 then (C y).masked x p (Comp.Spec.mul255 (B x y) alpha) else p := by
  obtain ⟨d, e1, e2, e3⟩ := maskLines hC (alpha := alpha) (stride := stride) (t := if alpha ≥ 255 then 2 else 3) (u := y0) (v := y1)
    (by split <;> simp) hx hy hs (by omega) hl (mem := M.mem) (p := M.base + M.stride * my + mx) (adv := M.stride) (B := B)
    (fun x y a b c d => by
      have := (hB x y a b c d).1
      rw [Mask.at] at this
      rw [← this]
      congr 1
      push_cast
      rw [Int.mul_add, Int.mul_comm _ M.stride]
      omega)
  refine ⟨d, e1, e2, fun x y hx2 => ?_⟩
  have := e3 (y * stride + x)
  rw [(rowcol hx2).1, (rowcol hx2).2] at this
  rw [this]
  congr 1
  funext p
  by_cases c : y0 ≤ y ∧ y < y1 ∧ x0 ≤ x ∧ x < x1
  · have c' : x0 ≤ x ∧ x < x1 ∧ y0 ≤ y ∧ y < y1 := ⟨c.2.2.1, c.2.2.2, c.1, c.2.1⟩
    simp only [if_pos c, if_pos c']
    have hb := (hB x y c.2.2.1 c.2.2.2 c.1 c.2.1).2
    congr 1
    by_cases h : alpha ≥ 255
    · have : alpha = 255 := by omega
      rw [if_pos h, if_neg (by omega), this, Comp.mul255_255 _ hb]
    · rw [if_neg h, if_pos rfl, withAlpha_eq hb ha]
  · rw [if_neg c, if_neg (by omega)]

/-- **C48** (mask images, asynchronous, partial) In a band of an asynchronous context the pixels of the band are composed as
above.  Missing: a global alpha less than 255 (see `C48_counterexample_mask_alpha`). -/
theorem C48_mask_band_partial (hC : ∀ y, Good (C y)) {stride x0 y0 x1 y1 mx my b0 b1 : Nat} (hx : x0 < x1)
    (hs : x1 ≤ stride) (hlt : y1 < 2 ^ 32) {dst : List P} (hl : y1 * stride ≤ dst.length) {M : Mask} {B : Nat → Nat → Nat}
    (hB : ∀ x y, x0 ≤ x → x < x1 → y0 ≤ y → y < y1 → M.at mx my x0 y0 x y = some (B x y) ∧ B x y ≤ 255) :
    ∃ dst', fillMaskBand C 255 stride M mx my x0 y0 x1 y1 b0 b1 dst = some dst' ∧ dst'.length = dst.length ∧
      ∀ x y, x < stride → dst'[y * stride + x]? = (dst[y * stride + x]?).map fun p =>
        if x0 ≤ x ∧ x < x1 ∧ y0 ≤ y ∧ y < y1 ∧ b0 ≤ y ∧ y < b1 then (C y).masked x p (Comp.Spec.mul255 (B x y) 255) else p := by
  rw [fillMaskBand]
  by_cases huv : max y0 b0 < min y1 b1
  · rw [if_pos huv, if_pos (by omega)]
    obtain ⟨d, e1, e2, e3⟩ := maskLines hC (alpha := 255) (stride := stride) (t := 3) (u := max y0 b0) (v := min y1 b1)
      (.inr rfl) hx huv hs (by omega) (dst := dst) (Nat.le_trans (Nat.mul_le_mul_right _ (by omega)) hl) (mem := M.mem)
      (p := M.base + M.stride * ((my + (max y0 b0 - y0) : Nat) : Int) + mx) (adv := M.stride) (B := B)
      (fun x y a b c d => by
        have := (hB x y a b (by omega) (by omega)).1
        rw [Mask.at] at this
        rw [← this]
        congr 1
        rw [show my + (y - y0) = my + (max y0 b0 - y0) + (y - max y0 b0) by omega, Int.natCast_add (my + _), Int.mul_add,
          Int.mul_comm _ M.stride, Int.natCast_add mx]
        omega)
    refine ⟨d, e1, e2, fun x y hx2 => ?_⟩
    have := e3 (y * stride + x)
    rw [(rowcol hx2).1, (rowcol hx2).2] at this
    rw [this]
    congr 1
    funext p
    by_cases c : max y0 b0 ≤ y ∧ y < min y1 b1 ∧ x0 ≤ x ∧ x < x1
    · rw [if_pos c, if_pos rfl, if_pos (by omega)]
      have hb := (hB x y c.2.2.1 c.2.2.2 (by omega) (by omega)).2
      rw [withAlpha_255 hb, Comp.mul255_255 _ hb]
    · rw [if_neg c, if_neg (by omega)]
  · rw [if_neg huv]
    refine ⟨dst, rfl, rfl, fun x y _ => ?_⟩
    rw [map_id']
    intro p
    rw [if_neg (by omega)]

/-- A mask image of one pixel with the value 255. -/
def oneMask : Mask := ⟨fun k => if k = 0 then some 255 else none, 0, 1⟩

/-- **C48** (counterexample) In an asynchronous context the global alpha is ignored when it is less than 255: painting black
through a full mask with half of the alpha value gives black instead of grey. -/
theorem C48_counterexample_mask_alpha :
    fillMaskSync (fun _ => ofOp .srcCopy fun _ => 0xFF000000) 128 1 oneMask 0 0 0 0 1 1 [0xFFFFFFFF] = some [0xFF7F7F7F] ∧
    fillMaskBand (fun _ => ofOp .srcCopy fun _ => 0xFF000000) 128 1 oneMask 0 0 0 0 1 1 0 8 [0xFFFFFFFF] = some [0xFF000000] := by
  decide +kernel

/-- **C48** (counterexample) When a mask command starts behind the end of the one before it, its pixels are painted
directly behind those of the first one (with the source of the right place).  No command list that the renderer builds has
such gaps. -/
theorem C48_counterexample_mask_gap :
    fillMask (fun _ => ofOp .srcCopy fun x => if x = 2 then 0xFF000002 else 0xFF000000) 255 (fun _ => none) 4 1 2
      [cmask 0 1 255, cmask 2 3 255, repeats 1] (List.replicate 8 0xFFFFFFFF) =
    some [0xFFFFFFFF, 0xFFFFFFFF, 0xFFFFFFFF, 0xFFFFFFFF, 0xFF000000, 0xFF000002, 0xFFFFFFFF, 0xFFFFFFFF] := by
  decide +kernel

/-- Mask images: the hypotheses are met. -/
example : ∃ B : Nat → Nat → Nat, ∀ x y, 0 ≤ x → x < 1 → 0 ≤ y → y < 1 → oneMask.at 0 0 0 0 x y = some (B x y) ∧ B x y ≤ 255 :=
  ⟨fun _ _ => 255, fun x y _ hx _ hy => by
    rw [show x = 0 by omega, show y = 0 by omega]; exact ⟨rfl, Nat.le_refl _⟩⟩

end Blend2D.FillMask
