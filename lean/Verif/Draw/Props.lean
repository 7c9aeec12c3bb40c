import Verif.Draw.Loop
import Verif.Comp.Props

/-!
# C50 — a filled shape is painted with the coverage of its edges
-/
namespace Blend2D.Draw
open Raster Raster.Spec Spec
open BitOps (Order bitAt)
open Fill (Comp)

variable {P : Type}

/-- **C50** (bit helper) `bit_fill` sets exactly the bits from `first` to `last`, and `bit_set` is the same for one bit. -/
theorem C50_bit_fill (o : Order) (buf : List (BitVec 64)) {first last : Nat} (h : first ≤ last) (hl : last / 64 < buf.length) :
    ∃ b, bitFill o buf first last = some b ∧ b.length = buf.length ∧
      ∀ k, bitAt o b k = true ↔ (first ≤ k ∧ k ≤ last) ∨ bitAt o buf k = true := by
  obtain ⟨b, h1, h2, h3⟩ := bitFill_spec o buf h hl
  refine ⟨b, h1, h2, fun k => ?_⟩
  rw [h3]
  by_cases c : first ≤ k ∧ k ≤ last
  · simp [c]
  · rw [if_neg c]
    simp [c]

theorem bitAt_ext (o : Order) {a b : List (BitVec 64)} (hl : a.length = b.length) (h : ∀ k, bitAt o a k = bitAt o b k) : a = b := by
  refine List.ext_getElem hl fun i h1 h2 => BitOps.hasBit_ext o fun j hj => ?_
  have := h (i * 64 + j)
  rw [BitOps.bitAt_word o a hj, BitOps.bitAt_word o b hj, List.getElem?_eq_getElem h1, List.getElem?_eq_getElem h2] at this
  exact this

/-- `bit_set` (`bit_array_set_bit`, C41) is `bit_fill` of one bit. -/
theorem C50_bit_set (o : Order) (buf : List (BitVec 64)) {i : Nat} (hi : i < buf.length * 64) :
    bitFill o buf i i = BitOps.setBit o buf i := by
  obtain ⟨b, h1, h2, h3⟩ := bitFill_spec o buf (first := i) (last := i) (Nat.le_refl _) (by omega)
  obtain ⟨b', g1, g2, g3⟩ := (BitOps.C41_single_bit o buf i hi).2.1
  rw [h1, g1, bitAt_ext o (h2.trans g2.symm) fun k => ?_]
  rw [h3, g3]
  by_cases c : k = i
  · rw [if_pos (by omega), if_pos c]
  · rw [if_neg (by omega), if_neg c]

/-- **C50** (shapes) The edges of a closed shape, in any number and in any directions, over any number of bands, are drawn without
an access outside of the buffers and the image: every pixel of the image is composed with the mask of the coverage at that
pixel (the sum over all lines, as C49 defines it), and the buffers are left clean for the next shape.

Partial: lines that C49 excludes (`Glitch`, drawn wrongly) are excluded by `Down`; the accumulated coverage must fit the 32-bit
cells. -/
theorem C50_fill_partial {F : Cfg} {C : Nat → Comp P} {h y0 y1 : Nat} {bands : List (List Vec)} (S : Shape F h y0 y1 bands)
    (hC : ∀ y, Fill.Good (C y)) (hr : F.rule = BitVec.allOnes 32 ∨ F.rule = 0x1FF#32) (ha : F.alpha ≤ 255)
    (hra : ∀ y x : Nat, -(2 ^ 31) ≤ 0x20000 + shape bands.flatten y x ∧ 0x20000 + shape bands.flatten y x < 2 ^ 31)
    {img : List (List P)} (hh : img.length = h) (hwid : ∀ row ∈ img, row.length = F.w) {b : Bufs} (hb : Clean F.w F.bh b) :
    ∃ b' img', fillAnalytic F C y0 y1 bands b img = some (b', img') ∧ Clean F.w F.bh b' ∧ img'.length = img.length ∧
      ∀ y row, img[y]? = some row → ∃ row', img'[y]? = some row' ∧ row'.length = row.length ∧
        ∀ x (hx : x < row.length),
          row'[x]? = some ((C y).masked x row[x] (maskOf F.rule (shape bands.flatten y x) F.alpha)) := by
  have hpos := S.height
  have hord := S.order
  have hin := S.inside
  have hen := S.enough
  have hp2 : 0 < 256 * F.bh := by omega
  -- the first band
  have hlt : y0 / (256 * F.bh) < bands.length := by
    rw [Nat.div_lt_iff_lt_mul hp2]
    have : bands.length * (256 * F.bh) = 256 * (bands.length * F.bh) := by ring
    omega
  have hle : y0 / (256 * F.bh) ≤ y1 / (256 * F.bh) := Nat.div_le_div_right (by omega)
  have hdd : y0 / 256 / F.bh = y0 / (256 * F.bh) := Nat.div_div_eq_div_mul _ _ _
  have hlo : y0 / (256 * F.bh) * F.bh ≤ y0 / 256 := by rw [← hdd]; exact Nat.div_mul_le_self _ _
  have hhi : y0 / 256 < (y0 / (256 * F.bh) + 1) * F.bh := by
    rw [← hdd, ← Nat.div_lt_iff_lt_mul hpos]
    omega
  have I : Inv F C y0 y1 bands img (y0 / (256 * F.bh)) (y0 / 256) [] b img := by
    refine ⟨hlo, hhi, Or.inr rfl, ⟨[], .nil, fun y x _ => ?_⟩, hb, rfl, fun y row hrow => ⟨row, hrow, ?_⟩⟩
    · rw [S.earlier (Nat.le_refl _)]
      simp [sumF]
    · split
      · refine painted_zero hC fun x _ => ?_
        refine shape_above (k := y0 / 256) x (by omega) _ fun v hv => ?_
        obtain ⟨vs, h1, h2⟩ := List.mem_flatten.1 hv
        obtain ⟨i, hi1, hi2⟩ := List.getElem_of_mem h1
        obtain ⟨p, l, e1, _, _, e2, _⟩ := S.first (by rw [← hi2]; exact List.getElem?_eq_getElem hi1) h2
        exact ⟨S.down vs h1 v h2, p, l, e1, by omega⟩
      · rfl
  generalize hs : y0 / (256 * F.bh) = start at *
  generalize hn : max 1 (min (y1 / (256 * F.bh) + 1) bands.length - start) = n
  have hsn : start + n = min (y1 / (256 * F.bh) + 1) bands.length := by omega
  obtain ⟨b', img', g1, g2, g3, g4⟩ := drawBands_ok S hC hr ha hh hwid hra n start (y0 / 256) [] b img I (by omega) (by omega)
  refine ⟨b', img', ?_, g2, g3, fun y row hrow => ?_⟩
  · simp only [fillAnalytic, hs, hn]
    exact g1
  · obtain ⟨row', r1, r2⟩ := g4 y row hrow
    refine ⟨row', r1, ?_⟩
    have hy := (List.getElem?_eq_some_iff.1 hrow).1
    by_cases c : y < (start + n) * F.bh
    · rw [if_pos c] at r2
      exact r2
    · rw [if_neg c] at r2
      rw [r2]
      refine painted_zero hC fun x _ => S.below _ ?_
      rw [hsn] at c
      by_cases d : y1 / (256 * F.bh) + 1 ≤ bands.length
      · rw [Nat.min_eq_left d] at c
        have h1 := Nat.lt_div_mul_add (a := y1) hp2
        have h2 : (y1 / (256 * F.bh) + 1) * (256 * F.bh) = 256 * ((y1 / (256 * F.bh) + 1) * F.bh) := by ring
        have h3 : (y1 / (256 * F.bh) + 1) * (256 * F.bh) = y1 / (256 * F.bh) * (256 * F.bh) + 256 * F.bh := Nat.succ_mul _ _
        omega
      · rw [Nat.min_eq_right (by omega)] at c
        omega

/-! ## A shape -/

/-- A shape with a slanted line, over two bands. -/
def sample : List (List Vec) :=
  [[⟨false, [⟨100, 100⟩, ⟨300, 250⟩, ⟨300, 1300⟩]⟩, ⟨true, [⟨900, 100⟩, ⟨900, 1300⟩]⟩], []]

theorem sample_shape (o : Order) (rule : BitVec 32) (alpha : Nat) : Shape ⟨o, 8, 4, rule, alpha⟩ 8 100 1300 sample := by
  have g : ∀ p q : Pt, p.y / 256 = (q.y - 1) / 256 → ¬ Glitch p q := by
    rintro p q h ⟨_, _, c, r, h1, h2, _⟩
    omega
  have v : ∀ p q : Pt, p.x = q.x → p.y < q.y → ¬ Glitch p q := by
    rintro p q h hy ⟨_, _, c, r, h1, h2, _, h3⟩
    have : xAt p q (256 * r) = p.x := by
      unfold xAt
      rw [if_neg (by omega), if_neg (by omega), if_pos (by omega), h]
      have : Raster.Spec.round ((q.x - q.x) * (256 * r - p.y)) (q.y - p.y) = 0 := by
        unfold Raster.Spec.round
        rw [Int.sub_self, Int.zero_mul, Int.zero_add]
        exact Int.ediv_eq_zero_of_lt (by omega) (by omega)
      omega
    omega
  refine ⟨show 0 < 4 by decide, by decide, by decide, show 8 ≤ 2 * 4 by decide, ?_, ?_, ?_, ?_⟩
  · intro vs hvs w hw
    simp only [sample, List.mem_cons, List.not_mem_nil, or_false] at hvs
    rcases hvs with rfl | rfl
    · simp only [List.mem_cons, List.not_mem_nil, or_false] at hw
      rcases hw with rfl | rfl
      · exact ⟨by decide, g _ _ (by decide), by decide, v _ _ rfl (by decide), trivial⟩
      · exact ⟨by decide, v _ _ rfl (by decide), trivial⟩
    · simp at hw
  · have : ∀ vs ∈ sample, ∀ v ∈ vs, ∀ p ∈ v.pts, 0 ≤ p.x ∧ p.x ≤ 256 * (8 : Nat) ∧ ((100 : Nat) : Int) ≤ p.y ∧ p.y ≤ (1300 : Nat) := by decide
    exact this
  · intro id vs hvs w hw
    match id with
    | 0 =>
      simp only [sample, List.getElem?_cons_zero, Option.some.injEq] at hvs
      subst hvs
      simp only [List.mem_cons, List.not_mem_nil, or_false] at hw
      rcases hw with rfl | rfl
      · exact ⟨_, _, rfl, show (100 : Int) / (256 * (4 : Nat)) = (0 : Nat) by decide⟩
      · exact ⟨_, _, rfl, show (100 : Int) / (256 * (4 : Nat)) = (0 : Nat) by decide⟩
    | 1 =>
      simp only [sample, List.getElem?_cons_succ, List.getElem?_cons_zero, Option.some.injEq] at hvs
      subst hvs
      simp at hw
    | n + 2 => simp [sample] at hvs
  · intro y
    simp only [sample, List.flatten_cons, List.cons_append, List.nil_append, List.flatten_nil, winding, chainHeight, height, sgn, top, bottom]
    simp
    omega

/-- The coverage of the sample fits the cells. -/
theorem sample_range (y x : Nat) : -(2 ^ 31) ≤ 0x20000 + shape sample.flatten y x ∧ 0x20000 + shape sample.flatten y x < 2 ^ 31 := by
  have S := sample_shape .lsb 0 0
  by_cases hx : x < 8
  · by_cases hy : y < 6
    · have : ∀ y : Nat, y < 6 → ∀ x : Nat, x < 8 → -(2 ^ 31) ≤ 0x20000 + shape sample.flatten y x ∧ 0x20000 + shape sample.flatten y x < 2 ^ 31 := by
        decide +kernel
      exact this y hy x hx
    · rw [S.below x (by omega)]
      decide
  · rw [S.right (show (8 : Int) ≤ x by omega)]
    decide

/-- Clean buffers for the sample. -/
def sampleBufs : Bufs := ⟨List.replicate 4 [0], List.replicate 4 (List.replicate 16 0), 0, 0⟩

example : Clean 8 4 sampleBufs := by
  refine ⟨rfl, rfl, ?_, ?_⟩
  · intro row hrow
    rw [List.eq_of_mem_replicate hrow]
    exact ⟨rfl, by simp⟩
  · intro row hrow
    rw [List.eq_of_mem_replicate hrow]
    exact ⟨rfl, fun x hx => List.eq_of_mem_replicate hx⟩

/-- The sample, drawn over black with opaque white: the first scanline is partly covered, the left pixels too. -/
example : (fillAnalytic ⟨.lsb, 8, 4, BitVec.allOnes 32, 255⟩ (fun _ => Fill.ofOp .srcCopy fun _ => 0xFFFFFFFF) 100 1300 sample sampleBufs
    (List.replicate 8 (List.replicate 8 0xFF000000))).map (fun r => r.2.map fun row => row.map fun p => (p &&& 0xFF).toNat) =
    some [[34, 151, 155, 79, 0, 0, 0, 0], [0, 211, 255, 131, 0, 0, 0, 0], [0, 211, 255, 131, 0, 0, 0, 0],
      [0, 211, 255, 131, 0, 0, 0, 0], [0, 211, 255, 131, 0, 0, 0, 0], [0, 15, 19, 9, 0, 0, 0, 0],
      [0, 0, 0, 0, 0, 0, 0, 0], [0, 0, 0, 0, 0, 0, 0, 0]] := by
  decide +kernel

end Blend2D.Draw
