import Verif.Pattern.Core

/-!
# C32: Patterns show the pixel their extend modes prescribe
-/

namespace Blend2D.Pattern

/-- `BLExtendMode` (`include: geometry/gradient enums`): the nine modes name the mode of either axis. -/
theorem C32_extend_modes : (List.range 9).map (fun e => (extendX e, extendY e)) =
    [(.pad, .pad), (.rep, .rep), (.reflect, .reflect), (.pad, .rep), (.pad, .reflect), (.rep, .pad), (.rep, .reflect),
     (.reflect, .pad), (.reflect, .rep)] := by decide

/-- A pattern placed at integer coordinates `(x, y)`: whatever the pipeline does (rectangles or spans, in any order, with
any gaps), the pixel fetched for the destination pixel `p` is the one the extend modes show at `p - (x, y)`. -/
theorem C32_aligned {w h stride bpp : Int} (hw : 0 < w) (hw' : w < 2 ^ 16) (hh : 0 < h) (hh' : h < 2 ^ 16) (hb : 0 < bpp)
    (mx my : Ext) {x y : Int} (hx : -(2 ^ 31) < x ∧ x < 2 ^ 31) (hy : -(2 ^ 31) < y ∧ y < 2 ^ 31)
    {d : Data} {k : Horz} (hd : initAxAy w h stride mx my x y = (d, k))
    (rect : Option Int) {y0 : Int} (hy0 : 0 ≤ y0 ∧ y0 < 2 ^ 31) (cs : List Call) (hl : legal bpp rect.isSome false cs) :
    (Aligned.init bpp d k rect y0).run bpp k cs =
      (fetched (rect.getD 0) ⟨0, y0⟩ cs).map (fun p => address w h stride bpp mx my (p.x - x) (p.y - y)) :=
  aligned_main hw hw' hh hh' hb mx my (by omega) (by omega) (by omega) (by omega) hd rect hy0.1 hy0.2 cs hl

theorem toI32_id {x : Int} (h0 : -(2 ^ 31) ≤ x) (h1 : x < 2 ^ 31) : toI32 x = x := by
  unfold toI32
  exact Int.bmod_eq_of_le (by omega) (by omega)

/-- A pattern translated by `(tx64, ty64) / 256` and drawn with nearest-neighbour quality shows the pixels at the
translation rounded to the nearest integer. -/
theorem C32_nearest {w h stride bpp : Int} (hw : 0 < w) (hw' : w < 2 ^ 16) (hh : 0 < h) (hh' : h < 2 ^ 16) (hb : 0 < bpp)
    (mx my : Ext) {tx64 ty64 : Int} (hx : -(2 ^ 38) < tx64 ∧ tx64 < 2 ^ 38) (hy : -(2 ^ 38) < ty64 ∧ ty64 < 2 ^ 38)
    {d : Data} {k : Horz} {i : Bool} (hd : initFxFy w h stride mx my true tx64 ty64 = (d, k, i))
    (rect : Option Int) {y0 : Int} (hy0 : 0 ≤ y0 ∧ y0 < 2 ^ 31) (cs : List Call) (hl : legal bpp rect.isSome false cs) :
    i = false ∧
    (Aligned.init bpp d k rect y0).run bpp k cs =
      (fetched (rect.getD 0) ⟨0, y0⟩ cs).map (fun p =>
        address w h stride bpp mx my (p.x - (tx64 + 128) / 256) (p.y - (ty64 + 128) / 256)) := by
  have ex := toI32_id (x := tx64 / 256) (by omega) (by omega)
  have ey := toI32_id (x := ty64 / 256) (by omega) (by omega)
  obtain ⟨X, hX⟩ : ∃ X, X = (tx64 + 128) / 256 := ⟨_, rfl⟩
  obtain ⟨Y, hY⟩ : ∃ Y, Y = (ty64 + 128) / 256 := ⟨_, rfl⟩
  have key : initTxTy w h stride mx my (-X) (-Y) false 0 0 0 0 = (d, k) ∧ i = false := by
    unfold initFxFy at hd
    simp only [ex, ey, if_true] at hd
    split at hd
    · rename_i hz
      rw [show -X = -(tx64 / 256) by omega, show -Y = -(ty64 / 256) by omega]
      simp only [Prod.mk.injEq] at hd
      obtain ⟨rfl, rfl, rfl⟩ := hd
      exact ⟨rfl, rfl⟩
    · rw [show -X = -(tx64 / 256) - (if tx64 % 256 ≥ 128 then 1 else 0) by split <;> omega,
        show -Y = -(ty64 / 256) - (if ty64 % 256 ≥ 128 then 1 else 0) by split <;> omega]
      simp only [Prod.mk.injEq] at hd
      obtain ⟨rfl, rfl, rfl⟩ := hd
      exact ⟨rfl, rfl⟩
  refine ⟨key.2, ?_⟩
  rw [← hX, ← hY]
  exact aligned_main hw hw' hh hh' hb mx my (by omega) (by omega) (by omega) (by omega) key.1 rect hy0.1 hy0.2 cs hl

/-- Interpolation weights for the fraction `wx / 256`, `wy / 256`: `a` belongs to the pixel left above, `b` right above, `c`
left below and `d` right below. -/
structure Weights (wx wy a b c d : Int) : Prop where
  nonneg : 0 ≤ a ∧ 0 ≤ b ∧ 0 ≤ c ∧ 0 ≤ d
  sum : a + b + c + d = 256
  wa : wy * wx - 256 < a * 256 ∧ a * 256 ≤ wy * wx
  wb : wy * (256 - wx) ≤ b * 256 ∧ b * 256 < wy * (256 - wx) + 256
  wc : (256 - wy) * wx - 256 < c * 256 ∧ c * 256 ≤ (256 - wy) * wx
  wd : (256 - wy) * (256 - wx) ≤ d * 256 ∧ d * 256 < (256 - wy) * (256 - wx) + 256

theorem weights_ok {wx wy : Int} (hx : 0 ≤ wx ∧ wx < 256) (hy : 0 ≤ wy ∧ wy < 256) :
    Weights wx wy (wy * wx / 256) ((wy * (256 - wx) + 255) / 256) ((256 - wy) * wx / 256)
      (((256 - wy) * (256 - wx) + 255) / 256) := by
  have p1 : 0 ≤ wy * wx := Int.mul_nonneg hy.1 hx.1
  have p2 : 0 ≤ wy * (256 - wx) := Int.mul_nonneg hy.1 (by omega)
  have p3 : 0 ≤ (256 - wy) * wx := Int.mul_nonneg (by omega) hx.1
  have p4 : 0 ≤ (256 - wy) * (256 - wx) := Int.mul_nonneg (by omega) (by omega)
  have e1 : wy * (256 - wx) = wy * 256 - wy * wx := by ring
  have e2 : (256 - wy) * wx = 256 * wx - wy * wx := by ring
  have e3 : (256 - wy) * (256 - wx) = 65536 - 256 * wx - wy * 256 + wy * wx := by ring
  constructor <;> omega

/-- A pattern translated by a fraction and drawn with bilinear quality: every fetched colour is the weighted sum of the
four pixels the extend modes show around the position `p - (tx64, ty64) / 256`, with weights that sum up to 256. -/
theorem C32_bilinear {w h stride bpp : Int} (hw : 0 < w) (hw' : w < 2 ^ 16) (hh : 0 < h) (hh' : h < 2 ^ 16) (hb : 0 < bpp)
    (mx my : Ext) {tx64 ty64 : Int} (hx : -(2 ^ 38) < tx64 ∧ tx64 < 2 ^ 38) (hy : -(2 ^ 38) < ty64 ∧ ty64 < 2 ^ 38)
    {d : Data} {k : Horz} (hd : initFxFy w h stride mx my false tx64 ty64 = (d, k, true))
    (img : Int → Nat) (himg : ∀ a, img a ≤ 255)
    (rect : Option Int) {y0 : Int} (hy0 : 0 ≤ y0 ∧ y0 < 2 ^ 31) (cs : List Call) (hl : legal bpp rect.isSome false cs) :
    ∃ a b c e : Nat, Weights (tx64 % 256) (ty64 % 256) a b c e ∧
    (FxFy.init bpp d k rect y0).run img bpp d k cs =
      (fetched (rect.getD 0) ⟨0, y0⟩ cs).map (fun p =>
        let at' := fun x y => img (address w h stride bpp mx my x y)
        let x := p.x - tx64 / 256
        let y := p.y - ty64 / 256
        (at' (x - 1) (y - 1) * a + at' x (y - 1) * b + at' (x - 1) y * c + at' x y * e) / 256) := by
  have ex := toI32_id (x := tx64 / 256) (by omega) (by omega)
  have ey := toI32_id (x := ty64 / 256) (by omega) (by omega)
  have W := weights_ok (wx := tx64 % 256) (wy := ty64 % 256) (by omega) (by omega)
  unfold initFxFy at hd
  simp only [ex, ey] at hd
  split at hd
  · simp at hd
  · simp only [Bool.false_eq_true, if_false, Prod.mk.injEq] at hd
    obtain ⟨h1, h2, -⟩ := hd
    have hd := Prod.ext (y := (d, k)) h1 h2
    obtain ⟨A, hA⟩ : ∃ A, A = ty64 % 256 * (tx64 % 256) / 256 := ⟨_, rfl⟩
    obtain ⟨B, hB⟩ : ∃ B, B = (ty64 % 256 * (256 - tx64 % 256) + 255) / 256 := ⟨_, rfl⟩
    obtain ⟨C, hC⟩ : ∃ C, C = (256 - ty64 % 256) * (tx64 % 256) / 256 := ⟨_, rfl⟩
    obtain ⟨D, hD⟩ : ∃ D, D = ((256 - ty64 % 256) * (256 - tx64 % 256) + 255) / 256 := ⟨_, rfl⟩
    rw [← hA, ← hB, ← hC, ← hD] at W hd
    obtain ⟨n1, n2, n3, n4⟩ := W.nonneg
    have ws := W.sum
    have da : d.wa = A := by rw [← h1]; exact hA.symm
    have db : d.wb = B := by rw [← h1]; exact hB.symm
    have dc : d.wc = C := by rw [← h1]; exact hC.symm
    have dd : d.wd = D := by rw [← h1]; exact hD.symm
    refine ⟨A.toNat, B.toNat, C.toNat, D.toNat, ?_, ?_⟩
    · rw [Int.toNat_of_nonneg n1, Int.toNat_of_nonneg n2, Int.toNat_of_nonneg n3, Int.toNat_of_nonneg n4]; exact W
    · rw [fxfy_main hw hw' hh hh' hb mx my (by omega) (by omega) (by omega) (by omega) hd rect hy0.1 hy0.2 img cs hl]
      apply List.map_congr_left
      intro p _
      simp only [da, db, dc, dd]
      rw [show p.x + 1 + (-(tx64 / 256) - 1) = p.x - tx64 / 256 by omega,
        show p.y + 1 + (-(ty64 / 256) - 1) = p.y - ty64 / 256 by omega,
        show p.x + (-(tx64 / 256) - 1) = p.x - tx64 / 256 - 1 by omega,
        show p.y + (-(ty64 / 256) - 1) = p.y - ty64 / 256 - 1 by omega]
      have i1 := himg (address w h stride bpp mx my (p.x - tx64 / 256 - 1) (p.y - ty64 / 256 - 1))
      have i2 := himg (address w h stride bpp mx my (p.x - tx64 / 256) (p.y - ty64 / 256 - 1))
      have i3 := himg (address w h stride bpp mx my (p.x - tx64 / 256 - 1) (p.y - ty64 / 256))
      have i4 := himg (address w h stride bpp mx my (p.x - tx64 / 256) (p.y - ty64 / 256))
      have s' : A.toNat + B.toNat + C.toNat + D.toNat = 256 := by omega
      have m1 := Nat.mul_le_mul_right A.toNat i1
      have m2 := Nat.mul_le_mul_right B.toNat i2
      have m3 := Nat.mul_le_mul_right C.toNat i3
      have m4 := Nat.mul_le_mul_right D.toNat i4
      rw [Nat.mod_eq_of_lt (show _ < 65536 by omega), Nat.mod_eq_of_lt (show _ < 65536 by omega)]
      congr 1
      omega

/-- So an interpolated colour never leaves the range of the four colours. -/
theorem C32_bilinear_range {wx wy : Int} {a b c e : Nat} (W : Weights wx wy a b c e) {m M p q r s : Nat}
    (hp : m ≤ p ∧ p ≤ M) (hq : m ≤ q ∧ q ≤ M) (hr : m ≤ r ∧ r ≤ M) (hs : m ≤ s ∧ s ≤ M) :
    m ≤ (p * a + q * b + r * c + s * e) / 256 ∧ (p * a + q * b + r * c + s * e) / 256 ≤ M := by
  have ws := W.sum
  have s' : a + b + c + e = 256 := by omega
  have hM : M * a + M * b + M * c + M * e = M * 256 := by rw [← s']; ring
  have hm : m * a + m * b + m * c + m * e = m * 256 := by rw [← s']; ring
  have := Nat.mul_le_mul_right a hp.1
  have := Nat.mul_le_mul_right a hp.2
  have := Nat.mul_le_mul_right b hq.1
  have := Nat.mul_le_mul_right b hq.2
  have := Nat.mul_le_mul_right c hr.1
  have := Nat.mul_le_mul_right c hr.2
  have := Nat.mul_le_mul_right e hs.1
  have := Nat.mul_le_mul_right e hs.2
  constructor <;> omega

/-- All of the fetchers read inside of the image only. -/
theorem C32_in_image {w h stride bpp : Int} (hw : 0 < w) (hh : 0 < h) (mx my : Ext) (x y : Int) :
    ∃ row col : Int, 0 ≤ row ∧ row < h ∧ 0 ≤ col ∧ col < w ∧ address w h stride bpp mx my x y = row * stride + col * bpp :=
  ⟨pixelAt h my y, pixelAt w mx x, (pixelAt_range hh my y).1, (pixelAt_range hh my y).2, (pixelAt_range hw mx x).1,
    (pixelAt_range hw mx x).2, rfl⟩

/-- A history with three scanlines in spans. -/
def calls : List Call :=
  [.spanStart 3, .fetch, .fetch, .spanAdvance 5, .fetch, .advanceY, .spanStart 0, .fetch, .advanceY, .advanceY, .spanStart 7, .fetch]

example : legal 4 false false calls := by simp [legal, calls]
example : (fetched 0 ⟨0, 1⟩ calls).map (fun p => (p.x, p.y)) = [(3, 1), (4, 1), (10, 1), (0, 2), (7, 4)] := by decide
example : let r := initAxAy 3 2 (-12) .reflect .rep 2 (-1)
    (Aligned.init 4 r.1 r.2 none 1).run 4 r.2 calls = [4, 8, 8, -8, -12] := by decide
example : initFxFy 3 2 12 .reflect .rep false 300 77 |>.2.2 = true := by decide

end Blend2D.Pattern
