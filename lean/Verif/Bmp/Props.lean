import Verif.Bmp.Frame

/-!
# C53: bitmap files
-/
namespace Blend2D.Bmp
open Spec PixConv PixConv.Spec

/-! ## Run-length encoding -/

theorem shows_start (w h : Nat) (hh : 0 < h) : Shows w h (fun _ _ => none) {} empty :=
  ⟨at_start w h, hh, rfl, rfl, fun y x _ _ k => by simp at k, fun _ _ _ _ _ => rfl⟩

/-- **C53**: any list of codes that stays within the picture, followed by the end of the bitmap, is decoded to the picture it draws;
with 4 and 8 bits per pixel, for every size and palette, whatever follows. -/
theorem C53_rle (four : Bool) (w h : Nat) (hw : w < 2 ^ 32) (hh : 0 < h) (pal : Nat → UInt32) (codes : List Code) (u : State) (r : List UInt8)
    (D : Draws four w h pal empty codes u) :
    ∃ c, rle four w h h pal (codes.flatMap (Code.bytes four) ++ ([0, 1] ++ r)) = .ok c ∧ ∀ y < h, ∀ x < w, c y x = some (u.px y x) := by
  obtain ⟨c, h1, h2⟩ := rleLoop_draws four hw pal codes r
    ((codes.flatMap (Code.bytes four) ++ ([0, 1] ++ r)).length + 1) (fun _ _ => none) {} empty u (shows_start w h hh) D
    (by simp only [List.length_append]; omega)
  exact ⟨c, h1, fun y hy x hx => h2 y x hy hx⟩

example : Draws true 5 2 (fun i => UInt32.ofNat i) empty [.fill 2 0x12, .run [3, 4, 5], .line, .fill 5 0x70]
    ((Code.fill 5 0x70).draw true 5 (fun i => UInt32.ofNat i) ((Code.line).draw true 5 (fun i => UInt32.ofNat i)
      ((Code.run [3, 4, 5]).draw true 5 (fun i => UInt32.ofNat i) ((Code.fill 2 0x12).draw true 5 (fun i => UInt32.ofNat i) empty)))) := by
  refine .cons _ _ _ _ ?_ (.cons _ _ _ _ ?_ (.cons _ _ _ _ ?_ (.cons _ _ _ _ ?_ (.nil _))))
  · simp [Code.Valid]
  · simp [Code.Valid, Code.draw, empty]
  · simp [Code.Valid, Code.draw, empty]
  · simp [Code.Valid]

/-- **C53**: whatever the data, if it is decoded, every pixel of the image has been written. -/
theorem C53_rle_complete (four : Bool) (w h : Nat) (hw : w < 2 ^ 32) (hh : 0 < h) (pal : Nat → UInt32) (p : List UInt8) (c : Canvas)
    (e : rle four w h h pal p = .ok c) : ∀ y x, y < h → x < w → (c y x).isSome :=
  rle_complete hw hh e

/-- **C53**: whatever the data, nothing is read outside of it or written outside of the image and one more row.

Partial: the memory of the image has no such row, see `C53_rle_move_counterexample`. -/
theorem C53_rle_safe_partial (four : Bool) (w h : Nat) (hw : w < 2 ^ 32) (hh : 0 < h) (pal : Nat → UInt32) (p : List UInt8) :
    rle four w (h + 1) h pal p ≠ .outside :=
  (rleLoop_safe four hw pal _ _ _ _ (at_start w h) hh).1

/-- A move to the row below the image writes there. -/
theorem C53_rle_move_counterexample : rle false 4 1 1 (fun i => UInt32.ofNat i) [0, 2, 3, 1] = .outside := by rfl

/-- The pixel of a result. -/
def look (r : Res Canvas) (y x : Nat) : Option UInt32 :=
  match r with
  | .ok c => c y x
  | _ => none

/-- A run that is longer than the rest of the row takes less data than it has, and the rest is read as codes: in an image of 2 × 2
pixels, the indexes 0 and 1 at the end of the run of 4 end the bitmap, and the second row, a fill of index 9, is not drawn. -/
theorem C53_rle_long_run_counterexample :
    look (rle false 2 2 2 (fun i => UInt32.ofNat i) [0, 4, 1, 2, 0, 1, 0, 0, 2, 9, 0, 1]) 1 0 = some 0 := by decide +kernel

/-! ## Files -/

/-- **C53**: a decoded image has the size of the header, and as many rows of as many pixels. -/
theorem C53_decode_size (d : List UInt8) (img : Image) (h : decode d = .ok img) :
    img.w = width d ∧ img.h = (height d).natAbs ∧ 0 < img.w ∧ 0 < img.h ∧ img.rows.length = img.h ∧
    ∀ y < img.h, (img.rows.getD y []).length = img.w * 4 := by
  obtain ⟨f, pal, rows, K⟩ := decode_ok h
  have F := K.acc.facts
  obtain ⟨r1, r2⟩ := rows_spec K
  rw [K.img]
  have hw := F.w
  have hh := K.h
  refine ⟨by simp only; omega, rfl, by simp only; omega, by simp only; omega, ?_, fun y hy => ?_⟩
  · simp only
    rw [← r1]
    split <;> simp
  · simp only at hy ⊢
    rw [flip_getD _ _ _ (by rw [r1]; exact hy)]
    apply r2
    rw [r1]
    split <;> omega

/-- Pixels without palette, with the format that the headers give. -/
theorem decode_direct {d : List UInt8} {img : Image} (h : decode d = .ok img) (h8 : 8 < depth d) {f : Fmt} (ef : readFmt d (headOf d) = .ok f) :
    Describes d f ∧ img.fmt = (if f.alpha then prgb32 else xrgb32) ∧
      ∀ y < img.h, ∀ x < img.w, pixel img.fmt (img.rows.getD y []) x % (if f.alpha then 2 ^ 32 else 2 ^ 24) =
        native (color f (pixel f (rowOf d y) x)) % (if f.alpha then 2 ^ 32 else 2 ^ 24) := by
  obtain ⟨f0, pal, rows, K⟩ := decode_ok h
  obtain rfl : f = f0 := by
    have k := K.fmt
    rw [ef, Res.ok.injEq] at k
    exact k
  have F := K.acc.facts
  rcases readFmt_spec K.acc.hdr K.acc.len with e | ⟨f', e, -, D, ha⟩
  · have k := K.fmt
    rw [e] at k; cases k
  rw [K.fmt, Res.ok.injEq] at e
  subst e
  have D := D h8
  obtain ⟨r1, r2⟩ := readRows_direct F h8 D ha K.len K.read
  refine ⟨D, ?_, fun y hy x hx => ?_⟩
  · rw [K.img]
    unfold imageFmt
    simp only [ha]
  · rw [K.img] at hy hx ⊢
    simp only at hy hx ⊢
    rw [flip_getD _ _ _ (by rw [r1]; exact hy), r1, (r2 _ (by split <;> omega)).2 x hx, rowOf_eq d f y hy, pixel_take]
    rw [D.depth]
    have : (x + 1) * (depth d / 8) ≤ (width d).toNat * (depth d / 8) := Nat.mul_le_mul_right _ hx
    rcases F.dep with h | h | h | h | h | h <;> rw [h] at this ⊢ <;> omega

/-- **C53**: more than 8 bits per pixel: every pixel of the image has the colour of the pixel of the file, whose components are given by
the masks of the header, or are of 5 or 8 bits; rows are from bottom to top if the height is positive. With a mask of alpha the image
is `PRGB32`, and otherwise `XRGB32`, where the fourth byte has no meaning. -/
theorem C53_decode_direct (d : List UInt8) (img : Image) (h : decode d = .ok img) (h8 : 8 < depth d) :
    ∃ f, Describes d f ∧ img.fmt = (if f.alpha then prgb32 else xrgb32) ∧
      ∀ y < img.h, ∀ x < img.w, pixel img.fmt (img.rows.getD y []) x % (if f.alpha then 2 ^ 32 else 2 ^ 24) =
        native (color f (pixel f (rowOf d y) x)) % (if f.alpha then 2 ^ 32 else 2 ^ 24) := by
  obtain ⟨f, pal, rows, K⟩ := decode_ok h
  exact ⟨f, decode_direct h h8 K.fmt⟩

/-- **C53**: up to 8 bits per pixel without compression: every pixel of the image has the colour of the palette at its index, black if
the palette is shorter. -/
theorem C53_decode_indexed (d : List UInt8) (img : Image) (h : decode d = .ok img) (h8 : depth d ≤ 8) (hc : compression d = 0) :
    img.fmt = xrgb32 ∧
      ∀ y < img.h, ∀ x < img.w, pixel xrgb32 (img.rows.getD y []) x = native (paletteColor d (index (depth d) (rowOf d y) x)) := by
  obtain ⟨f, pal, rows, K⟩ := decode_ok h
  have F := K.acc.facts
  have D := fmt_indexed K h8
  have hr : (headOf d).rle = false := by
    unfold Head.rle
    rw [decide_eq_false_iff_not]
    show ¬ ((_ ∧ compression d = 2) ∨ (_ ∧ compression d = 1))
    omega
  obtain ⟨r1, r2⟩ := readRows_indexed F h8 hr D K.colors K.len K.read
  refine ⟨by rw [K.img, D]; rfl, fun y hy x hx => ?_⟩
  rw [K.img] at hy hx ⊢
  simp only at hy hx ⊢
  rw [flip_getD _ _ _ (by rw [r1]; exact hy), r1, (r2 _ (by split <;> omega)).2 x hx, rowOf_eq d f y hy, index_take]
  have : x * depth d < (width d).toNat * depth d := Nat.mul_lt_mul_of_pos_right hx (by have := F.dep; omega)
  omega

/-- **C53**: run-length encoded files show what their codes draw. -/
theorem C53_decode_rle (d : List UInt8) (img : Image) (h : decode d = .ok img) (h8 : depth d ≤ 8) (hc : compression d ≠ 0)
    (codes : List Code) (u : State) (r : List UInt8)
    (D : Draws (decide (depth d = 4)) img.w img.h (fun i => UInt32.ofNat (native (paletteColor d i))) empty codes u)
    (hd : (d.drop (offset d)).take (imageSize d) = codes.flatMap (Code.bytes (decide (depth d = 4))) ++ ([0, 1] ++ r)) :
    img.fmt = xrgb32 ∧ ∀ y < img.h, ∀ x < img.w, pixel xrgb32 (img.rows.getD y []) x =
      (u.px (if 0 < height d then img.h - 1 - y else y) x).toNat := by
  obtain ⟨f, pal, rows, K⟩ := decode_ok h
  have F := K.acc.facts
  have D' := fmt_indexed K h8
  have hr : (headOf d).rle = true := by rcases F.comp with k | k | k; exact (hc k).elim; omega; exact k
  obtain ⟨c, c1, c2⟩ := readRows_rle K hr
  have hw := F.w
  have hh := K.h
  have ew : img.w = (width d).toNat := by rw [K.img]
  have eh : img.h = (height d).natAbs := by rw [K.img]
  have hsz : (headOf d).size = imageSize d := by
    unfold Head.size
    rw [if_neg]
    · rfl
    · rintro (k | ⟨-, k⟩)
      · have : compression d = 0 := by unfold compression; exact if_pos k
        exact hc this
      · rw [hr] at k; simp at k
  rw [ew, eh] at D
  rw [hsz, hd] at c1
  have hpal := palette_spec (t := infoOf d f) h8 F.off rfl rfl K.colors
  obtain ⟨c', e1, e2⟩ := C53_rle (decide (depth d = 4)) (width d).toNat (height d).natAbs (by omega) (by omega) (fun i => pal.getD i 0) codes u r
    (D.congr fun i hi => by
      apply UInt32.toNat_inj.1
      rw [hpal.2 i hi, UInt32.toNat_ofNat', Nat.mod_eq_of_lt]
      rw [← hpal.2 i hi]
      exact UInt32.toNat_lt _)
  rw [e1, Res.ok.injEq] at c1
  subst c1
  obtain ⟨s1, s2⟩ := canvasRows_spec (width d).toNat (height d).natAbs c' (fun y x hy hx => by rw [e2 y hy x hx]; rfl)
  refine ⟨by rw [K.img, D']; rfl, fun y hy x hx => ?_⟩
  rw [ew] at hx
  rw [eh] at hy ⊢
  have e3 : img.rows = if decide (0 < height d) then rows.reverse else rows := by rw [K.img]
  rw [e3, c2, flip_getD _ _ _ (by rw [s1]; exact hy), s1]
  have hk : (if decide (0 < height d) = true then (height d).natAbs - 1 - y else y) < (height d).natAbs := by split <;> omega
  have := (s2 _ hk).2 x hx
  rw [e2 _ hk x hx, Option.some.injEq] at this
  simp only [decide_eq_true_iff] at this hk ⊢
  rw [← this, UInt32.toNat_ofNat', Nat.mod_eq_of_lt]
  have hb := leVal_lt (slice 4 x ((canvasRows (width d).toNat (height d).natAbs c').getD (if 0 < height d then (height d).natAbs - 1 - y else y) []))
  have hl := (s2 _ (by simpa only [decide_eq_true_iff] using hk)).1
  rw [slice_lt 4 x _ _ hl hx] at hb
  show number false _ < _
  rw [number_eq]
  exact hb

/-- **C53**: files that are not run-length encoded are decoded without access outside of the file.

Partial: run-length encoded ones may write below the image. -/
theorem C53_decode_safe_partial (d : List UInt8) (h : compression d = 0 ∨ 8 < depth d) : decode d ≠ .outside := by
  intro e
  unfold decode at e
  rw [Res.bind_outside] at e
  rcases readInfo_spec d with e0 | ⟨f, A, ef, e0⟩
  · rw [e0] at e
    rcases e with e | ⟨a, e, -⟩ <;> cases e
  rw [e0] at e
  rcases e with e | ⟨a, e, e1⟩
  · cases e
  rw [Res.ok.injEq] at e
  subst e
  change readFrame d (infoOf d f) = _ at e1
  have F := A.facts
  have hr : (headOf d).rle = false := by
    unfold Head.rle
    rw [decide_eq_false_iff_not]
    show ¬ ((depth d = 4 ∧ compression d = 2) ∨ (depth d = 8 ∧ compression d = 1))
    omega
  unfold readFrame at e1
  rw [Res.bind_outside] at e1
  rcases e1 with e1 | ⟨u1, -, e1⟩
  · exact need_outside e1
  simp only at e1
  rw [Res.bind_outside] at e1
  rcases e1 with e1 | ⟨pal, hp, e1⟩
  · exact palette_safe e1
  rw [Res.bind_outside] at e1
  rcases e1 with e1 | ⟨u2, hl, e1⟩
  · exact need_outside e1
  rw [need_ok, decide_eq_true_iff] at hl
  rw [Res.bind_outside] at e1
  rcases e1 with e1 | ⟨u3, -, e1⟩
  · exact need_outside e1
  rw [Res.bind_outside] at e1
  rcases e1 with e1 | ⟨rows, -, e1⟩
  · exact readRows_safe A ef hr hp hl e1
  · cases e1

end Blend2D.Bmp
