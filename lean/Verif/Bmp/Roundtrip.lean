import Verif.Bmp.Encode

/-!
# C53: an image that is written and read
-/
namespace Blend2D.Bmp
open Spec PixConv PixConv.Spec

/-- The bytes of an image are there. -/
structure Image.Whole (img : Image) : Prop where
  w : 0 < img.w ∧ img.w ≤ 65535
  h : 0 < img.h ∧ img.h ≤ 65535
  rows : img.rows.length = img.h
  row : ∀ r ∈ img.rows, r.length = img.w * (img.fmt.depth / 8)

/-- The rows of the file, the last one first. -/
theorem encodeRows_spec (p : Plan) (w : Nat) (conv : Option Conv) (rows : List (List UInt8)) (E : List UInt8 → List UInt8 → Prop)
    (h : ∀ r ∈ rows, ∃ o, encodeRow p w conv r = .ok o ∧ o.length = p.bpl ∧ E r o) :
    ∃ out, encodeRows p w conv rows = .ok out ∧ out.length = rows.length * (p.bpl + p.gap) ∧
      ∀ y < rows.length, E (rows.getD y []) ((out.drop ((rows.length - 1 - y) * (p.bpl + p.gap))).take p.bpl) := by
  induction rows with
  | nil => exact ⟨[], rfl, by simp, fun y hy => by simp at hy⟩
  | cons r rs ih =>
    obtain ⟨out, h1, h2, h3⟩ := ih (fun r hr => h r (List.mem_cons_of_mem _ hr))
    obtain ⟨o, h4, h5, h6⟩ := h r List.mem_cons_self
    refine ⟨out ++ (o ++ List.replicate p.gap 0), ?_, ?_, fun y hy => ?_⟩
    · unfold encodeRows
      rw [h1, Res.ok_bind, h4, Res.ok_bind]
    · simp only [List.length_append, List.length_replicate, List.length_cons, h2, h5, Nat.succ_mul]
    · cases y with
      | zero =>
        have : (r :: rs).length - 1 - 0 = rs.length := by simp
        rw [this, ← h2, List.drop_left, ← h5, List.take_left]
        exact h6
      | succ y =>
        simp only [List.length_cons] at hy ⊢
        rw [List.getD_cons_succ, show rs.length + 1 - 1 - (y + 1) = rs.length - 1 - y by omega]
        have := h3 y (by omega)
        have hle : (rs.length - 1 - y) * (p.bpl + p.gap) + (p.bpl + p.gap) ≤ rs.length * (p.bpl + p.gap) := by
          rw [← Nat.succ_mul]; exact Nat.mul_le_mul_right _ (by omega)
        rw [List.drop_append_of_le_length (by omega), List.take_append_of_le_length (by rw [List.length_drop]; omega)]
        exact this

/-- A written file: its header, palette and rows. -/
structure File (d : List UInt8) (p : Plan) (w h : Nat) (pb out : List UInt8) : Prop where
  eq : d = header p w h ++ (pb ++ out)
  pbl : pb.length = p.pal
  outl : out.length = h * (p.bpl + p.gap)
  hdr : p.hdr = 40 ∧ (p.depth = 24 ∨ p.depth = 8) ∨ p.hdr = 108 ∧ p.depth = 32
  pal : p.pal ≤ 1024
  wd : 0 < w ∧ w ≤ 65535
  ht : 0 < h ∧ h ≤ 65535
  row : p.bpl + p.gap = (w * p.depth + 31) / 32 * 4
  size : (p.bpl + p.gap) * h < 2 ^ 32

theorem File.written {d : List UInt8} {p : Plan} {w h : Nat} {pb out : List UInt8} (F : File d p w h pb out) : Written d p w h := by
  rw [F.eq]
  have h1 := F.hdr
  have h2 := F.wd
  have h3 := F.ht
  exact header_written p w h _ (by omega) F.pal (by omega) (by omega) (by omega)

theorem File.length {d : List UInt8} {p : Plan} {w h : Nat} {pb out : List UInt8} (F : File d p w h pb out) :
    d.length = 14 + p.hdr + p.pal + (p.bpl + p.gap) * h := by
  have h1 := F.hdr
  rw [F.eq, List.length_append, header_length _ _ _ (by omega), List.length_append, F.pbl, F.outl, Nat.mul_comm h]
  omega

theorem File.stride {d : List UInt8} {p : Plan} {w h : Nat} {pb out : List UInt8} (F : File d p w h pb out) :
    stride d = p.bpl + p.gap := by
  have W := F.written
  unfold Spec.stride
  rw [W.wd, W.dep, F.row]
  simp

theorem File.rle {d : List UInt8} {p : Plan} {w h : Nat} {pb out : List UInt8} (F : File d p w h pb out) : (headOf d).rle = false := by
  have W := F.written
  unfold Head.rle
  rw [decide_eq_false_iff_not]
  show ¬ ((depth d = 4 ∧ compression d = 2) ∨ (depth d = 8 ∧ compression d = 1))
  rw [W.comp]
  omega

theorem File.size_eq {d : List UInt8} {p : Plan} {w h : Nat} {pb out : List UInt8} (F : File d p w h pb out) :
    (headOf d).size = (p.bpl + p.gap) * h := by
  have W := F.written
  unfold Head.size
  have e1 : strideOf (headOf d).w.toNat (headOf d).depth * (headOf d).h.natAbs = (p.bpl + p.gap) * h := by
    show strideOf (width d).toNat (depth d) * (height d).natAbs = _
    rw [stride_eq, F.stride, W.ht]
    rfl
  have e2 : (headOf d).imageSize = (p.bpl + p.gap) * h := by
    show imageSize d = _
    rw [W.size]
    exact Nat.mod_eq_of_lt F.size
  rw [e1, e2]
  split <;> rfl

theorem File.accepted {d : List UInt8} {p : Plan} {w h : Nat} {pb out : List UInt8} (F : File d p w h pb out) : Accepted d := by
  have W := F.written
  have hh := F.hdr
  have hl := F.length
  have fw := F.wd
  have fh := F.ht
  refine ⟨W.magic, by rw [W.hdr]; omega, by rw [W.hdr]; omega, ?_⟩
  unfold Head.accepted
  rw [decide_eq_true_iff, F.size_eq]
  show height d ≠ -2 ^ 31 ∧ 0 < width d ∧ planes d = 1 ∧ (compression d = 0 ∨ 8 < depth d ∨ _) ∧ 14 + headerSize d ≤ offset d ∧ width d ≤ 65535 ∧
    (height d).natAbs ≤ 65535 ∧ [1, 4, 8, 16, 24, 32].contains (depth d) = true ∧ strideOf (width d).toNat (depth d) < 2 ^ 32 - 1 ∧
    strideOf (width d).toNat (depth d) * (height d).natAbs < 2 ^ 32 ∧ (_ ∨ strideOf (width d).toNat (depth d) * (height d).natAbs ≤ _)
  rw [stride_eq, F.stride, W.comp, W.ht, W.wd, W.planes, W.hdr, W.off, W.dep]
  refine ⟨by omega, by omega, rfl, Or.inl rfl, by omega, by omega, by omega, ?_, ?_, ?_, Or.inr ?_⟩
  · rcases hh with ⟨-, h | h⟩ | ⟨-, h⟩ <;> rw [h] <;> rfl
  · rw [F.row]
    rcases hh with ⟨-, h | h⟩ | ⟨-, h⟩ <;> rw [h] <;> omega
  · exact F.size
  · exact Nat.le_refl _

theorem File.lengths {d : List UInt8} {p : Plan} {w h : Nat} {pb out : List UInt8} (F : File d p w h pb out) :
    offset d < d.length ∧ (headOf d).size ≤ d.length - offset d := by
  have W := F.written
  have hl := F.length
  have fw := F.wd
  have fh := F.ht
  rw [F.size_eq, W.off, hl]
  have : 0 < (p.bpl + p.gap) * h := by
    apply Nat.mul_pos _ fh.1
    rw [F.row]
    rcases F.hdr with ⟨-, h | h⟩ | ⟨-, h⟩ <;> rw [h] <;> omega
  omega

/-- Where a row is. -/
theorem File.rowOf {d : List UInt8} {p : Plan} {w h : Nat} {pb out : List UInt8} (F : File d p w h pb out) (y : Nat) :
    rowOf d y = out.drop ((h - 1 - y) * (p.bpl + p.gap)) := by
  have W := F.written
  have hh := F.hdr
  have fh := F.ht
  unfold Spec.rowOf
  rw [if_pos (by rw [W.ht]; omega), F.stride, W.off, W.ht, Int.natAbs_natCast, ← List.drop_drop]
  congr 1
  rw [F.eq, ← List.append_assoc]
  have : (header p w h ++ pb).length = 14 + p.hdr + p.pal := by
    rw [List.length_append, header_length _ _ _ (by omega), F.pbl]
  rw [← this, List.drop_left]

/-- A file with formats that converters take is decoded. -/
theorem File.decode {d : List UInt8} {p : Plan} {w h : Nat} {pb out : List UInt8} (F : File d p w h pb out) (f : Fmt)
    (ef : readFmt d (headOf d) = .ok f) (pal : List UInt32) (ep : palette d (infoOf d f) = .ok pal)
    (hc : (create (imageFmt f) (if depth d ≤ 8 then { f with palette := pal } else f) true).isSome) :
    ∃ img, decode d = .ok img := by
  have A := F.accepted
  have W := F.written
  have fh := F.ht
  have key : ∃ rows, readRows d (infoOf d f) pal (imageFmt f) = .ok rows := by
    cases hr : readRows d (infoOf d f) pal (imageFmt f) with
    | ok rows => exact ⟨rows, rfl⟩
    | outside => exact (readRows_safe A ef F.rle ep F.lengths hr).elim
    | error =>
      exfalso
      obtain ⟨c, hc⟩ := Option.isSome_iff_exists.1 hc
      unfold readRows at hr
      rw [if_neg (show ¬ (infoOf d f).rle = true by show ¬ (headOf d).rle = true; rw [F.rle]; simp)] at hr
      change (match create (imageFmt f) (if depth d ≤ 8 then { f with palette := pal } else f) true with | none => Res.error | some c => convertRows c (width d).toNat ((List.range (height d).natAbs).map (fileRow d (infoOf d f)))) = _ at hr
      rw [hc] at hr
      simp only at hr
      generalize (List.range (height d).natAbs).map (fileRow d (infoOf d f)) = rs at hr
      revert hr
      induction rs with
      | nil => intro hr; cases hr
      | cons r rs ih =>
        intro hr
        unfold convertRows at hr
        cases h1 : c.row (width d).toNat r with
        | none => rw [h1] at hr; cases hr
        | some o =>
          rw [h1] at hr
          cases h2 : convertRows c (width d).toNat rs with
          | ok os => rw [h2] at hr; cases hr
          | outside => rw [h2] at hr; cases hr
          | error => exact ih h2
  obtain ⟨rows, hr⟩ := key
  exact ⟨_, decode_make A ef ep F.lengths (by rw [W.ht]; omega) hr⟩

/-! ## The formats of files -/

theorem plan_prgb32 (w : Nat) : plan prgb32 w = ⟨108, 32, 0, w * 4 % 2 ^ 32, 0,
    { depth := 32, rgb := true, alpha := true, prem := true, r := ⟨8, 16⟩, g := ⟨8, 8⟩, b := ⟨8, 0⟩, a := ⟨8, 24⟩ }⟩ := rfl

theorem plan_xrgb32 (w : Nat) : plan xrgb32 w = ⟨40, 24, 0, w * 3 % 2 ^ 32, alignDiff (w * 3),
    { depth := 24, rgb := true, r := ⟨8, 16⟩, g := ⟨8, 8⟩, b := ⟨8, 0⟩ }⟩ := rfl

/-- Whole bytes. -/
theorem scale_bytes (v : Nat) (h : v < 256) : scale 8 8 v = v := by
  have : ∀ v : Fin 256, scale 8 8 v.val = v.val := by decide +kernel
  exact this ⟨v, h⟩

theorem native_color (p : Nat) (h : p < 2 ^ 32) : native (color prgb32 p) = p := by
  unfold color native
  simp only [prgb32, true_or, if_true]
  have hs : ∀ s, scale 8 8 (field ⟨8, s⟩ p) = field ⟨8, s⟩ p := fun s => scale_bytes _ (field_lt ⟨8, s⟩ p)
  rw [hs, hs, hs, hs]
  unfold field
  simp only
  omega

theorem pixel_lt (f : Fmt) (hd : f.depth = 32) (row : List UInt8) (i : Nat) : pixel f row i < 2 ^ 32 := by
  unfold pixel
  rw [number_eq]
  have h := leVal_lt (if f.swap = true then (slice (f.depth / 8) i row).reverse else slice (f.depth / 8) i row)
  have h2 : (if f.swap = true then (slice (f.depth / 8) i row).reverse else slice (f.depth / 8) i row).length ≤ 4 := by
    have : (slice (f.depth / 8) i row).length ≤ 4 := by
      unfold slice; rw [List.length_take, hd]; omega
    split
    · rw [List.length_reverse]; exact this
    · exact this
  exact Nat.lt_of_lt_of_le h (Nat.pow_le_pow_right (by omega) h2)

theorem greys_length : greys.length = 1024 := by
  unfold greys
  rw [flatMap_length 4 _ (fun x => rfl), List.length_range]

/-- A file that is written. -/
theorem encode_ok (img : Image) (p : Plan) (hp : p = plan img.fmt img.w) (W : img.Whole)
    (hdr : p.hdr = 40 ∧ (p.depth = 24 ∨ p.depth = 8) ∨ p.hdr = 108 ∧ p.depth = 32) (hpal : p.pal = 0 ∨ p.pal = 1024)
    (row : p.bpl + p.gap = (img.w * p.depth + 31) / 32 * 4)
    (size : 14 + p.hdr + p.pal + (p.bpl + p.gap) * img.h < 2 ^ 32) (E : List UInt8 → List UInt8 → Prop)
    (h : ∀ r ∈ img.rows, ∃ o, encodeRow p img.w (if p.pal = 0 then create p.fmt img.fmt false else none) r = .ok o ∧ o.length = p.bpl ∧ E r o) :
    ∃ d out, encode img = .ok d ∧ File d p img.w img.h (if p.pal = 0 then [] else greys) out ∧
      ∀ y < img.h, E (img.rows.getD y []) ((out.drop ((img.h - 1 - y) * (p.bpl + p.gap))).take p.bpl) := by
  obtain ⟨out, h1, h2, h3⟩ := encodeRows_spec p img.w _ img.rows E h
  rw [W.rows] at h2 h3
  have hpb : (if p.pal = 0 then [] else greys : List UInt8).length = p.pal := by
    rcases hpal with e | e
    · rw [if_pos e, e]; rfl
    · rw [if_neg (by omega), greys_length, e]
  have F : File (header p img.w img.h ++ ((if p.pal = 0 then [] else greys) ++ out)) p img.w img.h (if p.pal = 0 then [] else greys) out :=
    ⟨rfl, hpb, h2, hdr, by omega, W.w, W.h, row, by omega⟩
  refine ⟨_, out, ?_, F, h3⟩
  have hw := W.w
  have hh := W.h
  unfold encode
  rw [if_neg (by omega)]
  simp only
  rw [← hp, h1, Res.ok_bind]
  have hl := F.length
  have hf : p.fileSize img.h = (header p img.w img.h ++ ((if p.pal = 0 then [] else greys) ++ out)).length := by
    unfold Plan.fileSize Plan.imageSize
    rw [hl, Nat.mod_eq_of_lt (show (p.bpl + p.gap) * img.h < 2 ^ 32 by omega)]
    exact Nat.mod_eq_of_lt size
  rw [List.append_assoc, if_neg (by omega), hf, Nat.sub_self]
  simp

/-- The components of stored pixels. -/
theorem color_stored {f : Fmt} {p : Nat} {c : Color} (S : Stores f p c) (hr : f.r.size = 8) (hg : f.g.size = 8) (hb : f.b.size = 8)
    (hrgb : f.rgb = true) (hc : c.r < 256 ∧ c.g < 256 ∧ c.b < 256) :
    (color f p).r = c.r ∧ (color f p).g = c.g ∧ (color f p).b = c.b := by
  obtain ⟨s1, s2, s3, s4⟩ := S
  rw [hr] at s1
  rw [hg] at s2
  rw [hb] at s3
  unfold color
  simp only [hrgb, true_or, if_true, s1, s2, s3, hr, hg, hb]
  rw [scale_bytes _ hc.1, scale_bytes _ hc.2.1, scale_bytes _ hc.2.2]
  exact ⟨scale_bytes _ hc.1, scale_bytes _ hc.2.1, scale_bytes _ hc.2.2⟩

theorem color_lt (p : Nat) : (color prgb32 p).r < 256 ∧ (color prgb32 p).g < 256 ∧ (color prgb32 p).b < 256 ∧ (color prgb32 p).a < 256 := by
  unfold color
  simp only [prgb32, true_or, if_true]
  have : ∀ m v, scale m 8 v < 256 := fun m v => Nat.lt_of_le_of_lt (scale_le m 8 v) (by decide)
  exact ⟨this _ _, this _ _, this _ _, this _ _⟩

/-- The formats of files of `PRGB32` and `XRGB32` images. -/
def file32 : Fmt := { depth := 32, rgb := true, alpha := true, prem := true, r := ⟨8, 16⟩, g := ⟨8, 8⟩, b := ⟨8, 0⟩, a := ⟨8, 24⟩ }
def file24 : Fmt := { depth := 24, rgb := true, r := ⟨8, 16⟩, g := ⟨8, 8⟩, b := ⟨8, 0⟩ }

/-- **C53**: a `PRGB32` image that is written to a file and read has its pixels.

The sizes must be below 65536 and the file below 4 GiB, see `C53_encode_overflow_counterexample`. -/
theorem C53_roundtrip_prgb32 (img : Image) (W : img.Whole) (hf : img.fmt = prgb32) (hs : 122 + img.w * 4 * img.h < 2 ^ 32) :
    ∃ d img', encode img = .ok d ∧ decode d = .ok img' ∧ img'.fmt = prgb32 ∧ img'.w = img.w ∧ img'.h = img.h ∧
      ∀ y < img.h, ∀ x < img.w, pixel prgb32 (img'.rows.getD y []) x = pixel prgb32 (img.rows.getD y []) x := by
  have hw := W.w
  have hb : img.w * 4 % 2 ^ 32 = img.w * 4 := by omega
  obtain ⟨c, hc⟩ : ∃ c, create file32 prgb32 false = some c := Option.isSome_iff_exists.1 (by decide +kernel)
  obtain ⟨d, out, e1, F, e3⟩ := encode_ok img ⟨108, 32, 0, img.w * 4, 0, file32⟩ (by rw [hf, plan_prgb32, hb]; rfl) W (Or.inr ⟨rfl, rfl⟩) (Or.inl rfl)
    (by simp only; omega) (by simp only; omega)
    (fun r o => ∀ x < img.w, Stores file32 (pixel file32 o x) (color prgb32 (pixel prgb32 r x))) (by
      intro r hr
      have hl := W.row r hr
      rw [hf] at hl ⊢
      obtain ⟨o, o1, o2, o3⟩ := C52_from_native_partial file32 prgb32 false c hc (Or.inl rfl) rfl (fun h => by cases h) rfl rfl img.w r hl
        (fun _ h => by cases h)
      refine ⟨o, ?_, o2, fun x hx => ?_⟩
      · simp only [if_true]
        rw [hc]
        unfold encodeRow
        simp only [o1]
      · obtain ⟨q, q1, -, q3⟩ := o3 x hx
        rw [q3 (by rintro ⟨-, h⟩; cases h)] at q1
        exact q1)
  simp only at e3
  have Wr := F.written
  have wh : headerSize d = 108 := Wr.hdr
  have wd : depth d = 32 := Wr.dep
  obtain ⟨m0, m1, m2, m3⟩ := Wr.masks rfl
  have hl := F.accepted.len
  have ef : readFmt d (headOf d) = .ok file32 := by
    have E : readFmt d (headOf d) = readMasks d (headerSize d) (depth d) true := by
      show (if headerSize d = 40 then _ else if 8 < depth d ∧ 52 ≤ headerSize d then _ else _) = _
      rw [if_neg (by omega), if_pos (by omega)]
      rfl
    rw [E]
    unfold readMasks
    have r0 := readMask_ok (d := d) 0 (by omega) (by omega) (by omega) (by omega) hl
    have r1 := readMask_ok (d := d) 1 (by omega) (by omega) (by omega) (by omega) hl
    have r2 := readMask_ok (d := d) 2 (by omega) (by omega) (by omega) (by omega) hl
    have r3 := readMask_ok (d := d) 3 (by omega) (by omega) (by omega) (by omega) hl
    change readMask d (headerSize d) 40 = _ at r0
    change readMask d (headerSize d) 44 = _ at r1
    change readMask d (headerSize d) 48 = _ at r2
    change readAlpha d (headerSize d) true = _ at r3
    rw [r0, Res.ok_bind, r1, Res.ok_bind, r2, Res.ok_bind, r3, Res.ok_bind, m0, m1, m2, m3, wd, need_true (by decide +kernel), Res.ok_bind]
    rfl
  have h8 : ¬ depth d ≤ 8 := by omega
  have ep : palette d (infoOf d file32) = .ok [] := by
    unfold palette
    rw [if_neg (show ¬ (infoOf d file32).depth ≤ 8 from h8)]
  obtain ⟨img', ei⟩ := F.decode file32 ef [] ep (by rw [if_neg h8]; decide +kernel)
  obtain ⟨D, g1, g2⟩ := decode_direct ei (by omega) ef
  obtain ⟨z1, z2, -⟩ := C53_decode_size d img' ei
  rw [Wr.wd] at z1
  rw [Wr.ht, Int.natAbs_natCast] at z2
  have zw : img'.w = img.w := by omega
  refine ⟨d, img', e1, ei, g1, zw, z2, fun y hy x hx => ?_⟩
  have g2 := g2 y (by omega) x (by omega)
  rw [F.rowOf] at g2
  have e3 := e3 y hy x hx
  rw [pixel_take _ _ _ _ (by show (x + 1) * 4 ≤ _; omega)] at e3
  have hlt := color_lt (pixel prgb32 (img.rows.getD y []) x)
  obtain ⟨c1, c2, c3⟩ := color_stored e3 rfl rfl rfl rfl ⟨hlt.1, hlt.2.1, hlt.2.2.1⟩
  have c4 : (color file32 (pixel file32 (out.drop ((img.h - 1 - y) * (img.w * 4 + 0))) x)).a = (color prgb32 (pixel prgb32 (img.rows.getD y []) x)).a := by
    have s4 := e3.2.2.2
    unfold color
    simp only [file32, if_true] at s4 ⊢
    rw [s4, scale_bytes _ hlt.2.2.2]
    exact scale_bytes _ hlt.2.2.2
  have hn : native (color file32 (pixel file32 (out.drop ((img.h - 1 - y) * (img.w * 4 + 0))) x)) = pixel prgb32 (img.rows.getD y []) x := by
    rw [← native_color (pixel prgb32 (img.rows.getD y []) x) (pixel_lt _ rfl _ _)]
    unfold native
    rw [c1, c2, c3, c4]
  rw [hn, g1] at g2
  change pixel prgb32 _ _ % 2 ^ 32 = _ % 2 ^ 32 at g2
  rwa [Nat.mod_eq_of_lt (pixel_lt _ rfl _ _), Nat.mod_eq_of_lt (pixel_lt _ rfl _ _)] at g2

/-- **C53**: an `XRGB32` image that is written to a file and read has its pixels; the fourth byte has no meaning. -/
theorem C53_roundtrip_xrgb32 (img : Image) (W : img.Whole) (hf : img.fmt = xrgb32) (hs : 54 + (img.w * 3 + 3) * img.h < 2 ^ 32) :
    ∃ d img', encode img = .ok d ∧ decode d = .ok img' ∧ img'.fmt = xrgb32 ∧ img'.w = img.w ∧ img'.h = img.h ∧
      ∀ y < img.h, ∀ x < img.w, pixel xrgb32 (img'.rows.getD y []) x % 2 ^ 24 = pixel xrgb32 (img.rows.getD y []) x % 2 ^ 24 := by
  have hw := W.w
  have hb : img.w * 3 % 2 ^ 32 = img.w * 3 := by omega
  have hgap : alignDiff (img.w * 3) ≤ 3 := by unfold alignDiff; omega
  obtain ⟨c, hc⟩ : ∃ c, create file24 xrgb32 false = some c := Option.isSome_iff_exists.1 (by decide +kernel)
  obtain ⟨d, out, e1, F, e3⟩ := encode_ok img ⟨40, 24, 0, img.w * 3, alignDiff (img.w * 3), file24⟩ (by rw [hf, plan_xrgb32, hb]; rfl) W
    (Or.inl ⟨rfl, Or.inl rfl⟩) (Or.inl rfl) (by unfold alignDiff; simp only; omega)
    (by
      simp only
      have : (img.w * 3 + alignDiff (img.w * 3)) * img.h ≤ (img.w * 3 + 3) * img.h := Nat.mul_le_mul_right _ (by omega)
      omega)
    (fun r o => ∀ x < img.w, Stores file24 (pixel file24 o x) (color prgb32 (pixel xrgb32 r x))) (by
      intro r hr
      have hl := W.row r hr
      rw [hf] at hl ⊢
      obtain ⟨o, o1, o2, o3⟩ := C52_from_native_partial file24 xrgb32 false c hc (Or.inr ⟨rfl, rfl⟩) rfl (fun h => by cases h) rfl rfl img.w r hl
        (fun h => by cases h)
      refine ⟨o, ?_, o2, fun x hx => ?_⟩
      · simp only [if_true]
        rw [hc]
        unfold encodeRow
        simp only [o1]
      · obtain ⟨q, q1, -, q3⟩ := o3 x hx
        rw [q3 (by rintro ⟨h, -⟩; cases h)] at q1
        exact q1)
  simp only at e3
  have Wr := F.written
  have wh : headerSize d = 40 := Wr.hdr
  have wd : depth d = 24 := Wr.dep
  have wc : compression d = 0 := Wr.comp
  have ef : readFmt d (headOf d) = .ok file24 := by
    show (if headerSize d = 40 then (if compression d = 3 ∨ compression d = 6 then _ else Res.ok (plainFmt (depth d))) else _) = _
    rw [if_pos wh, if_neg (by omega), wd]
    rfl
  have h8 : ¬ depth d ≤ 8 := by omega
  have ep : palette d (infoOf d file24) = .ok [] := by
    unfold palette
    rw [if_neg (show ¬ (infoOf d file24).depth ≤ 8 from h8)]
  obtain ⟨img', ei⟩ := F.decode file24 ef [] ep (by rw [if_neg h8]; decide +kernel)
  obtain ⟨D, g1, g2⟩ := decode_direct ei (by omega) ef
  obtain ⟨z1, z2, -⟩ := C53_decode_size d img' ei
  rw [Wr.wd] at z1
  rw [Wr.ht, Int.natAbs_natCast] at z2
  have zw : img'.w = img.w := by omega
  refine ⟨d, img', e1, ei, g1, zw, z2, fun y hy x hx => ?_⟩
  have g2 := g2 y (by omega) x (by omega)
  rw [F.rowOf] at g2
  have e3 := e3 y hy x hx
  rw [pixel_take _ _ _ _ (by show (x + 1) * 3 ≤ _; omega)] at e3
  have hlt := color_lt (pixel xrgb32 (img.rows.getD y []) x)
  obtain ⟨c1, c2, c3⟩ := color_stored e3 rfl rfl rfl rfl ⟨hlt.1, hlt.2.1, hlt.2.2.1⟩
  rw [g1] at g2
  change pixel xrgb32 _ _ % 2 ^ 24 = _ % 2 ^ 24 at g2
  rw [g2, ← native_color (pixel xrgb32 (img.rows.getD y []) x) (pixel_lt _ rfl _ _)]
  unfold native
  simp only
  rw [c1, c2, c3]
  omega

/-! ## Alpha as greys -/

/-- A palette that has a colour for every index is taken. -/
theorem create_indexed (dep : Nat) (hd : dep = 1 ∨ dep = 4 ∨ dep = 8) (pal : List UInt32) (hp : 2 ^ dep ≤ pal.length) :
    (create xrgb32 { depth := dep, rgb := true, indexed := true, palette := pal } true).isSome := by
  have hne : pal ≠ [] := by
    rintro rfl
    have := Nat.two_pow_pos dep
    simp at hp
  have hs : ∃ s, sanitize { depth := dep, rgb := true, indexed := true, palette := pal } = some s := by
    unfold sanitize
    rw [if_neg (by rcases hd with rfl | rfl | rfl <;> simp <;> rfl)]
    simp only [if_true]
    rw [if_neg (by rintro (k | k); (omega); exact hne k)]
    exact ⟨_, rfl⟩
  obtain ⟨s, hs⟩ := hs
  obtain ⟨s1, s2, s3, s4, s5, s6⟩ := sanitize_indexed hs rfl
  unfold create
  rw [sanitize_xrgb32, hs]
  simp only [Option.bind_eq_bind, Option.bind_some]
  rw [if_neg (by decide), if_pos s1]
  unfold initIndexed
  rw [s2, if_neg (show ¬ (![1, 2, 4, 8].contains dep) = true by rcases hd with rfl | rfl | rfl <;> decide)]
  have hpf : paletteFmt s = some opaquePal := by
    unfold paletteFmt
    rw [s3, s4]; rfl
  rw [hpf]
  simp only [Option.bind_eq_bind, Option.bind_some]
  rw [if_neg (by rintro ⟨k, -⟩; simp [xrgb32] at k), init_opaque]
  simp only [Option.bind_some]
  have hplen : 2 ^ dep * 4 ≤ (pal.flatMap fun p => store 4 false p).length := by
    rw [flatMap_length 4 _ (fun x => store_length 4 false x)]
    exact Nat.mul_le_mul_right _ hp
  obtain ⟨row, r1, -⟩ := mapRow_some 4 false 4 false (PixFn.fromXrgb (nff opaquePal)).eval (2 ^ dep) _ hplen
  unfold tableOf
  rw [s6]
  simp only [Conv.row]
  rw [r1]
  simp only [Option.bind_eq_bind, Option.bind_some]
  rw [if_pos (by decide)]
  rfl

theorem greys_table : ∀ i : Fin 256, ∀ k : Fin 3, greys.getD (i.val * 4 + k.val) 0 = UInt8.ofNat i.val := by decide +kernel

theorem plan_a8 (w : Nat) : plan a8 w = ⟨40, 8, 1024, w, alignDiff w, { depth := 8 }⟩ := rfl

/-- **C53**: an `A8` image that is written to a file and read is an opaque image whose greys are the alphas. -/
theorem C53_roundtrip_a8 (img : Image) (W : img.Whole) (hf : img.fmt = a8) (hs : 1078 + (img.w + 3) * img.h < 2 ^ 32) :
    ∃ d img', encode img = .ok d ∧ decode d = .ok img' ∧ img'.fmt = xrgb32 ∧ img'.w = img.w ∧ img'.h = img.h ∧
      ∀ y < img.h, ∀ x < img.w, let v := ((img.rows.getD y []).getD x 0).toNat
        pixel xrgb32 (img'.rows.getD y []) x = native ⟨v, v, v, 255⟩ := by
  have hw := W.w
  have hgap : alignDiff img.w ≤ 3 := by unfold alignDiff; omega
  obtain ⟨d, out, e1, F, e3⟩ := encode_ok img ⟨40, 8, 1024, img.w, alignDiff img.w, { depth := 8 }⟩ (by rw [hf, plan_a8]) W
    (Or.inl ⟨rfl, Or.inr rfl⟩) (Or.inr rfl) (by unfold alignDiff; simp only; omega)
    (by
      simp only
      have : (img.w + alignDiff img.w) * img.h ≤ (img.w + 3) * img.h := Nat.mul_le_mul_right _ (by omega)
      omega)
    (fun r o => o = r) (by
      intro r hr
      have hl := W.row r hr
      rw [hf] at hl
      have hl : r.length = img.w := by rw [hl]; show img.w * 1 = _; omega
      refine ⟨r, ?_, hl, rfl⟩
      rw [if_neg (show ¬ (1024 = 0) by decide)]
      unfold encodeRow
      simp only
      rw [if_neg (by omega), List.take_of_length_le (by omega)])
  rw [if_neg (show ¬ (1024 = 0) by decide)] at F
  simp only at e3
  have Wr := F.written
  have wh : headerSize d = 40 := Wr.hdr
  have wd : depth d = 8 := Wr.dep
  have wc : compression d = 0 := Wr.comp
  have wo : offset d = 1078 := Wr.off
  have ef : readFmt d (headOf d) = .ok { depth := 8, rgb := true, indexed := true } := by
    show (if headerSize d = 40 then (if compression d = 3 ∨ compression d = 6 then _ else Res.ok (plainFmt (depth d))) else _) = _
    rw [if_pos wh, if_neg (by omega), wd]
    rfl
  have h8 : depth d ≤ 8 := by omega
  have hlen := F.length
  have ep : ∃ pal, palette d (infoOf d { depth := 8, rgb := true, indexed := true }) = .ok pal := by
    unfold palette
    rw [if_pos (show (infoOf d { depth := 8, rgb := true, indexed := true }).depth ≤ 8 from h8)]
    have hsz : 14 + (infoOf d { depth := 8, rgb := true, indexed := true }).hdr + paletteSize (infoOf d { depth := 8, rgb := true, indexed := true }) *
        (if (infoOf d { depth := 8, rgb := true, indexed := true }).hdr = 12 then 3 else 4) ≤ d.length := by
      unfold paletteSize
      show 14 + headerSize d + min ((offset d - (14 + headerSize d)) / (if headerSize d = 12 then 3 else 4)) 256 * (if headerSize d = 12 then 3 else 4) ≤ _
      rw [wh, wo, if_neg (by decide), hlen]
      simp only
      omega
    obtain ⟨q, q1, -⟩ := readPalette_spec d _ (by split <;> omega) _ _ hsz
    rw [need_true (decide_eq_true hsz), Res.ok_bind, q1]
    exact ⟨_, rfl⟩
  obtain ⟨pal, ep⟩ := ep
  have hpl := (palette_spec (t := infoOf d { depth := 8, rgb := true, indexed := true }) h8 (by show 14 + headerSize d ≤ offset d; omega) rfl rfl ep).1
  obtain ⟨img', ei⟩ := F.decode _ ef pal ep (by
    rw [if_pos h8]
    exact create_indexed 8 (by omega) pal (by omega))
  obtain ⟨g1, g2⟩ := C53_decode_indexed d img' ei h8 wc
  obtain ⟨z1, z2, -⟩ := C53_decode_size d img' ei
  rw [Wr.wd] at z1
  rw [Wr.ht, Int.natAbs_natCast] at z2
  have zw : img'.w = img.w := by omega
  refine ⟨d, img', e1, ei, g1, zw, z2, fun y hy x hx => ?_⟩
  simp only
  rw [g2 y (by omega) x (by omega), F.rowOf, wd]
  have e3 := e3 y hy
  have hi : index 8 (out.drop ((img.h - 1 - y) * (img.w + alignDiff img.w))) x = ((img.rows.getD y []).getD x 0).toNat := by
    rw [← index_take 8 x img.w _ (by omega), e3]
    unfold index
    rw [show x * 8 / 8 = x by omega, show 8 - 8 - x * 8 % 8 = 0 by omega]
    have := ((img.rows.getD y []).getD x 0).toNat_lt
    simp only [Nat.pow_zero, Nat.div_one]
    exact Nat.mod_eq_of_lt this
  rw [hi]
  have hv := ((img.rows.getD y []).getD x 0).toNat_lt
  generalize ((img.rows.getD y []).getD x 0).toNat = v at hv
  have hg : ∀ k < 3, u8 d (54 + v * 4 + k) = v := by
    intro k hk
    have hh : (header ⟨40, 8, 1024, img.w, alignDiff img.w, { depth := 8 }⟩ img.w img.h).length = 54 := header_length _ _ _ (Or.inl rfl)
    have h1 := u8_append (header ⟨40, 8, 1024, img.w, alignDiff img.w, { depth := 8 }⟩ img.w img.h) (greys ++ out) (v * 4 + k)
    rw [hh, ← F.eq] at h1
    rw [Nat.add_assoc, h1]
    unfold u8
    rw [List.getD_eq_getElem?_getD, List.getElem?_append_left (by rw [greys_length]; omega), ← List.getD_eq_getElem?_getD]
    have := greys_table ⟨v, hv⟩ ⟨k, hk⟩
    simp only at this
    rw [this, UInt8.toNat_ofNat']
    omega
  congr 1
  unfold paletteColor
  have hes : entrySize d = 4 := by unfold entrySize; rw [if_neg (by omega)]
  simp only
  rw [hes, wh, wo, if_pos (by omega)]
  rw [show 14 + 40 + v * 4 = 54 + v * 4 by omega, hg 2 (by omega), hg 1 (by omega)]
  have := hg 0 (by omega)
  rw [Nat.add_zero] at this
  rw [this]

/-! ## Large images -/

/-- The size of the file is a number of 32 bits: an image of 32768 × 32768 pixels of 32 bits is written to a buffer of 122 bytes. -/
theorem C53_encode_overflow_counterexample (img : Image) (W : img.Whole) (hf : img.fmt = prgb32) (hw : img.w = 32768) (hh : img.h = 32768) :
    encode img = .outside := by
  obtain ⟨c, hc⟩ : ∃ c, create file32 prgb32 false = some c := Option.isSome_iff_exists.1 (by decide +kernel)
  have hp : plan img.fmt img.w = ⟨108, 32, 0, 131072, 0, file32⟩ := by rw [hf, hw, plan_prgb32]; rfl
  obtain ⟨out, h1, h2, -⟩ := encodeRows_spec ⟨108, 32, 0, 131072, 0, file32⟩ img.w (some c) img.rows (fun _ _ => True) (by
    intro r hr
    have hl := W.row r hr
    rw [hf] at hl
    obtain ⟨o, o1, o2, -⟩ := C52_from_native_partial file32 prgb32 false c hc (Or.inl rfl) rfl (fun h => by cases h) rfl rfl img.w r hl
      (fun _ h => by cases h)
    refine ⟨o, ?_, by rw [o2, hw]; rfl, trivial⟩
    unfold encodeRow
    simp only [o1])
  unfold encode
  rw [if_neg (by omega)]
  simp only
  rw [hp, hf, if_pos rfl, hc, h1, Res.ok_bind, if_pos]
  rw [List.append_assoc, List.length_append, List.length_append, h2, W.rows, hh]
  show 122 < _
  simp only
  omega

example : (Image.mk prgb32 32768 32768 (List.replicate 32768 (List.replicate (32768 * 4) 0))).Whole := by
  refine ⟨by decide, by decide, List.length_replicate, fun r hr => ?_⟩
  rw [List.eq_of_mem_replicate hr, List.length_replicate]
  rfl

/-- An image of 2 × 1 pixels and its file. -/
example : (match encode ⟨xrgb32, 2, 1, [[1, 2, 3, 0xFF, 4, 5, 6, 0xFF]]⟩ with
    | .ok d => (d.length, d.drop 54, match decode d with | .ok i => i.rows | _ => [])
    | _ => (0, [], [])) = (62, [1, 2, 3, 4, 5, 6, 0, 0], [[1, 2, 3, 0xFF, 4, 5, 6, 0xFF]]) := by decide +kernel

end Blend2D.Bmp
