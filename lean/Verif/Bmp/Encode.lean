import Verif.Bmp.Props

/-!
# C53: files that are written
-/
namespace Blend2D.Bmp
open Spec PixConv PixConv.Spec

/-! ## Numbers in files -/

theorem u8_append (a b : List UInt8) (i : Nat) : u8 (a ++ b) (a.length + i) = u8 b i := by
  unfold u8
  rw [List.getD_eq_getElem?_getD, List.getElem?_append_right (by omega), ← List.getD_eq_getElem?_getD, Nat.add_sub_cancel_left]

theorem u32_append (a b : List UInt8) (i : Nat) : u32 (a ++ b) (a.length + i) = u32 b i := by
  unfold u32
  simp only [Nat.add_assoc, u8_append]

theorem u16_append (a b : List UInt8) (i : Nat) : u16 (a ++ b) (a.length + i) = u16 b i := by
  unfold u16
  simp only [Nat.add_assoc, u8_append]

theorem leBytes_4 (v : Nat) : leBytes 4 v =
    [UInt8.ofNat v, UInt8.ofNat (v / 256), UInt8.ofNat (v / 256 / 256), UInt8.ofNat (v / 256 / 256 / 256)] := rfl

theorem u32_leBytes (v : Nat) (l : List UInt8) (h : v < 2 ^ 32) : u32 (leBytes 4 v ++ l) 0 = v := by
  rw [leBytes_4]
  unfold u32 u8
  simp only [Nat.zero_add, List.cons_append, List.getD_cons_succ, List.getD_cons_zero, UInt8.toNat_ofNat']
  omega

theorem u16_leBytes (v : Nat) (l : List UInt8) (h : v < 2 ^ 16) : u16 (leBytes 2 v ++ l) 0 = v := by
  rw [show leBytes 2 v = [UInt8.ofNat v, UInt8.ofNat (v / 256)] from rfl]
  unfold u16 u8
  simp only [Nat.zero_add, List.cons_append, List.getD_cons_succ, List.getD_cons_zero, UInt8.toNat_ofNat']
  omega

/-- A number at a place of a file. -/
theorem u32_at {d a b : List UInt8} {i v : Nat} (e : d = a ++ (leBytes 4 v ++ b)) (ha : a.length = i) (h : v < 2 ^ 32) : u32 d i = v := by
  have := u32_append a (leBytes 4 v ++ b) 0
  rw [ha, Nat.add_zero] at this
  rw [e, this, u32_leBytes _ _ h]

theorem u16_at {d a b : List UInt8} {i v : Nat} (e : d = a ++ (leBytes 2 v ++ b)) (ha : a.length = i) (h : v < 2 ^ 16) : u16 d i = v := by
  have := u16_append a (leBytes 2 v ++ b) 0
  rw [ha, Nat.add_zero] at this
  rw [e, this, u16_leBytes _ _ h]

/-! ## The header -/

/-- What the header of a written file says. -/
structure Written (d : List UInt8) (p : Plan) (w h : Nat) : Prop where
  magic : u8 d 0 = 66 ∧ u8 d 1 = 77
  off : offset d = 14 + p.hdr + p.pal
  hdr : headerSize d = p.hdr
  wd : width d = w
  ht : height d = h
  planes : planes d = 1
  dep : depth d = p.depth
  comp : compression d = 0
  size : imageSize d = p.imageSize h
  masks : p.hdr = 108 → mask d 0 = 0x00FF0000 ∧ mask d 1 = 0x0000FF00 ∧ mask d 2 = 0x000000FF ∧ mask d 3 = 0xFF000000

/-- The parts of the header. -/
theorem header_written (p : Plan) (w h : Nat) (body : List UInt8) (hp : p.hdr = 40 ∨ p.hdr = 108) (hpal : p.pal ≤ 1024) (hd : p.depth ≤ 32)
    (hw : w < 2 ^ 31) (hh : h < 2 ^ 31) : Written (header p w h ++ body) p w h := by
  have hs : p.imageSize h < 2 ^ 32 := Nat.mod_lt _ (by decide)
  have len := leBytes_length
  have e14 : u32 (header p w h ++ body) 14 = p.hdr := by
    refine u32_at (a := [66, 77] ++ leBytes 4 (p.fileSize h) ++ leBytes 4 0 ++ leBytes 4 (14 + p.hdr + p.pal)) (b := ?c14) ?f14 (by simp [len]) (by omega)
    case f14 => unfold header; simp only [List.append_assoc]; rfl
  have e10 : u32 (header p w h ++ body) 10 = 14 + p.hdr + p.pal := by
    refine u32_at (a := [66, 77] ++ leBytes 4 (p.fileSize h) ++ leBytes 4 0) (b := ?c10) ?f10 (by simp [len]) (by omega)
    case f10 => unfold header; simp only [List.append_assoc]; rfl
  have e18 : u32 (header p w h ++ body) 18 = w := by
    refine u32_at (a := [66, 77] ++ leBytes 4 (p.fileSize h) ++ leBytes 4 0 ++ leBytes 4 (14 + p.hdr + p.pal) ++ leBytes 4 p.hdr) (b := ?c18) ?f18 (by simp [len]) (by omega)
    case f18 => unfold header; simp only [List.append_assoc]; rfl
  have e22 : u32 (header p w h ++ body) 22 = h := by
    refine u32_at (a := [66, 77] ++ leBytes 4 (p.fileSize h) ++ leBytes 4 0 ++ leBytes 4 (14 + p.hdr + p.pal) ++ leBytes 4 p.hdr ++ leBytes 4 w) (b := ?c22) ?f22 (by simp [len]) (by omega)
    case f22 => unfold header; simp only [List.append_assoc]; rfl
  have e26 : u16 (header p w h ++ body) 26 = 1 := by
    refine u16_at (a := [66, 77] ++ leBytes 4 (p.fileSize h) ++ leBytes 4 0 ++ leBytes 4 (14 + p.hdr + p.pal) ++ leBytes 4 p.hdr ++ leBytes 4 w ++
      leBytes 4 h) (b := ?c26) ?f26 (by simp [len]) (by omega)
    case f26 => unfold header; simp only [List.append_assoc]; rfl
  have e28 : u16 (header p w h ++ body) 28 = p.depth := by
    refine u16_at (a := [66, 77] ++ leBytes 4 (p.fileSize h) ++ leBytes 4 0 ++ leBytes 4 (14 + p.hdr + p.pal) ++ leBytes 4 p.hdr ++ leBytes 4 w ++
      leBytes 4 h ++ leBytes 2 1) (b := ?c28) ?f28 (by simp [len]) (by omega)
    case f28 => unfold header; simp only [List.append_assoc]; rfl
  have e30 : u32 (header p w h ++ body) 30 = 0 := by
    refine u32_at (a := [66, 77] ++ leBytes 4 (p.fileSize h) ++ leBytes 4 0 ++ leBytes 4 (14 + p.hdr + p.pal) ++ leBytes 4 p.hdr ++ leBytes 4 w ++
      leBytes 4 h ++ leBytes 2 1 ++ leBytes 2 p.depth) (b := ?c30) ?f30 (by simp [len]) (by omega)
    case f30 => unfold header; simp only [List.append_assoc]; rfl
  have e34 : u32 (header p w h ++ body) 34 = p.imageSize h := by
    refine u32_at (a := [66, 77] ++ leBytes 4 (p.fileSize h) ++ leBytes 4 0 ++ leBytes 4 (14 + p.hdr + p.pal) ++ leBytes 4 p.hdr ++ leBytes 4 w ++
      leBytes 4 h ++ leBytes 2 1 ++ leBytes 2 p.depth ++ leBytes 4 0) (b := ?c34) ?f34 (by simp [len]) (by omega)
    case f34 => unfold header; simp only [List.append_assoc]; rfl
  have h12 : headerSize (header p w h ++ body) ≠ 12 := by unfold headerSize; rw [e14]; omega
  refine ⟨⟨rfl, rfl⟩, e10, e14, ?_, ?_, ?_, ?_, ?_, ?_, fun h108 => ?_⟩
  · unfold width; rw [if_neg h12, e18]; unfold int; rw [if_pos (by omega)]
  · unfold height; rw [if_neg h12, e22]; unfold int; rw [if_pos (by omega)]
  · unfold planes; rw [if_neg h12, e26]
  · unfold depth; rw [if_neg h12, e28]
  · unfold compression; rw [if_neg h12, e30]
  · unfold imageSize; rw [if_neg h12, e34]
  · have hm : ∀ i, mask (header p w h ++ body) i = u32 (header p w h ++ body) (54 + 4 * i) := by
      intro i
      unfold mask
      rw [if_neg]
      rintro ⟨-, ⟨k, -⟩ | k⟩ <;> · unfold headerSize at k; rw [e14] at k; omega
    rw [hm, hm, hm, hm]
    have hA : (([66, 77] ++ leBytes 4 (p.fileSize h) ++ leBytes 4 0 ++ leBytes 4 (14 + p.hdr + p.pal) ++ leBytes 4 p.hdr ++ leBytes 4 w ++
      leBytes 4 h ++ leBytes 2 1 ++ leBytes 2 p.depth ++ leBytes 4 0 ++ leBytes 4 (p.imageSize h) ++ leBytes 8 0 ++
      leBytes 4 (if p.pal = 0 then 0 else 256) ++ leBytes 4 0 : List UInt8)).length = 54 := by simp [len]
    have hE : header p w h = ([66, 77] ++ leBytes 4 (p.fileSize h) ++ leBytes 4 0 ++ leBytes 4 (14 + p.hdr + p.pal) ++ leBytes 4 p.hdr ++ leBytes 4 w ++
      leBytes 4 h ++ leBytes 2 1 ++ leBytes 2 p.depth ++ leBytes 4 0 ++ leBytes 4 (p.imageSize h) ++ leBytes 8 0 ++
      leBytes 4 (if p.pal = 0 then 0 else 256) ++ leBytes 4 0) ++
      (leBytes 4 0x00FF0000 ++ leBytes 4 0x0000FF00 ++ leBytes 4 0x000000FF ++ leBytes 4 0xFF000000 ++ leBytes 4 1 ++ leBytes 48 0) := by
      unfold header; rw [if_pos h108]
    generalize ([66, 77] ++ leBytes 4 (p.fileSize h) ++ leBytes 4 0 ++ leBytes 4 (14 + p.hdr + p.pal) ++ leBytes 4 p.hdr ++ leBytes 4 w ++
      leBytes 4 h ++ leBytes 2 1 ++ leBytes 2 p.depth ++ leBytes 4 0 ++ leBytes 4 (p.imageSize h) ++ leBytes 8 0 ++
      leBytes 4 (if p.pal = 0 then 0 else 256) ++ leBytes 4 0 : List UInt8) = A at hA hE
    rw [hE]
    refine ⟨u32_at (a := A) (b := ?b1) ?e1 hA (by decide), u32_at (a := A ++ leBytes 4 0x00FF0000) (b := ?b2) ?e2 (by simp [len, hA]) (by decide),
      u32_at (a := A ++ leBytes 4 0x00FF0000 ++ leBytes 4 0x0000FF00) (b := ?b3) ?e3 (by simp [len, hA]) (by decide),
      u32_at (a := A ++ leBytes 4 0x00FF0000 ++ leBytes 4 0x0000FF00 ++ leBytes 4 0x000000FF) (b := ?b4) ?e4 (by simp [len, hA]) (by decide)⟩
    case e1 | e2 | e3 | e4 => simp only [List.append_assoc]; rfl

theorem header_length (p : Plan) (w h : Nat) (hp : p.hdr = 40 ∨ p.hdr = 108) : (header p w h).length = 14 + p.hdr := by
  unfold header
  rcases hp with e | e
  · rw [if_neg (show ¬ p.hdr = 108 by omega)]; simp [leBytes_length]; omega
  · rw [if_pos e]; simp [leBytes_length]; omega

/-! ## Accepted files -/

theorem readInfo_ok {d : List UInt8} {f : Fmt} (A : Accepted d) (hf : readFmt d (headOf d) = .ok f) : readInfo d = .ok (infoOf d f) := by
  unfold readInfo
  have hl := A.len
  have hh := A.hdr
  rw [need_true (decide_eq_true (by omega)), Res.ok_bind, rd8_ok (by omega), Res.ok_bind, rd8_ok (by omega), Res.ok_bind,
    need_true (decide_eq_true A.magic), Res.ok_bind, rd32_ok (by omega), Res.ok_bind, rd32_ok (by omega), Res.ok_bind]
  change (need ([12, 40, 52, 56, 108].contains (headerSize d)) >>= fun _ => need (decide (headerSize d ≤ d.length - 14)) >>= fun _ =>
    readHead d (headerSize d) (offset d) >>= _) = _
  rw [need_true (by simp; omega), Res.ok_bind, need_true (decide_eq_true (by omega)), Res.ok_bind, readHead_ok (by omega) (by omega), Res.ok_bind]
  change (need (headOf d).accepted >>= fun _ => readFmt d (headOf d) >>= _) = _
  rw [need_true A.head, Res.ok_bind, hf]
  rfl

theorem decode_make {d : List UInt8} {f : Fmt} {pal : List UInt32} {rows : List (List UInt8)} (A : Accepted d) (hf : readFmt d (headOf d) = .ok f)
    (hp : palette d (infoOf d f) = .ok pal) (hl : offset d < d.length ∧ (headOf d).size ≤ d.length - offset d) (hh : (height d).natAbs ≠ 0)
    (hr : readRows d (infoOf d f) pal (imageFmt f) = .ok rows) :
    decode d = .ok ⟨imageFmt f, (width d).toNat, (height d).natAbs, if decide (0 < height d) then rows.reverse else rows⟩ := by
  unfold decode
  rw [readInfo_ok A hf, Res.ok_bind]
  unfold readFrame
  simp only
  rw [need_true (show decide (14 + (infoOf d f).hdr ≤ d.length) = true from decide_eq_true A.len), Res.ok_bind, hp, Res.ok_bind,
    need_true (show decide ((infoOf d f).offset < d.length ∧ (infoOf d f).imageSize ≤ d.length - (infoOf d f).offset) = true from decide_eq_true hl),
    Res.ok_bind, need_true (show decide ((infoOf d f).h ≠ 0) = true from decide_eq_true hh), Res.ok_bind]
  change (readRows d (infoOf d f) pal (imageFmt f) >>= _) = _
  rw [hr]
  rfl

end Blend2D.Bmp
