import Verif.Qoi.Sim
import Verif.Pixel.Props
/-! The three pixel codecs satisfy the simulation interface. -/
namespace Blend2D.Qoi
open Bits Pixel Pixel.Spec
open Comp (P4)

theorem chR_toNat (p : UInt32) : (chR p).toNat = chan 2 p.toNat := by
  unfold chR
  simp only [UInt32.toNat_and, UInt32.toNat_shiftRight, UInt32.reduceToNat, Nat.shiftRight_eq_div_pow,
    Nat.reduceMod, Nat.reducePow, and_255, (chan_vals p.toNat).2.2.1]
theorem chG_toNat (p : UInt32) : (chG p).toNat = chan 1 p.toNat := by
  unfold chG
  simp only [UInt32.toNat_and, UInt32.toNat_shiftRight, UInt32.reduceToNat, Nat.shiftRight_eq_div_pow,
    Nat.reduceMod, Nat.reducePow, and_255, (chan_vals p.toNat).2.1]
theorem chB_toNat (p : UInt32) : (chB p).toNat = chan 0 p.toNat := by
  unfold chB
  simp only [UInt32.toNat_and, UInt32.reduceToNat, and_255, (chan_vals p.toNat).1]
theorem chA_toNat (p : UInt32) : (chA p).toNat = chan 3 p.toNat := by
  unfold chA
  simp only [UInt32.toNat_shiftRight, UInt32.reduceToNat, Nat.shiftRight_eq_div_pow,
    Nat.reduceMod, Nat.reducePow, chan3]

theorem toU8 (x : UInt32) (h : x.toNat ≤ 255) : x.toUInt8.toNat = x.toNat := by
  rw [UInt32.toNat_toUInt8]; omega

/-- `(x - y + k) & 0xFF`. -/
theorem sub_mask (x y k : UInt32) (hx : x.toNat ≤ 255) (hy : y.toNat ≤ 255) (hk : k.toNat ≤ 255) :
    ((x - y + k) &&& 0xFF).toNat = (x.toNat + 256 - y.toNat + k.toNat) % 256 := by
  simp only [UInt32.toNat_and, UInt32.toNat_add, UInt32.toNat_sub, UInt32.reduceToNat, and_255]
  omega

theorem sub_sub_mask (x y x' y' k : UInt32) (hx : x.toNat ≤ 255) (hy : y.toNat ≤ 255) (hx' : x'.toNat ≤ 255)
    (hy' : y'.toNat ≤ 255) (hk : k.toNat ≤ 255) :
    ((x - y - (x' - y') + k) &&& 0xFF).toNat = (x.toNat + 512 - y.toNat - x'.toNat + y'.toNat + k.toNat) % 256 := by
  simp only [UInt32.toNat_and, UInt32.toNat_add, UInt32.toNat_sub, UInt32.reduceToNat, and_255]
  omega

theorem or_le_left {x y n : UInt32} (h : (x ||| y) ≤ n) : x.toNat ≤ n.toNat := by
  rw [UInt32.le_iff_toNat_le, UInt32.toNat_or] at h
  exact Nat.le_trans Nat.left_le_or h
theorem or_le_right {x y n : UInt32} (h : (x ||| y) ≤ n) : y.toNat ≤ n.toNat := by
  rw [UInt32.le_iff_toNat_le, UInt32.toNat_or] at h
  exact Nat.le_trans Nat.right_le_or h

theorem diff_byte : ∀ r g b : Fin 4,
    (((0x40 : UInt32) ||| ((UInt32.ofNat r.val) <<< 4) ||| ((UInt32.ofNat g.val) <<< 2) ||| (UInt32.ofNat b.val)).toUInt8).toNat
      = 64 + (r.val * 16 + g.val * 4 + b.val) := by decide +kernel

theorem luma_byte0 : ∀ g : Fin 64, (((0x80 : UInt32) ||| (UInt32.ofNat g.val)).toUInt8).toNat = 128 + g.val := by
  decide +kernel

theorem luma_byte1 : ∀ r b : Fin 16,
    ((((UInt32.ofNat r.val) <<< 4) ||| (UInt32.ofNat b.val)).toUInt8).toNat = r.val * 16 + b.val := by
  decide +kernel

theorem ofNat_toNat32 (x : UInt32) : UInt32.ofNat x.toNat = x := by simp

theorem diff_arith (p q x : Nat) (hp : p ≤ 255) (hq : q ≤ 255) (hx : x = (p + 256 - q + 2) % 256) (_h : x ≤ 3) :
    (q + (x + 254) % 256) % 256 = p := by omega

theorem diff_idx (r g b : Nat) (_hr : r ≤ 3) (hg : g ≤ 3) (hb : b ≤ 3) :
    (r * 16 + g * 4 + b) / 4 % 4 = g ∧ (r * 16 + g * 4 + b) / 16 = r ∧ (r * 16 + g * 4 + b) % 4 = b := by omega

theorem luma_g (p q x : Nat) (hp : p ≤ 255) (hq : q ≤ 255) (hx : x = (p + 256 - q + 32) % 256) :
    (q + (x + 224) % 256) % 256 = p := by omega

theorem luma_c (p q g g' x y : Nat) (hp : p ≤ 255) (hq : q ≤ 255) (hg : g ≤ 255) (hg' : g' ≤ 255)
    (hx : x = (p + 512 - q - g + g' + 8) % 256) (hy : y = (g + 256 - g' + 32) % 256) :
    (q + x + (y + 216) % 256) % 256 = p := by
  have h1 : (y + 216) % 256 = (g + 256 - g' + 248) % 256 := by omega
  rw [h1]
  omega

theorem emitDelta_chunk (a : Bool) (px p : UInt32) (h3 : chan 3 px.toNat = chan 3 p.toNat) :
    Chunk a (unpackPx px) (emitDelta px p) (unpackPx p) := by
  have l := fun k => chan_le k px.toNat
  have l0 := l 0
  have l1 := l 1
  have l2 := l 2
  have m := fun k => chan_le k p.toNat
  have m0 := m 0
  have m1 := m 1
  have m2 := m 2
  have eR := chR_toNat p
  have eG := chG_toNat p
  have eB := chB_toNat p
  have fR := chR_toNat px
  have fG := chG_toNat px
  have fB := chB_toNat px
  unfold emitDelta
  simp only
  have d1 := sub_mask (chR p) (chR px) 2 (by omega) (by omega) (by decide)
  have d2 := sub_mask (chG p) (chG px) 2 (by omega) (by omega) (by decide)
  have d3 := sub_mask (chB p) (chB px) 2 (by omega) (by omega) (by decide)
  have e1 := sub_sub_mask (chR p) (chR px) (chG p) (chG px) 8 (by omega) (by omega) (by omega) (by omega) (by decide)
  have e2 := sub_mask (chG p) (chG px) 32 (by omega) (by omega) (by decide)
  have e3 := sub_sub_mask (chB p) (chB px) (chG p) (chG px) 8 (by omega) (by omega) (by omega) (by omega) (by decide)
  rw [eR, fR] at d1
  rw [eG, fG] at d2
  rw [eB, fB] at d3
  rw [eR, fR, eG, fG] at e1
  rw [eG, fG] at e2
  rw [eB, fB, eG, fG] at e3
  simp only [UInt32.reduceToNat] at d1 d2 d3 e1 e2 e3
  split
  · rename_i hle
    generalize (chR p - chR px + 2) &&& 0xFF = xr at *
    generalize (chG p - chG px + 2) &&& 0xFF = xg at *
    generalize (chB p - chB px + 2) &&& 0xFF = xb at *
    have hb := or_le_right hle
    have hle2 : (xr ||| xg) ≤ 3 := by
      rw [UInt32.le_iff_toNat_le]; exact or_le_left hle
    have hr := or_le_left hle2
    have hg := or_le_right hle2
    simp only [UInt32.reduceToNat] at hb hr hg
    have hbyte := diff_byte ⟨xr.toNat, by clear d1 d2 d3 e1 e2 e3; omega⟩ ⟨xg.toNat, by clear d1 d2 d3 e1 e2 e3; omega⟩ ⟨xb.toNat, by clear d1 d2 d3 e1 e2 e3; omega⟩
    simp only [ofNat_toNat32] at hbyte
    obtain ⟨i1, i2, i3⟩ := diff_idx xr.toNat xg.toNat xb.toNat hr hg hb
    exact chunk_diff a px p _ _ hbyte (by clear d1 d2 d3 e1 e2 e3; omega) h3
      (by rw [i1]; exact diff_arith _ _ _ m1 l1 d2 hg)
      (by rw [i2]; exact diff_arith _ _ _ m2 l2 d1 hr)
      (by rw [i3]; exact diff_arith _ _ _ m0 l0 d3 hb)
  · split
    · rename_i hle
      generalize (chR p - chR px - (chG p - chG px) + 8) &&& 0xFF = xr at *
      generalize (chG p - chG px + 32) &&& 0xFF = xg at *
      generalize (chB p - chB px - (chG p - chG px) + 8) &&& 0xFF = xb at *
      have hr := or_le_left hle.1
      have hb := or_le_right hle.1
      have hg := UInt32.le_iff_toNat_le.mp hle.2
      simp only [UInt32.reduceToNat] at hb hr hg
      have h0 := luma_byte0 ⟨xg.toNat, by clear d1 d2 d3 e1 e2 e3; omega⟩
      have h1 := luma_byte1 ⟨xr.toNat, by clear d1 d2 d3 e1 e2 e3; omega⟩ ⟨xb.toNat, by clear d1 d2 d3 e1 e2 e3; omega⟩
      simp only [ofNat_toNat32] at h0 h1
      have j1 : (xr.toNat * 16 + xb.toNat) / 16 = xr.toNat := by clear d1 d2 d3 e1 e2 e3; omega
      have j2 : (xr.toNat * 16 + xb.toNat) % 16 = xb.toNat := by clear d1 d2 d3 e1 e2 e3; omega
      exact chunk_luma a px p _ _ _ h0 (by clear d1 d2 d3 e1 e2 e3; omega) h3 (luma_g _ _ _ m1 l1 e2)
        (by rw [h1, j1]; exact luma_c _ _ _ _ _ _ m2 l2 m1 l1 e1 e2)
        (by rw [h1, j2]; exact luma_c _ _ _ _ _ _ m0 l0 m1 l1 e3 e2)
    · exact chunk_rgb a px p _ _ _ h3 (by rw [toU8 _ (by omega), eR]) (by rw [toU8 _ (by omega), eG])
        (by rw [toU8 _ (by omega), eB])

theorem emitDelta_len (px p : UInt32) : 1 ≤ (emitDelta px p).length ∧ (emitDelta px p).length ≤ 4 := by
  unfold emitDelta
  simp only
  split
  · simp
  · split <;> simp

/-! ## Invariant of the colour tables -/

/-- Table part of the relation: `ok v` are the values that can be looked up. -/
def Tables (a : Bool) (ok : UInt32 → Prop) (t : Nat → UInt32) (d : Dec) : Prop :=
  (∀ i, d.packedTable i = packPx a (d.unpackedTable i)) ∧
  (∀ v, ok v → t (hashRgba32 v) = v → d.unpackedTable (hashRgba32 v) = unpackPx v)

theorem Tables.upd {a : Bool} {ok : UInt32 → Prop} {t : Nat → UInt32} {d d' : Dec} (p : UInt32) (h : Tables a ok t d)
    (e1 : d'.unpackedTable = upd d.unpackedTable (hash64 (unpackPx p)) (unpackPx p))
    (e2 : d'.packedTable = Qoi.upd d.packedTable (hash64 (unpackPx p)) (packPx a (unpackPx p))) :
    Tables a ok (Qoi.upd t (hashRgba32 p) p) d' := by
  constructor
  · intro i
    rw [e1, e2]
    unfold Qoi.upd
    split
    · rfl
    · exact h.1 i
  · intro v hv
    rw [e1, hash_unpack]
    unfold Qoi.upd
    split
    · intro e; rw [e]
    · exact h.2 v hv

/-! ## XRGB32 -/

def imgX (q : UInt32) : UInt32 := q ||| 0xFF000000

theorem imgX_chan3 (q : UInt32) : chan 3 (imgX q).toNat = 255 := by
  have hq := pack4_chan q
  have l := fun k => chan_le k q.toNat
  have l0 := l 0
  have l1 := l 1
  have l2 := l 2
  have l3 := l 3
  unfold imgX
  rw [(chan_vals _).2.2.2]
  simp only [UInt32.toNat_or, UInt32.reduceToNat]
  have hlt := q.toNat_lt
  have h := or_split (q.toNat / 16777216) (q.toNat % 16777216) 255 0 24 (by omega) (by decide)
  simp only [Nat.reducePow, Nat.reduceMul, Nat.add_zero, Nat.or_zero] at h
  rw [Nat.div_add_mod' q.toNat 16777216] at h
  rw [h]
  have : q.toNat / 16777216 ||| 255 = 255 := by
    have : ∀ v : Fin 256, v.val ||| 255 = 255 := by decide +kernel
    exact this ⟨q.toNat / 16777216, by omega⟩
  omega

theorem imgX_of_opaque (p : UInt32) (h : chan 3 p.toNat = 255) : p ||| 0xFF000000 = p := by
  apply UInt32.toNat_inj.mp
  have hlt := p.toNat_lt
  rw [chan3] at h
  simp only [UInt32.toNat_or, UInt32.reduceToNat]
  have o := or_split (p.toNat / 16777216) (p.toNat % 16777216) 255 0 24 (by omega) (by decide)
  simp only [Nat.reducePow, Nat.reduceMul, Nat.add_zero, Nat.or_zero] at o
  rw [Nat.div_add_mod' p.toNat 16777216, h] at o
  rw [o, Nat.or_self]
  omega

def RelX (s : EncX) (d : Dec) : Prop :=
  d.unpacked = unpackPx s.pixel ∧ d.packed = s.pixel ∧ chan 3 s.pixel.toNat = 255 ∧
  Tables false (fun v => chan 3 v.toNat = 255) s.table d

theorem simX : Sim codecX false (fun _ => True) imgX RelX where
  frame := by intro s d src x h out hr; exact hr
  same := by
    intro s d q hr _ hs
    simp only [codecX, beq_iff_eq] at hs
    rw [hr.2.1, ← hs]; rfl
  emit := by
    intro s d q ⟨h1, h2, h3, h4⟩ _ _
    have ho : chan 3 (imgX q).toNat = 255 := imgX_chan3 q
    have hload : codecX.load q = imgX q := rfl
    rw [hload]
    simp only [codecX, emitX]
    by_cases ht : s.table (hashRgba32 (imgX q)) = imgX q
    · left
      rw [if_pos ht]
      have hu := h4.2 _ ho ht
      have hp : d.packedTable (hashRgba32 (imgX q)) = imgX q := by
        rw [h4.1, hu, packPx_unpack_false, imgX_of_opaque _ ho]
      exact ⟨_, hash_lt _, by simp, hp, hu, hp, ho, h4⟩
    · right
      rw [if_neg ht]
      have hp : packPx false (unpackPx (imgX q)) = imgX q := by
        rw [packPx_unpack_false, imgX_of_opaque _ ho]
      refine ⟨unpackPx (imgX q), ?_, hp, rfl, hp, ho, ?_⟩
      · rw [h1]; exact emitDelta_chunk false _ _ (by rw [h3, ho])
      · exact h4.upd (imgX q) rfl rfl

/-! ## PRGB32 -/

def RelP (s : EncP) (d : Dec) : Prop :=
  d.unpacked = unpackPx s.pixelNP ∧ d.packed = s.pixelPM ∧ Tables true (fun _ => True) s.table d

theorem simP : Sim codecP true (fun q => Premultiplied q.toNat) id RelP where
  frame := by intro s d src x h out hr; exact hr
  same := by
    intro s d q hr _ hs
    simp only [codecP, beq_iff_eq] at hs
    rw [hr.2.1, ← hs]; rfl
  emit := by
    intro s d q ⟨h1, h2, h4⟩ hv _
    have hload : codecP.load q = q := rfl
    rw [hload]
    simp only [codecP, emitP]
    have hrt : cvtPrgb32FromArgb32 (cvtArgb32FromPrgb32 q) = q := C10_premultiply_unpremultiply q hv
    generalize cvtArgb32FromPrgb32 q = np at *
    have hp : packPx true (unpackPx np) = q := by rw [packPx_unpack_true, hrt]
    have l := fun k => chan_le k s.pixelNP.toNat
    have m := fun k => chan_le k np.toNat
    have l0 := l 0
    have l1 := l 1
    have l2 := l 2
    have l3 := l 3
    have m0 := m 0
    have m1 := m 1
    have m2 := m 2
    have m3 := m 3
    by_cases ht : s.table (hashRgba32 np) = np
    · left
      rw [if_pos ht]
      have hu := h4.2 _ trivial ht
      have hp' : d.packedTable (hashRgba32 np) = q := by rw [h4.1, hu, hp]
      exact ⟨_, hash_lt _, by simp, hp', hu, hp', h4⟩
    · right
      rw [if_neg ht]
      refine ⟨unpackPx np, ?_, hp, rfl, hp, h4.upd np rfl rfl⟩
      rw [h1]
      simp only
      by_cases ha : chA s.pixelNP = chA np
      · rw [if_pos ha]
        refine emitDelta_chunk true _ _ ?_
        rw [← chA_toNat, ← chA_toNat, ha]
      · rw [if_neg ha]
        exact chunk_rgba true _ np _ _ _ _ (unpackPx_toNat _) (by omega) (by omega) (by omega) (by omega) _ _ _ _
          (by rw [toU8 _ (by rw [chA_toNat]; omega), chA_toNat])
          (by rw [toU8 _ (by rw [chR_toNat]; omega), chR_toNat])
          (by rw [toU8 _ (by rw [chG_toNat]; omega), chG_toNat])
          (by rw [toU8 _ (by rw [chB_toNat]; omega), chB_toNat])

/-! ## A8 -/

/-- White with alpha `a` (not premultiplied), as stored in the file. -/
def whiteNP (a : UInt32) : UInt32 := UInt32.ofNat (pack4 a.toNat 255 255 255)

/-- The premultiplied pixel that a decoded alpha value becomes. -/
def imgA (q : UInt32) : UInt32 := (q &&& 0xFF) * 0x01010101

theorem low8 (q : UInt32) : (q &&& 0xFF).toNat = q.toNat % 256 := by
  simp only [UInt32.toNat_and, UInt32.reduceToNat, and_255]

theorem whiteNP_toNat (a : UInt32) (h : a.toNat ≤ 255) : (whiteNP a).toNat = pack4 a.toNat 255 255 255 := by
  unfold whiteNP
  rw [UInt32.toNat_ofNat']
  apply Nat.mod_eq_of_lt
  unfold pack4; omega

theorem whiteNP_chan (a : UInt32) (h : a.toNat ≤ 255) : chan 3 (whiteNP a).toNat = a.toNat ∧
    chan 2 (whiteNP a).toNat = 255 ∧ chan 1 (whiteNP a).toNat = 255 ∧ chan 0 (whiteNP a).toNat = 255 := by
  have := chan_pack4 a.toNat 255 255 255 (by omega) (by omega) (by omega) (by omega)
  rw [whiteNP_toNat a h]
  exact ⟨this.2.2.2, this.2.2.1, this.2.1, this.1⟩

theorem whiteNP_premul (q : UInt32) : cvtPrgb32FromArgb32 (whiteNP (q &&& 0xFF)) = imgA q := by
  have hl : (q &&& 0xFF).toNat ≤ 255 := by rw [low8]; omega
  apply UInt32.toNat_inj.mp
  have hw := whiteNP_chan _ hl
  rw [cvtPrgb_toNat, hw.1, hw.2.1, hw.2.2.1, hw.2.2.2]
  unfold imgA
  generalize (q &&& 0xFF) = v at *
  simp only [UInt32.toNat_mul, UInt32.reduceToNat]
  have : r255 (255 * v.toNat) = v.toNat := by rw [Nat.mul_comm]; exact r255_mul_255 _ hl
  rw [this]
  unfold pack4
  omega

theorem whiteNP_hash (q : UInt32) (h : q.toNat ≤ 255) : hashRgba32 (whiteNP q) = hashA8 q := by
  have hw := whiteNP_chan q h
  rw [hashA8_eq q h, ← hash_unpack,
    hash64_eq _ _ _ _ _ (unpackPx_toNat _) (by omega) (by omega) (by omega) (by omega), hw.1, hw.2.1, hw.2.2.1, hw.2.2.2]

def RelA (s : EncA8) (d : Dec) : Prop :=
  (∃ a g r b, d.unpacked.toNat = P4 a g r b ∧ a < 256 ∧ g < 256 ∧ r < 256 ∧ b < 256) ∧
  (∀ q, (q &&& 0xFF) = s.pixel → d.packed = imgA q) ∧
  (∀ i, d.packedTable i = packPx true (d.unpackedTable i)) ∧
  (∀ v : UInt32, v.toNat ≤ 255 → (s.table (hashA8 v)).toUInt32 = v →
    d.unpackedTable (hashA8 v) = unpackPx (whiteNP v))

theorem imgA_congr {q q' : UInt32} (h : (q &&& 0xFF) = (q' &&& 0xFF)) : imgA q = imgA q' := by
  unfold imgA; rw [h]

theorem lanes_unpack (p : UInt32) : ∃ a g r b, (unpackPx p).toNat = P4 a g r b ∧ a < 256 ∧ g < 256 ∧ r < 256 ∧ b < 256 := by
  have l := fun k => chan_le k p.toNat
  have l0 := l 0
  have l1 := l 1
  have l2 := l 2
  have l3 := l 3
  exact ⟨_, _, _, _, unpackPx_toNat p, by omega, by omega, by omega, by omega⟩

theorem simA : Sim codecA8 true (fun _ => True) imgA RelA where
  frame := by intro s d src x h out hr; exact hr
  same := by
    intro s d q hr _ hs
    simp only [codecA8, beq_iff_eq] at hs
    exact hr.2.1 q hs
  emit := by
    intro s d q ⟨⟨ua, ug, ur, ub, hu, hua, hug, hur, hub⟩, h2, h3, h4⟩ _ _
    have hload : codecA8.load q = q &&& 0xFF := rfl
    rw [hload]
    simp only [codecA8, emitA8]
    have hl : (q &&& 0xFF).toNat ≤ 255 := by rw [low8]; omega
    have hpre := whiteNP_premul q
    have hpk : packPx true (unpackPx (whiteNP (q &&& 0xFF))) = imgA q := by rw [packPx_unpack_true, hpre]
    have hw := whiteNP_chan _ hl
    have hcongr : ∀ q', (q' &&& 0xFF) = (q &&& 0xFF) → imgA q = imgA q' := fun q' h => imgA_congr h.symm
    have hh := whiteNP_hash _ hl
    have hlt : hashA8 (q &&& 0xFF) < 64 := by rw [hashA8_eq _ hl]; omega
    generalize hv : q &&& 0xFF = v at *
    by_cases ht : (s.table (hashA8 v)).toUInt32 = v
    · left
      rw [if_pos ht]
      have hu' := h4 v hl ht
      have hp' : d.packedTable (hashA8 v) = imgA q := by rw [h3, hu', hpk]
      refine ⟨_, hlt, by simp, hp', ?_, ?_, h3, h4⟩
      · simp only; rw [hu']; exact lanes_unpack _
      · intro q' hq'; simp only at hq' ⊢; rw [hp']; exact hcongr q' hq'
    · right
      rw [if_neg ht]
      refine ⟨unpackPx (whiteNP v), ?_, hpk, lanes_unpack _, ?_, ?_, ?_⟩
      · exact chunk_rgba true _ _ _ _ _ _ hu hua hug hur hub _ _ _ _
          (by rw [toU8 _ hl, hw.1]) (by rw [hw.2.1]; rfl) (by rw [hw.2.2.1]; rfl) (by rw [hw.2.2.2]; rfl)
      · intro q' hq'; simp only at hq' ⊢; rw [hpk]; exact hcongr q' hq'
      · intro i
        simp only
        unfold upd
        split
        · rfl
        · exact h3 i
      · intro x hx hx'
        simp only at hx' ⊢
        rw [hash_unpack, hh]
        unfold upd at hx' ⊢
        split at hx'
        · rename_i e
          rw [if_pos e]
          congr 2
          rw [← hx']
          apply UInt32.toNat_inj.mp
          simp only [UInt16.toNat_toUInt32, UInt32.toNat_toUInt16]
          omega
        · rename_i e
          rw [if_neg e]
          exact h4 x hx hx'

theorem emitA8_len (s : EncA8) (p : UInt32) : 1 ≤ (emitA8 s p).1.length ∧ (emitA8 s p).1.length ≤ 5 := by
  unfold emitA8; simp only; split <;> simp

theorem emitX_len (s : EncX) (p : UInt32) : 1 ≤ (emitX s p).1.length ∧ (emitX s p).1.length ≤ 4 := by
  have := emitDelta_len s.pixel p
  unfold emitX; simp only; split
  · simp
  · exact this

theorem emitP_len (s : EncP) (p : UInt32) : 1 ≤ (emitP s p).1.length ∧ (emitP s p).1.length ≤ 5 := by
  unfold emitP; simp only; split
  · simp
  · simp only
    split
    · have := emitDelta_len s.pixelNP (cvtArgb32FromPrgb32 p); omega
    · simp

end Blend2D.Qoi
