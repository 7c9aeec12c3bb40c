import Verif.Comp.Lemmas
/-! # C11: reference compositing is exact component by component -/
namespace Blend2D.Comp
open Bits Pixel Pixel.Spec Spec

theorem chan_of_pack4 (v A R G B : Nat) (hv : v = pack4 A R G B) (hA : A ≤ 255) (hR : R ≤ 255)
    (hG : G ≤ 255) (hB : B ≤ 255) (P : Nat → Nat → Prop) (h0 : P 0 B) (h1 : P 1 G) (h2 : P 2 R)
    (h3 : P 3 A) : ∀ k < 4, P k (chan k v) := by
  obtain ⟨c0, c1, c2, c3⟩ := chan_pack4 A R G B (by omega) (by omega) (by omega) (by omega)
  intro k hk
  subst hv
  obtain rfl | rfl | rfl | rfl : k = 0 ∨ k = 1 ∨ k = 2 ∨ k = 3 := by omega
  · rewrite [c0]; exact h0
  · rewrite [c1]; exact h1
  · rewrite [c2]; exact h2
  · rewrite [c3]; exact h3

/-- **C11** SRC_COPY without mask replaces the destination. -/
theorem C11_src_copy (d s : UInt32) : srcCopy d s = s := rfl

/-- **C11** SRC_COPY with mask: for all pixels and every mask `0..255`, each of the four components is
the exactly rounded interpolation. -/
theorem C11_src_copy_mask (d s m : UInt32) (hm : m.toNat ≤ 255) :
    ∀ k < 4, chan k (srcCopyMask d s m).toNat = copyMask (chan k d.toNat) (chan k s.toNat) m.toNat := by
  have ld := fun k => chan_le k d.toNat
  have ls := fun k => chan_le k s.toNat
  have hn := xorFF_toNat m hm
  have h1 := mulRepeat_toNat (unpack d) (m ^^^ 0xFF) _ _ _ _ (unpack_toNat d) (ld 3) (ld 1) (ld 2) (ld 0)
    (by omega)
  have h2 := mulRepeat_toNat (unpack s) m _ _ _ _ (unpack_toNat s) (ls 3) (ls 1) (ls 2) (ls 0) hm
  rewrite [hn] at h1
  have bnd : ∀ k, chan k d.toNat * (255 - m.toNat) + chan k s.toNat * m.toNat ≤ 65025 := by
    intro k
    have a1 := Nat.mul_le_mul_right (255 - m.toNat) (ld k)
    have a2 := Nat.mul_le_mul_right m.toNat (ls k)
    omega
  have hs : (mulRepeat (unpack d) (m ^^^ 0xFF) + mulRepeat (unpack s) m).toNat = P4
      (chan 3 d.toNat * (255 - m.toNat) + chan 3 s.toNat * m.toNat)
      (chan 1 d.toNat * (255 - m.toNat) + chan 1 s.toNat * m.toNat)
      (chan 2 d.toNat * (255 - m.toNat) + chan 2 s.toNat * m.toNat)
      (chan 0 d.toNat * (255 - m.toNat) + chan 0 s.toNat * m.toNat) := by
    rewrite [UInt64.toNat_add, h1, h2, P4_add]
    have b0 := bnd 0
    have b1 := bnd 1
    have b2 := bnd 2
    have b3 := bnd 3
    exact Nat.mod_eq_of_lt (P4_lt (by omega) (by omega) (by omega) (by omega))
  have h3 := div255_toNat _ _ _ _ _ hs (bnd 3) (bnd 1) (bnd 2) (bnd 0)
  have q := fun k => r255_le _ (bnd k)
  have h4 := pack_toNat _ _ _ _ _ h3 (q 3) (q 1) (q 2) (q 0)
  exact chan_of_pack4 _ _ _ _ _ h4 (q 3) (q 2) (q 1) (q 0)
    (fun k v => v = copyMask (chan k d.toNat) (chan k s.toNat) m.toNat)
    (round255_eq _ (bnd 0)).symm (round255_eq _ (bnd 1)).symm (round255_eq _ (bnd 2)).symm
    (round255_eq _ (bnd 3)).symm

example : srcCopyMask 0xFF000000 0xFFFFFFFF 128 = 0xFF808080 := by decide +kernel

/-- A sum of components below 256 does not carry into the neighbouring component. -/
theorem add_pack4 (x y : UInt32) (A R G B : Nat) (hy : y.toNat = pack4 A R G B)
    (h3 : chan 3 x.toNat + A ≤ 255) (h2 : chan 2 x.toNat + R ≤ 255) (h1 : chan 1 x.toNat + G ≤ 255)
    (h0 : chan 0 x.toNat + B ≤ 255) :
    (x + y).toNat = pack4 (chan 3 x.toNat + A) (chan 2 x.toNat + R) (chan 1 x.toNat + G)
      (chan 0 x.toNat + B) := by
  rewrite [UInt32.toNat_add, hy, ← pack4_chan x]
  obtain ⟨c0, c1, c2, c3⟩ := chan_pack4 (chan 3 x.toNat) (chan 2 x.toNat) (chan 1 x.toNat) (chan 0 x.toNat)
    (by omega) (by omega) (by omega) (by omega)
  rewrite [c0, c1, c2, c3]
  unfold pack4
  omega

/-- **C11** SRC_OVER: for every premultiplied source and *any* destination each component is
`s + round(d * (255 - sa) / 255)`, with no carry between components and no overflow. -/
theorem C11_src_over (d s : UInt32) (hs : Premultiplied s.toNat) :
    ∀ k < 4, chan k (srcOver d s).toNat = over (chan k d.toNat) (chan k s.toNat) (chan 3 s.toNat) ∧
      over (chan k d.toNat) (chan k s.toNat) (chan 3 s.toNat) ≤ 255 := by
  have ls := fun k => chan_le k s.toNat
  have ld := fun k => chan_le k d.toNat
  have hn : (neg255 (alphaOf s)).toNat = 255 - chan 3 s.toNat := by
    rewrite [neg255_toNat _ (by rewrite [alphaOf_toNat]; exact ls 3), alphaOf_toNat]; rfl
  have h1 := mulDiv_toNat d (neg255 (alphaOf s)) (by omega)
  rewrite [hn] at h1
  have p := fun k (hk : k < 3) => hs k hk
  have q := fun k => r255_mul_le (chan k d.toNat) (255 - chan 3 s.toNat) (ld k) (by omega)
  have b := fun k => byte_mul_le (ld k) (show 255 - chan 3 s.toNat ≤ 255 by omega)
  have p0 := p 0 (by omega)
  have p1 := p 1 (by omega)
  have p2 := p 2 (by omega)
  have l3 := ls 3
  have q0 := q 0
  have q1 := q 1
  have q2 := q 2
  have q3 := q 3
  have h2 := add_pack4 s _ _ _ _ _ h1 (by omega) (by omega) (by omega) (by omega)
  have e : ∀ k, over (chan k d.toNat) (chan k s.toNat) (chan 3 s.toNat) =
      chan k s.toNat + r255 (chan k d.toNat * (255 - chan 3 s.toNat)) := by
    intro k
    unfold over mul255
    rewrite [round255_eq _ (b k)]; rfl
  refine chan_of_pack4 _ _ _ _ _ h2 (by omega) (by omega) (by omega) (by omega)
    (fun k v => v = over (chan k d.toNat) (chan k s.toNat) (chan 3 s.toNat) ∧
      over (chan k d.toNat) (chan k s.toNat) (chan 3 s.toNat) ≤ 255) ?_ ?_ ?_ ?_
  all_goals (rewrite [e]; exact ⟨rfl, by omega⟩)

/-- Multiplying a premultiplied pixel by a mask. -/
theorem mulMask_chan (s m : UInt32) (hm : m.toNat ≤ 255) :
    ∀ k < 4, chan k (pack (div255 (mulRepeat (unpack s) m))).toNat = mul255 (chan k s.toNat) m.toNat := by
  have ls := fun k => chan_le k s.toNat
  have b := fun k => byte_mul_le (ls k) hm
  have q := fun k => r255_le _ (b k)
  refine chan_of_pack4 _ _ _ _ _ (mulDiv_toNat s m hm) (q 3) (q 2) (q 1) (q 0)
    (fun k v => v = mul255 (chan k s.toNat) m.toNat) ?_ ?_ ?_ ?_
  all_goals (unfold mul255; rewrite [round255_eq _ (b _)]; rfl)

theorem mulMask_premultiplied (s m : UInt32) (hm : m.toNat ≤ 255) (hs : Premultiplied s.toNat) :
    Premultiplied (pack (div255 (mulRepeat (unpack s) m))).toNat := by
  intro k hk
  have h := mulMask_chan s m hm
  rewrite [h k (by omega), h 3 (by omega)]
  have ls := fun k => chan_le k s.toNat
  have b := fun k => byte_mul_le (ls k) hm
  unfold mul255
  rewrite [round255_eq _ (b _), round255_eq _ (b _)]
  exact r255_mono (Nat.mul_le_mul_right _ (hs k hk))

/-- **C11** SRC_OVER with mask: the source is first scaled by the mask (exactly rounded), then composed. -/
theorem C11_src_over_mask (d s m : UInt32) (hm : m.toNat ≤ 255) (hs : Premultiplied s.toNat) :
    ∀ k < 4, chan k (srcOverMask d s m).toNat =
      over (chan k d.toNat) (mul255 (chan k s.toNat) m.toNat) (mul255 (chan 3 s.toNat) m.toNat) ∧
      chan k (srcOverMask d s m).toNat ≤ 255 := by
  intro k hk
  have h := mulMask_chan s m hm
  have h2 := C11_src_over d _ (mulMask_premultiplied s m hm hs) k hk
  rewrite [h k hk, h 3 (by omega)] at h2
  unfold srcOverMask
  exact ⟨h2.1, by rewrite [h2.1]; exact h2.2⟩

example : Premultiplied (0x80402010 : UInt32).toNat ∧
    srcOver 0xFFFFFFFF 0x80402010 = 0xFFBF9F8F ∧ srcOverMask 0xFFFFFFFF 0x80402010 255 = 0xFFBF9F8F := by
  refine ⟨?_, by decide +kernel, by decide +kernel⟩
  intro k hk
  obtain rfl | rfl | rfl : k = 0 ∨ k = 1 ∨ k = 2 := by omega
  all_goals decide +kernel

/-- The premultiplication hypothesis of `C11_src_over` cannot be dropped: with a source whose colour
exceeds its alpha the addition carries into the neighbouring component. -/
theorem C11_src_over_needs_premultiplied :
    ¬ (∀ d s : UInt32, ∀ k < 4, chan k (srcOver d s).toNat =
        min 255 (over (chan k d.toNat) (chan k s.toNat) (chan 3 s.toNat))) := by
  intro h
  have := h 0x000000FF 0x000000FF 1 (by omega)
  revert this
  decide +kernel

/-- **C11** a premultiplied destination stays premultiplied under SRC_OVER (also when masked). -/
theorem C11_src_over_premultiplied (d s m : UInt32) (hm : m.toNat ≤ 255) (hs : Premultiplied s.toNat)
    (hd : Premultiplied d.toNat) : Premultiplied (srcOver d s).toNat ∧
      Premultiplied (srcOverMask d s m).toNat := by
  have key : ∀ s : UInt32, Premultiplied s.toNat → Premultiplied (srcOver d s).toNat := by
    intro s hs k hk
    have h := C11_src_over d s hs
    rewrite [(h k (by omega)).1, (h 3 (by omega)).1]
    unfold over mul255
    have h1 := hs k hk
    have h2 := Nat.mul_le_mul_right (255 - chan 3 s.toNat) (hd k hk)
    have h3 : round255 (chan k d.toNat * (255 - chan 3 s.toNat)) ≤
        round255 (chan 3 d.toNat * (255 - chan 3 s.toNat)) := by
      unfold round255
      exact Nat.div_le_div_right (by omega)
    omega
  exact ⟨key s hs, key _ (mulMask_premultiplied s m hm hs)⟩

/-- **C11** PLUS: saturating addition of every component, for all pixels. -/
theorem C11_plus (d s : UInt32) :
    ∀ k < 4, chan k (plus d s).toNat = satAdd (chan k d.toNat) (chan k s.toNat) := by
  have ls := fun k => chan_le k s.toNat
  have ld := fun k => chan_le k d.toNat
  have h1 := addus8_toNat _ _ _ _ _ _ _ _ _ _ (unpack_toNat d) (unpack_toNat s) (ld 3) (ld 1) (ld 2)
    (ld 0) (ls 3) (ls 1) (ls 2) (ls 0)
  have h2 := pack_toNat _ _ _ _ _ h1 (by omega) (by omega) (by omega) (by omega)
  exact chan_of_pack4 _ _ _ _ _ h2 (by omega) (by omega) (by omega) (by omega)
    (fun k v => v = satAdd (chan k d.toNat) (chan k s.toNat)) rfl rfl rfl rfl

/-- **C11** PLUS with mask. -/
theorem C11_plus_mask (d s m : UInt32) (hm : m.toNat ≤ 255) :
    ∀ k < 4, chan k (plusMask d s m).toNat = satAdd (chan k d.toNat) (mul255 (chan k s.toNat) m.toNat) := by
  have ls := fun k => chan_le k s.toNat
  have ld := fun k => chan_le k d.toNat
  have b := fun k => byte_mul_le (ls k) hm
  have q := fun k => r255_le _ (b k)
  have h0 := mulRepeat_toNat (unpack s) m _ _ _ _ (unpack_toNat s) (ls 3) (ls 1) (ls 2) (ls 0) hm
  have h0' := div255_toNat _ _ _ _ _ h0 (b 3) (b 1) (b 2) (b 0)
  have h1 := addus8_toNat _ _ _ _ _ _ _ _ _ _ (unpack_toNat d) h0' (ld 3) (ld 1) (ld 2)
    (ld 0) (q 3) (q 1) (q 2) (q 0)
  have h2 := pack_toNat _ _ _ _ _ h1 (by omega) (by omega) (by omega) (by omega)
  refine chan_of_pack4 _ _ _ _ _ h2 (by omega) (by omega) (by omega) (by omega)
    (fun k v => v = satAdd (chan k d.toNat) (mul255 (chan k s.toNat) m.toNat)) ?_ ?_ ?_ ?_
  all_goals (unfold mul255; rewrite [round255_eq _ (b _)]; rfl)

example : plus 0x80FF0010 0x90012030 = 0xFFFF2040 := by decide +kernel

/-! ## Neutral masks -/

theorem eq_of_chan (x y : UInt32) (h : ∀ k < 4, chan k x.toNat = chan k y.toNat) : x = y := by
  apply UInt32.toNat.inj
  rewrite [← pack4_chan x, ← pack4_chan y, h 0 (by omega), h 1 (by omega), h 2 (by omega), h 3 (by omega)]
  rfl

theorem mul255_255 (c : Nat) (_h : c ≤ 255) : mul255 c 255 = c := by
  unfold mul255 round255; omega

/-- **C11** mask 255 (fully inside) equals the unmasked operator; mask 0 (fully outside) leaves the
destination unchanged. -/
theorem C11_mask_neutral (op : Op) (d s : UInt32) (hs : Premultiplied s.toNat) :
    op.masked d s 255 = op.opaque d s ∧ op.masked d s 0 = d := by
  have ls := fun k => chan_le k s.toNat
  have ld := fun k => chan_le k d.toNat
  have e255 : (255 : UInt32).toNat = 255 := by simp
  have e0 : (0 : UInt32).toNat = 0 := by simp
  cases op
  · constructor
    · apply eq_of_chan; intro k hk
      show chan k (srcCopyMask d s 255).toNat = chan k s.toNat
      rewrite [C11_src_copy_mask d s 255 (by omega) k hk, e255]
      have := ls k
      unfold copyMask round255; omega
    · apply eq_of_chan; intro k hk
      show chan k (srcCopyMask d s 0).toNat = chan k d.toNat
      rewrite [C11_src_copy_mask d s 0 (by omega) k hk, e0]
      have := ld k
      unfold copyMask round255; omega
  · constructor
    · apply eq_of_chan; intro k hk
      show chan k (srcOverMask d s 255).toNat = chan k (srcOver d s).toNat
      rewrite [(C11_src_over_mask d s 255 (by omega) hs k hk).1, (C11_src_over d s hs k hk).1, e255,
        mul255_255 _ (ls k), mul255_255 _ (ls 3)]
      rfl
    · apply eq_of_chan; intro k hk
      show chan k (srcOverMask d s 0).toNat = chan k d.toNat
      rewrite [(C11_src_over_mask d s 0 (by omega) hs k hk).1, e0]
      have := ld k
      have z : ∀ x, mul255 x 0 = 0 := by intro x; simp [mul255, round255]
      rewrite [z, z]
      unfold over mul255 round255; omega
  · constructor
    · apply eq_of_chan; intro k hk
      show chan k (plusMask d s 255).toNat = chan k (plus d s).toNat
      rewrite [C11_plus_mask d s 255 (by omega) k hk, C11_plus d s k hk, e255, mul255_255 _ (ls k)]
      rfl
    · apply eq_of_chan; intro k hk
      show chan k (plusMask d s 0).toNat = chan k d.toNat
      rewrite [C11_plus_mask d s 0 (by omega) k hk, e0]
      have := ld k
      unfold satAdd mul255 round255; omega

/-- **C11** the opaque fast path of a constant-mask span gives the same pixels as the masked path. -/
theorem C11_cspan_fast_path (op : Op) (m : UInt32) (ds ss : List UInt32)
    (hs : ∀ s ∈ ss, Premultiplied s.toNat) : cspan op m ds ss = cspanMasked op m ds ss := by
  unfold cspan
  split
  · rename_i h
    simp only [Bool.and_eq_true, beq_iff_eq] at h
    rw [h.2]
    induction ds generalizing ss with
    | nil => cases ss <;> rfl
    | cons d ds ih =>
      cases ss with
      | nil => rfl
      | cons s ss =>
        simp only [cspanOpaque, cspanMasked]
        rw [(C11_mask_neutral op d s (hs s (by simp))).1, ih ss (fun x hx => hs x (by simp [hx]))]
  · rfl

/-- Masks of a span with a separate global alpha: the effective mask is `round(m * ga / 255)`. -/
theorem C11_vspan_global_alpha (op : Op) (ga : UInt32) (hga : ga.toNat ≤ 255) (ms : List UInt8)
    (ds ss : List UInt32) :
    vspanWithoutGA op ga ms ds ss =
      vspanWithGA op (ms.map fun m => UInt8.ofNat (mul255 m.toNat ga.toNat)) ds ss := by
  induction ms generalizing ds ss with
  | nil => cases ds <;> cases ss <;> rfl
  | cons m ms ih =>
    cases ds with
    | nil => rfl
    | cons d ds =>
      cases ss with
      | nil => rfl
      | cons s ss =>
        simp only [vspanWithoutGA, vspanWithGA, List.map_cons]
        rw [ih]
        congr 2
        apply UInt32.toNat.inj
        have hm : m.toNat ≤ 255 := by have := m.toNat_lt; omega
        have hb := byte_mul_le hm hga
        have hq := r255_le _ hb
        have e : (m.toUInt32 * ga).toNat = m.toNat * ga.toNat := by
          rewrite [UInt32.toNat_mul, UInt8.toNat_toUInt32]; omega
        rw [udiv255_toNat _ (by omega), e]
        simp only [UInt8.toNat_toUInt32, UInt8.toNat_ofNat']
        unfold mul255
        rw [round255_eq _ hb]
        omega

/-! ## A8 destinations -/

theorem mulA_toNat (x : UInt16) (m : UInt32) (h : x.toNat ≤ 255) (hm : m.toNat ≤ 255) :
    (mulA x m).toNat = x.toNat * m.toNat := by
  unfold mulA
  simp only [UInt32.toNat_toUInt16, UInt32.toNat_and, UInt32.toNat_mul, UInt16.toNat_toUInt32,
    UInt32.reduceToNat, and_65535]
  have := byte_mul_le h hm
  omega

theorem unpackA_toNat (p : UInt8) : (unpackA p).toNat = p.toNat := by simp [unpackA]

theorem packA_toNat (u : UInt16) (h : u.toNat ≤ 255) : (packA u).toNat = u.toNat := by
  unfold packA
  simp only [UInt16.toNat_toUInt8, UInt16.toNat_and, UInt16.reduceToNat, and_255]
  omega

theorem addA_toNat (x y : UInt16) (h : x.toNat + y.toNat < 65536) : (addA x y).toNat = x.toNat + y.toNat := by
  unfold addA
  simp only [UInt32.toNat_toUInt16, UInt32.toNat_and, UInt32.toNat_add, UInt16.toNat_toUInt32,
    UInt32.reduceToNat, and_65535]
  omega

theorem div255A_toNat (x : UInt16) (h : x.toNat ≤ 65025) : (div255A x).toNat = r255 x.toNat := by
  unfold div255A r255
  have e128 : (0x80 : UInt16).toNat = 128 := by simp
  have h1 : (addA x 0x80).toNat = x.toNat + 128 := by
    rw [addA_toNat x 0x80 (by omega), e128]
  have h2 : ((addA x 0x80 >>> 8) &&& 0xFF).toNat = (x.toNat + 128) / 256 := by
    simp only [UInt16.toNat_and, UInt16.toNat_shiftRight, h1, UInt16.reduceToNat, and_255,
      Nat.shiftRight_eq_div_pow, Nat.reducePow, Nat.reduceMod]
    omega
  have h3 : (addA (addA x 0x80) ((addA x 0x80 >>> 8) &&& 0xFF)).toNat =
      x.toNat + 128 + (x.toNat + 128) / 256 := by
    rw [addA_toNat _ _ (by omega), h1, h2]
  simp only [UInt16.toNat_and, UInt16.toNat_shiftRight, h3, UInt16.reduceToNat, and_255,
    Nat.shiftRight_eq_div_pow, Nat.reducePow, Nat.reduceMod]
  omega

theorem mulDivA_toNat (p : UInt8) (m : UInt32) (hm : m.toNat ≤ 255) :
    (packA (div255A (mulA (unpackA p) m))).toNat = mul255 p.toNat m.toNat := by
  have hp : p.toNat ≤ 255 := by have := p.toNat_lt; omega
  have hb := byte_mul_le hp hm
  have h1 : (mulA (unpackA p) m).toNat = p.toNat * m.toNat := by
    rw [mulA_toNat _ _ (by rw [unpackA_toNat]; exact hp) hm, unpackA_toNat]
  have h2 := div255A_toNat (mulA (unpackA p) m) (by omega)
  rw [h1] at h2
  have hq := r255_le _ hb
  rw [packA_toNat _ (by omega), h2]
  unfold mul255
  rw [round255_eq _ hb]

/-- **C11** on A8 destinations: the same three operators on the single alpha component. -/
theorem C11_a8 (d s : UInt8) (m : UInt32) (hm : m.toNat ≤ 255) :
    (srcCopyMaskA d s m).toNat = copyMask d.toNat s.toNat m.toNat ∧
    (srcOverA d s).toNat = over d.toNat s.toNat s.toNat ∧
    (srcOverMaskA d s m).toNat = over d.toNat (mul255 s.toNat m.toNat) (mul255 s.toNat m.toNat) ∧
    (plusA d s).toNat = satAdd d.toNat s.toNat ∧
    (plusMaskA d s m).toNat = satAdd d.toNat (mul255 s.toNat m.toNat) := by
  have hd : d.toNat ≤ 255 := by have := d.toNat_lt; omega
  have hs : s.toNat ≤ 255 := by have := s.toNat_lt; omega
  have ov : ∀ t : UInt8, (srcOverA d t).toNat = over d.toNat t.toNat t.toNat := by
    intro t
    have ht : t.toNat ≤ 255 := by have := t.toNat_lt; omega
    have hn : (neg255 t.toUInt32).toNat = 255 - t.toNat := by
      rw [neg255_toNat _ (by simp; omega)]; simp
    have h1 := mulDivA_toNat d (neg255 t.toUInt32) (by omega)
    unfold srcOverA addP8 over
    rw [UInt8.toNat_add, h1, hn]
    have hb := byte_mul_le hd (show 255 - t.toNat ≤ 255 by omega)
    have hq := r255_mul_le d.toNat (255 - t.toNat) hd (by omega)
    unfold mul255
    rw [round255_eq _ hb]
    omega
  have us : ∀ x y : UInt16, x.toNat ≤ 255 → y.toNat ≤ 255 →
      (packA (addus8A x y)).toNat = satAdd x.toNat y.toNat := by
    intro x y hx hy
    have hv : (addA x y).toNat = x.toNat + y.toNat := addA_toNat x y (by omega)
    have h1 : (addus8A x y).toNat = min 255 (x.toNat + y.toNat) := by
      unfold addus8A
      have hk : ((addA x y >>> 8) &&& 0x1).toNat = (x.toNat + y.toNat) / 256 % 2 := by
        simp only [UInt16.toNat_and, UInt16.toNat_shiftRight, hv, UInt16.reduceToNat, and_1,
          Nat.shiftRight_eq_div_pow, Nat.reducePow, Nat.reduceMod]
      have e255 : (255 : UInt32).toNat = 255 := by simp
      have hm' : (mulA ((addA x y >>> 8) &&& 0x1) 0xFF).toNat = (x.toNat + y.toNat) / 256 % 2 * 255 := by
        rw [mulA_toNat _ _ (by omega) (by omega), hk, e255]
      simp only [UInt16.toNat_and, UInt16.toNat_or, hm', hv, UInt16.reduceToNat, and_255]
      exact or_sat _ (by omega)
    rw [packA_toNat _ (by omega), h1]; rfl
  refine ⟨?_, ov s, ?_, ?_, ?_⟩
  · have hn := xorFF_toNat m hm
    have a1 := mulA_toNat (unpackA d) (m ^^^ 0xFF) (by rw [unpackA_toNat]; exact hd) (by omega)
    have a2 := mulA_toNat (unpackA s) m (by rw [unpackA_toNat]; exact hs) hm
    rw [unpackA_toNat] at a1 a2
    rw [hn] at a1
    have b1 := Nat.mul_le_mul_right (255 - m.toNat) hd
    have b2 := Nat.mul_le_mul_right m.toNat hs
    have hb : d.toNat * (255 - m.toNat) + s.toNat * m.toNat ≤ 65025 := by omega
    have a3 := addA_toNat (mulA (unpackA d) (m ^^^ 0xFF)) (mulA (unpackA s) m) (by omega)
    rw [a1, a2] at a3
    have a4 := div255A_toNat (addA (mulA (unpackA d) (m ^^^ 0xFF)) (mulA (unpackA s) m)) (by omega)
    rw [a3] at a4
    have hq := r255_le _ hb
    unfold srcCopyMaskA copyMask
    rw [packA_toNat _ (by omega), a4, round255_eq _ hb]
  · unfold srcOverMaskA
    rw [ov, mulDivA_toNat s m hm]
  · unfold plusA
    rw [us _ _ (by rw [unpackA_toNat]; exact hd) (by rw [unpackA_toNat]; exact hs), unpackA_toNat, unpackA_toNat]
  · unfold plusMaskA
    have hb := byte_mul_le hs hm
    have h1 : (mulA (unpackA s) m).toNat = s.toNat * m.toNat := by
      rw [mulA_toNat _ _ (by rw [unpackA_toNat]; exact hs) hm, unpackA_toNat]
    have h2 := div255A_toNat (mulA (unpackA s) m) (by omega)
    rw [h1] at h2
    have hq := r255_le _ hb
    rw [us _ _ (by rw [unpackA_toNat]; exact hd) (by omega), unpackA_toNat, h2]
    unfold mul255
    rw [round255_eq _ hb]

example : srcOverA 0x80 0x80 = 0xC0 := by decide +kernel

end Blend2D.Comp
