import Verif.Bmp.Rle
import Verif.Bmp.Masks

/-!
# Headers of files
-/
namespace Blend2D.Bmp
open Spec PixConv

theorem rd8_ok {d : List UInt8} {i : Nat} (h : i < d.length) : rd8 d i = .ok (u8 d i) := by
  unfold rd8 u8
  rw [getElem?_getD d i 0 h]

theorem rd16_ok {d : List UInt8} {i : Nat} (h : i + 2 ≤ d.length) : rd16 d i = .ok (u16 d i) := by
  unfold rd16 u16
  rw [rd8_ok (by omega), Res.ok_bind, rd8_ok (by omega), Res.ok_bind]

theorem rd32_ok {d : List UInt8} {i : Nat} (h : i + 4 ≤ d.length) : rd32 d i = .ok (u32 d i) := by
  unfold rd32 u32
  rw [rd16_ok (by omega), Res.ok_bind, rd16_ok (by omega), Res.ok_bind]
  unfold u16
  congr 1
  rw [show i + 2 + 1 = i + 3 from rfl]
  omega

theorem u8_lt (d : List UInt8) (i : Nat) : u8 d i < 256 := UInt8.toNat_lt _

theorem u32_lt (d : List UInt8) (i : Nat) : u32 d i < 2 ^ 32 := by
  have := u8_lt d i
  have := u8_lt d (i + 1)
  have := u8_lt d (i + 2)
  have := u8_lt d (i + 3)
  unfold u32
  omega

theorem readHead_ok {d : List UInt8} (hm : 12 = headerSize d ∨ 40 ≤ headerSize d) (hl : 14 + headerSize d ≤ d.length) :
    readHead d (headerSize d) (offset d) =
      .ok ⟨headerSize d, offset d, width d, height d, planes d, depth d, compression d, imageSize d⟩ := by
  unfold readHead width height planes depth compression imageSize
  split
  · rw [rd16_ok (by omega), Res.ok_bind, rd16_ok (by omega), Res.ok_bind, rd16_ok (by omega), Res.ok_bind, rd16_ok (by omega), Res.ok_bind]
    rfl
  · rw [rd32_ok (by omega), Res.ok_bind, rd32_ok (by omega), Res.ok_bind, rd16_ok (by omega), Res.ok_bind, rd16_ok (by omega), Res.ok_bind,
      rd32_ok (by omega), Res.ok_bind, rd32_ok (by omega), Res.ok_bind]
    rfl

/-- What the headers say. -/
def headOf (d : List UInt8) : Head := ⟨headerSize d, offset d, width d, height d, planes d, depth d, compression d, imageSize d⟩

theorem maskCh_zero : maskCh 0 = ⟨0, 0⟩ := rfl

theorem selects_mask (m : UInt32) (h : m ≠ 0 → consecutive m = true) : Selects m.toNat (maskCh m) := by
  unfold Selects
  by_cases h0 : m = 0
  · rw [h0, maskCh_zero]; rfl
  · exact (maskCh_spec m (h h0)).1

theorem readMask_ok {d : List UInt8} (i : Nat) (hi : i < 4) (hm : headerSize d = 40 ∨ 52 ≤ headerSize d)
    (hv : headerSize d = 40 ∨ headerSize d = 52 ∨ 56 ≤ headerSize d)
    (h40 : headerSize d = 40 → 58 + 4 * i ≤ d.length ∧ (i = 3 → compression d ≠ 3)) (hl : 14 + headerSize d ≤ d.length) :
    readMask d (headerSize d) (40 + 4 * i) = .ok (UInt32.ofNat (mask d i)) := by
  unfold readMask mask
  by_cases h : headerSize d = 40
  · obtain ⟨h1, h2⟩ := h40 h
    rw [if_pos h, rd32_ok (by omega), if_neg (by rintro ⟨k1, k2⟩; have := h2 k1; omega)]
    rw [show 14 + (40 + 4 * i) = 54 + 4 * i by omega]
    rfl
  · rw [if_neg h]
    unfold winField
    by_cases h3 : i = 3 ∧ headerSize d = 52
    · rw [if_neg (by omega), if_pos ⟨h3.1, Or.inr h3.2⟩]
      rfl
    · rw [if_pos (by omega), rd32_ok (by omega), if_neg (by rintro ⟨k1, k2⟩; omega)]
      rw [show 14 + (40 + 4 * i) = 54 + 4 * i by omega]
      rfl

theorem ofNat_mask (d : List UInt8) (i : Nat) : (UInt32.ofNat (mask d i)).toNat = mask d i := by
  rw [UInt32.toNat_ofNat']
  apply Nat.mod_eq_of_lt
  unfold mask
  split
  · omega
  · exact u32_lt _ _

/-- The format of pixels, or an error. -/
theorem readMasks_spec {d : List UInt8} (alpha : Bool) (hM : Masked d) (hm : headerSize d = 40 ∨ headerSize d = 52 ∨ 56 ≤ headerSize d)
    (h40 : headerSize d = 40 → 66 + (if alpha then 4 else 0) ≤ d.length ∧ (alpha = true → compression d ≠ 3))
    (ha : alpha = false → headerSize d = 40 ∧ compression d = 3) (hl : 14 + headerSize d ≤ d.length) :
    readMasks d (headerSize d) (depth d) alpha = .error ∨
      ∃ f, readMasks d (headerSize d) (depth d) alpha = .ok f ∧ Describes d f ∧ (f.a.size ≠ 0 ↔ f.alpha = true) := by
  have ea : readAlpha d (headerSize d) alpha = .ok (UInt32.ofNat (mask d 3)) := by
    cases alpha with
    | false =>
      obtain ⟨h1, h2⟩ := ha rfl
      have : mask d 3 = 0 := by unfold mask; rw [if_pos ⟨rfl, Or.inl ⟨h1, h2⟩⟩]
      rw [this]; rfl
    | true =>
      exact readMask_ok 3 (by omega) (by omega) hm (fun h => ⟨by have := (h40 h).1; simp at this; omega, fun _ => (h40 h).2 rfl⟩) hl
  unfold readMasks
  have l40 : headerSize d = 40 → 66 ≤ d.length := fun h => by have := (h40 h).1; omega
  have e0 := readMask_ok (d := d) 0 (by omega) (by omega) hm (fun h => ⟨by have := l40 h; omega, by omega⟩) hl
  have e1 := readMask_ok (d := d) 1 (by omega) (by omega) hm (fun h => ⟨by have := l40 h; omega, by omega⟩) hl
  have e2 := readMask_ok (d := d) 2 (by omega) (by omega) hm (fun h => ⟨by have := l40 h; omega, by omega⟩) hl
  change readMask d (headerSize d) 40 = _ at e0
  change readMask d (headerSize d) 44 = _ at e1
  change readMask d (headerSize d) 48 = _ at e2
  rw [e0, Res.ok_bind, e1, Res.ok_bind, e2, Res.ok_bind, ea, Res.ok_bind]
  cases hc : checkMasks [(UInt32.ofNat (mask d 0), true), (UInt32.ofNat (mask d 1), true), (UInt32.ofNat (mask d 2), true),
      (UInt32.ofNat (mask d 3), false)] 0 with
  | false => left; rfl
  | true =>
    right
    have C := checkMasks_spec _ _ hc
    refine ⟨_, rfl, ⟨rfl, rfl, ⟨rfl, rfl, rfl⟩, fun _ => ?_, ?_, rfl, fun h => (h hM).elim, fun h => (h hM).elim⟩, ?_⟩
    · have c0 := C _ (by simp : (UInt32.ofNat (mask d 0), true) ∈ _)
      have c1 := C _ (by simp : (UInt32.ofNat (mask d 1), true) ∈ _)
      have c2 := C _ (by simp : (UInt32.ofNat (mask d 2), true) ∈ _)
      have c3 := C _ (by simp : (UInt32.ofNat (mask d 3), false) ∈ _)
      have s0 := selects_mask _ c0.2
      have s1 := selects_mask _ c1.2
      have s2 := selects_mask _ c2.2
      have s3 := selects_mask _ c3.2
      rw [ofNat_mask] at s0 s1 s2 s3
      exact ⟨s0, s1, s2, s3⟩
    · have : UInt32.ofNat (mask d 3) ≠ 0 ↔ mask d 3 ≠ 0 := by
        rw [Ne, ← UInt32.toNat_inj, ofNat_mask]; rfl
      simp only [maskFmt, decide_eq_true_iff, this]
      exact ⟨fun h => ⟨hM, h⟩, fun h => h.2⟩
    · simp only [maskFmt, decide_eq_true_iff]
      have c3 := C _ (by simp : (UInt32.ofNat (mask d 3), false) ∈ _)
      constructor
      · intro h e
        rw [e, maskCh_zero] at h
        exact h rfl
      · intro h
        have := (maskCh_spec _ (c3.2 h)).2.1
        simp only at this
        omega

/-- The format of pixels. -/
theorem readFmt_spec {d : List UInt8} (hm : headerSize d = 12 ∨ headerSize d = 40 ∨ headerSize d = 52 ∨ headerSize d = 56 ∨ headerSize d = 108)
    (hl : 14 + headerSize d ≤ d.length) :
    readFmt d (headOf d) = .error ∨
      ∃ f, readFmt d (headOf d) = .ok f ∧ (depth d ≤ 8 → f = { depth := depth d, rgb := true, indexed := true }) ∧
        (8 < depth d → Describes d f) ∧ (f.a.size ≠ 0 ↔ f.alpha = true) := by
  have E : readFmt d (headOf d) =
      if headerSize d = 40 then
        if compression d = 3 ∨ compression d = 6 then
          (need (decide (depth d = 16 ∨ depth d = 32)) >>= fun _ => need (decide (14 + 40 + (if compression d = 6 then 16 else 12) ≤ d.length)) >>=
            fun _ => readMasks d (headerSize d) (depth d) (decide (compression d = 6)))
        else .ok (plainFmt (depth d))
      else if 8 < depth d ∧ 52 ≤ headerSize d then readMasks d (headerSize d) (depth d) true
      else .ok (plainFmt (depth d)) := rfl
  have plainD : 8 < depth d → ¬ Masked d → Describes d (plainFmt (depth d)) := by
    intro h8 hM
    unfold plainFmt
    rw [if_neg (by omega)]
    by_cases h16 : depth d = 16
    · rw [if_pos h16]
      exact ⟨rfl, rfl, ⟨rfl, rfl, rfl⟩, fun h => (hM h).elim, ⟨fun h => by simp at h, fun h => (hM h.1).elim⟩, rfl,
        fun _ _ => ⟨rfl, rfl, rfl⟩, fun _ h => (h h16).elim⟩
    · rw [if_neg h16]
      exact ⟨rfl, rfl, ⟨rfl, rfl, rfl⟩, fun h => (hM h).elim, ⟨fun h => by simp at h, fun h => (hM h.1).elim⟩, rfl,
        fun _ h => (h16 h).elim, fun _ _ => ⟨rfl, rfl, rfl⟩⟩
  have plainA : (plainFmt (depth d)).a.size ≠ 0 ↔ (plainFmt (depth d)).alpha = true := by
    unfold plainFmt
    split
    · simp
    · split <;> simp
  have plain8 : depth d ≤ 8 → plainFmt (depth d) = { depth := depth d, rgb := true, indexed := true } := by
    intro h; unfold plainFmt; rw [if_pos h]
  rw [E]
  clear E
  by_cases h40 : headerSize d = 40
  · simp only [if_pos h40]
    by_cases hc : compression d = 3 ∨ compression d = 6
    · simp only [if_pos hc]
      by_cases hd : depth d = 16 ∨ depth d = 32
      · rw [need_true (decide_eq_true hd), Res.ok_bind]
        by_cases hlen : 14 + 40 + (if compression d = 6 then 16 else 12) ≤ d.length
        · have hM : Masked d := Or.inl ⟨h40, hc⟩
          have M := readMasks_spec (d := d) (decide (compression d = 6)) hM (Or.inl h40)
            (fun _ => ⟨by by_cases h6 : compression d = 6 <;> simp [h6] at hlen ⊢ <;> omega, fun h => by simp at h; omega⟩)
            (fun h => ⟨h40, by simp at h; omega⟩) hl
          rw [need_true (decide_eq_true hlen), Res.ok_bind]
          rcases M with M | ⟨f, M1, M2, M3⟩
          · exact Or.inl M
          · exact Or.inr ⟨f, M1, fun h => by omega, fun _ => M2, M3⟩
        · left
          rw [decide_eq_false hlen]
          rfl
      · left
        rw [decide_eq_false hd]
        rfl
    · simp only [if_neg hc]
      refine Or.inr ⟨_, rfl, plain8, fun h => plainD h ?_, plainA⟩
      rintro (⟨_, h⟩ | h)
      · exact hc h
      · omega
  · simp only [if_neg h40]
    by_cases h52 : 8 < depth d ∧ 52 ≤ headerSize d
    · simp only [if_pos h52]
      have hM : Masked d := Or.inr h52.2
      have M := readMasks_spec (d := d) true hM (by omega) (fun h => (h40 h).elim) (fun h => by simp at h) hl
      rcases M with M | ⟨f, M1, M2, M3⟩
      · exact Or.inl M
      · exact Or.inr ⟨f, M1, fun h => by omega, fun _ => M2, M3⟩
    · simp only [if_neg h52]
      refine Or.inr ⟨_, rfl, plain8, fun h => plainD h ?_, plainA⟩
      rintro (⟨h, _⟩ | h)
      · exact h40 h
      · exact h52 ⟨by assumption, h⟩

/-- The headers are accepted. -/
structure Accepted (d : List UInt8) : Prop where
  magic : u8 d 0 = 66 ∧ u8 d 1 = 77
  hdr : headerSize d = 12 ∨ headerSize d = 40 ∨ headerSize d = 52 ∨ headerSize d = 56 ∨ headerSize d = 108
  len : 14 + headerSize d ≤ d.length
  head : (headOf d).accepted = true

theorem readInfo_spec (d : List UInt8) :
    readInfo d = .error ∨ ∃ f, Accepted d ∧ readFmt d (headOf d) = .ok f ∧
      readInfo d = .ok ⟨headerSize d, offset d, (width d).toNat, (height d).natAbs, decide (0 < height d), depth d, (headOf d).rle,
        strideOf (width d).toNat (depth d), (headOf d).size, f⟩ := by
  unfold readInfo
  by_cases h18 : 18 ≤ d.length
  · rw [need_true (decide_eq_true h18), Res.ok_bind, rd8_ok (by omega), Res.ok_bind, rd8_ok (by omega), Res.ok_bind]
    by_cases hb : u8 d 0 = 66 ∧ u8 d 1 = 77
    · rw [need_true (decide_eq_true hb), Res.ok_bind, rd32_ok (by omega), Res.ok_bind, rd32_ok (by omega), Res.ok_bind]
      change (need ([12, 40, 52, 56, 108].contains (headerSize d)) >>= fun _ => need (decide (headerSize d ≤ d.length - 14)) >>= fun _ =>
        readHead d (headerSize d) (offset d) >>= _) = _ ∨ ∃ f, _ ∧ _ ∧ (need ([12, 40, 52, 56, 108].contains (headerSize d)) >>= fun _ =>
        need (decide (headerSize d ≤ d.length - 14)) >>= fun _ => readHead d (headerSize d) (offset d) >>= _) = _
      by_cases hm : [12, 40, 52, 56, 108].contains (headerSize d) = true
      · rw [need_true hm, Res.ok_bind]
        simp only [List.contains_cons, List.contains_nil, Bool.or_false, Bool.or_eq_true, beq_iff_eq] at hm
        by_cases hl : headerSize d ≤ d.length - 14
        · rw [need_true (decide_eq_true hl), Res.ok_bind, readHead_ok (by omega) (by omega), Res.ok_bind]
          change (need (headOf d).accepted >>= fun _ => readFmt d (headOf d) >>= _) = _ ∨ ∃ f, _ ∧ _ ∧
            (need (headOf d).accepted >>= fun _ => readFmt d (headOf d) >>= _) = _
          by_cases ha : (headOf d).accepted = true
          · rw [need_true ha, Res.ok_bind]
            rcases readFmt_spec (d := d) (by omega) (by omega) with e | ⟨f, e, -⟩
            · left; rw [e]; rfl
            · right
              refine ⟨f, ⟨hb, by omega, by omega, ha⟩, e, ?_⟩
              rw [e]; rfl
          · left
            rw [Bool.eq_false_iff.2 ha]; rfl
        · left; rw [decide_eq_false hl]; rfl
      · left
        rw [Bool.eq_false_iff.2 hm]; rfl
    · left; rw [decide_eq_false hb]; rfl
  · left; rw [decide_eq_false h18]; rfl

end Blend2D.Bmp
