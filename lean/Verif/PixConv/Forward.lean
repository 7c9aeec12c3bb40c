import Verif.PixConv.Sane

/-!
# Conversions to native formats
-/
namespace Blend2D.PixConv
open Spec Pixel Bits

/-- The native pixel of a foreign pixel. -/
def expected (s : Fmt) (p : Nat) : Nat :=
  if s.rgb ∨ s.lum then
    if s.prem then pack4 (comp s.a p) (comp s.r p) (comp s.g p) (comp s.b p)
    else if s.alpha then
      pack4 (comp s.a p) (r255 (comp s.r p * comp s.a p)) (r255 (comp s.g p * comp s.a p)) (r255 (comp s.b p * comp s.a p))
    else pack4 255 (comp s.r p) (comp s.g p) (comp s.b p)
  else pack4 (comp s.a p) (comp s.a p) (comp s.a p) (comp s.a p)

/-- A pixel of the size of a format. -/
def InRange (s : Fmt) (p : UInt32) : Prop := p.toNat < 2 ^ s.depth

/-- A converter that makes native pixels, the bytes `mask` of them. -/
def Makes (s : Fmt) (c : Conv) (m : Nat) : Prop :=
  (∃ fn : PixFn, c = .map (s.depth / 8) s.swap 4 false fn ∧
    ∀ p : UInt32, InRange s p → (fn.eval p).toNat % m = expected s p.toNat % m) ∨
  (c = .copy 4 ∧ s.depth = 32 ∧ s.swap = false ∧ ∀ p : Nat, p < 2 ^ 32 → p % m = expected s p % m)

theorem comp_byte (k p : Nat) : comp ⟨8, 8 * k⟩ p = p / 256 ^ k % 256 := by
  unfold comp field
  dsimp only
  rw [scale_top 8 _ (by omega) (Nat.mod_lt _ (by omega)), Nat.pow_mul]
  simp

theorem comp_none (c : Ch) (h : c.size = 0) (p : Nat) : comp c p = 0 := by
  unfold comp field scale
  rw [h]
  simp [Nat.mod_one]

theorem foreign_eval {f s : Fmt} (S : Sane f s) (h : s.rgb = true ∨ s.lum = true) (p : UInt32) :
    ((if s.prem then PixFn.fromPrgb (nff s) else if s.alpha then .fromArgb (nff s) else .fromXrgb (nff s)).eval p).toNat =
      expected s p.toNat := by
  unfold expected
  rw [if_pos h]
  split
  · exact fromPrgb_toNat s S.fits p
  · split
    · exact fromArgb_toNat s S.fits p
    · rename_i ha
      exact fromXrgb_toNat s S.fits (by simpa using ha) p

theorem x8_toNat (p : UInt32) (h : p.toNat < 256) :
    ((p * 0x01010101) &&& 0xFFFFFFFF).toNat = pack4 p.toNat p.toNat p.toNat p.toNat := by
  have e : (4294967295 : Nat) = 2 ^ 32 - 1 := by norm_num
  rw [UInt32.toNat_and, UInt32.toNat_mul, show (0xFFFFFFFF : UInt32).toNat = 4294967295 from rfl,
    show (0x01010101 : UInt32).toNat = 16843009 from rfl, e, Nat.and_two_pow_sub_one_eq_mod]
  unfold pack4
  omega

theorem or_FF000000 (x : Nat) (h : x < 2 ^ 32) : x ||| 0xFF000000 = 255 * 16777216 + x % 16777216 := by
  have e : x = (x / 2 ^ 24) * 2 ^ 24 + x % 2 ^ 24 := by omega
  have e2 : (0xFF000000 : Nat) = 255 * 2 ^ 24 + 0 := by simp
  rw [e2]
  conv => lhs; rw [e]
  rw [or_split _ _ _ _ 24 (Nat.mod_lt _ (by omega)) (by omega), Nat.or_zero]
  have h255 : ∀ y : Fin 256, y.val ||| 255 = 255 := by decide +kernel
  rw [h255 ⟨x / 2 ^ 24, by omega⟩]

/-- Grey or alpha pixels of one byte. -/
theorem from8_eval {f s d : Fmt} (S : Sane f s) (hd : d = prgb32 ∨ d = xrgb32) (h8 : s.depth = 8) (ha : s.aligned = true)
    (p : UInt32) (hp : InRange s p) (m : Nat) (hm : d = xrgb32 → m ∣ 2 ^ 24) :
    ((PixFn.fromX8 (if !s.alpha then ~~~rgbMask d else if d.alpha ∧ d.prem then 0 else if d.alpha then rgbMask d else ~~~rgbMask d)
      0xFFFFFFFF).eval p).toNat % m = expected s p.toNat % m := by
  have hp : p.toNat < 256 := by
    unfold InRange at hp
    rw [h8] at hp
    exact hp
  have A := S.aligned ha
  have W := S.within
  simp only [List.mem_cons, List.not_mem_nil, or_false, forall_eq_or_imp, forall_eq] at A W
  have hf8 : f.depth = 8 := by rw [← S.depth, h8]
  rw [hf8] at W
  have byte : ∀ c : Ch, (c.size ≠ 0 → c.size = 8 ∧ c.shift % 8 = 0) → c.shift + c.size ≤ 8 → 1 ≤ c.size → comp c p.toNat = p.toNat := by
    intro c hc hw h1
    have := hc (by omega)
    have e : c = ⟨8, 8 * 0⟩ := by
      cases c
      simp only [Ch.mk.injEq]
      dsimp only at *
      omega
    rw [e, comp_byte]
    omega
  have hx := x8_toNat p hp
  have hfill : ~~~rgbMask d = 0xFF000000 := by rcases hd with rfl | rfl <;> rfl
  have gray : (pack4 p.toNat p.toNat p.toNat p.toNat) % 16777216 = pack4 0 p.toNat p.toNat p.toNat := by
    unfold pack4; omega
  have fillv : (((p * 0x01010101) &&& 0xFFFFFFFF) ||| (0xFF000000 : UInt32)).toNat = pack4 255 p.toNat p.toNat p.toNat := by
    rw [UInt32.toNat_or, hx, show (0xFF000000 : UInt32).toNat = 0xFF000000 from rfl, or_FF000000 _ (by unfold pack4; omega), gray]
    unfold pack4; omega
  rcases S.hasAlpha with ⟨hal, ha1⟩ | ⟨hal, ha0⟩
  · have hsa : s.alpha = true := S.alpha.trans hal
    have ca := byte s.a A.2.2.2 W.2.2.2 ha1
    have nrgb : ¬ (s.rgb = true ∨ s.lum = true) := by
      rw [S.rgb, S.lum]
      rcases S.hasRgb with ⟨-, h1, -⟩ | ⟨h, -⟩
      · exfalso
        have := S.apartA.1
        unfold Apart at this
        have k1 := A.1 (by omega)
        have k2 := A.2.2.2 (by omega)
        omega
      · simp [h]
    unfold expected
    rw [if_neg nrgb, ca]
    rcases hd with rfl | rfl
    · simp only [hsa, Bool.not_true, Bool.false_eq_true, if_false, PixFn.eval, prgb32, and_self, if_true]
      rw [UInt32.toNat_or, hx]
      simp
    · simp only [hsa, Bool.not_true, Bool.false_eq_true, if_false, PixFn.eval]
      rw [if_neg (by simp [xrgb32]), if_neg (by simp [xrgb32]), hfill, fillv]
      have := hm rfl
      obtain ⟨k, hk⟩ := this
      have e1 : pack4 255 p.toNat p.toNat p.toNat = pack4 0 p.toNat p.toNat p.toNat + m * (k * 255) := by
        rw [← Nat.mul_assoc, ← hk]; unfold pack4; omega
      have e2 : pack4 p.toNat p.toNat p.toNat p.toNat = pack4 0 p.toNat p.toNat p.toNat + m * (k * p.toNat) := by
        rw [← Nat.mul_assoc, ← hk]; unfold pack4; omega
      rw [e1, e2, Nat.add_mul_mod_self_left, Nat.add_mul_mod_self_left]
  · have hsa : s.alpha = false := S.alpha.trans hal
    have hsp : s.prem = false := by rw [S.prem, hal]; simp
    rcases S.hasRgb with ⟨hrgb, h1, h2, h3⟩ | ⟨h, -, h1⟩
    · have hrgb : s.rgb = true ∨ s.lum = true := by rw [S.rgb, S.lum]; exact hrgb
      unfold expected
      rw [if_pos hrgb, byte s.r A.1 W.1 h1, byte s.g A.2.1 W.2.1 h2, byte s.b A.2.2.1 W.2.2.1 h3]
      simp only [hsa, hsp, Bool.not_false, if_true, PixFn.eval, hfill, Bool.false_eq_true, if_false]
      rw [fillv]
    · rcases S.any with h' | h' | h' <;> simp_all

theorem initFromForeign_native {s d : Fmt} (hd : d = prgb32 ∨ d = xrgb32) :
    initFromForeign d s = if s.depth = 16 ∨ s.depth = 24 ∨ s.depth = 32 then
      .conv (.map (s.depth / 8) s.swap 4 false
        (if s.prem then .fromPrgb (nff s) else if s.alpha then .fromArgb (nff s) else .fromXrgb (nff s))) else .error := by
  unfold initFromForeign
  rcases hd with rfl | rfl <;> simp [prgb32, xrgb32]

theorem copyOr_eval {s : Fmt} (p : UInt32) (m : Nat) (hm : m ∣ 2 ^ 24 ∨ s.alpha = false) (hr : s.r = ⟨8, 16⟩) (hg : s.g = ⟨8, 8⟩)
    (hb : s.b = ⟨8, 0⟩) (hrgb : s.rgb = true) (hp : s.prem = true ∨ s.alpha = false) (hpa : s.prem = true → s.alpha = true) :
    ((PixFn.copyOr 0xFF000000).eval p).toNat % m = expected s p.toNat % m := by
  have hp32 := p.toNat_lt
  simp only [PixFn.eval, UInt32.toNat_or]
  rw [show (0xFF000000 : UInt32).toNat = 0xFF000000 from rfl, or_FF000000 _ hp32]
  have cr : comp s.r p.toNat = p.toNat / 65536 % 256 := by rw [hr]; exact comp_byte 2 _
  have cg : comp s.g p.toNat = p.toNat / 256 % 256 := by rw [hg]; exact comp_byte 1 _
  have cb : comp s.b p.toNat = p.toNat % 256 := by rw [hb]; exact (comp_byte 0 _).trans (by simp)
  unfold expected
  rw [if_pos (Or.inl hrgb), cr, cg, cb]
  have e : 255 * 16777216 + p.toNat % 16777216 = pack4 255 (p.toNat / 65536 % 256) (p.toNat / 256 % 256) (p.toNat % 256) := by
    unfold pack4; omega
  rw [e]
  by_cases hsp : s.prem = true
  · rw [if_pos hsp]
    rcases hm with ⟨k, hk⟩ | h
    · have e1 : ∀ a r g b : Nat, pack4 a r g b = pack4 0 r g b + m * (k * a) := by
        intro a r g b
        rw [← Nat.mul_assoc, ← hk]; unfold pack4; omega
      rw [e1, e1 (comp s.a p.toNat), Nat.add_mul_mod_self_left, Nat.add_mul_mod_self_left]
    · rw [hpa hsp] at h; simp at h
  · have hsa : s.alpha = false := by rcases hp with h | h; exact absurd h hsp; exact h
    rw [if_neg hsp, if_neg (by simp [hsa])]

theorem premul_eval {s : Fmt} (p : UInt32) (hr : s.r = ⟨8, 16⟩) (hg : s.g = ⟨8, 8⟩)
    (hb : s.b = ⟨8, 0⟩) (ha : s.a = ⟨8, 24⟩) (hrgb : s.rgb = true) (hal : s.alpha = true) (hp : s.prem = false) :
    (premultiply 24 0 p).toNat = expected s p.toNat := by
  have hp32 := p.toNat_lt
  have cr : comp s.r p.toNat = p.toNat / 65536 % 256 := by rw [hr]; exact comp_byte 2 _
  have cg : comp s.g p.toNat = p.toNat / 256 % 256 := by rw [hg]; exact comp_byte 1 _
  have cb : comp s.b p.toNat = p.toNat % 256 := by rw [hb]; exact (comp_byte 0 _).trans (by simp)
  have ca : comp s.a p.toNat = p.toNat / 16777216 % 256 := by rw [ha]; exact comp_byte 3 _
  have e : premultiply 24 0 p = cvtPrgb32FromArgb32With p ((p >>> 24) &&& 0xFF) := by
    unfold premultiply cvtPrgb32FromArgb32With
    simp only [UInt32.or_zero]
    rw [UInt32.or_comm]
    rfl
  have ea : ((p >>> 24) &&& (0xFF : UInt32)).toNat = p.toNat / 16777216 % 256 := by
    rw [UInt32.toNat_and, UInt32.toNat_shiftRight]
    simp only [UInt32.reduceToNat, Nat.shiftRight_eq_div_pow, Nat.reducePow, Nat.reduceMod, and_255]
  rw [e, cvtPrgbWith_toNat _ _ (by rw [ea]; omega), ea]
  unfold expected
  rw [if_pos (Or.inl hrgb), if_neg (by simp [hp]), if_pos hal, cr, cg, cb, ca]

theorem makes_foreign {f s : Fmt} (S : Sane f s) (h : s.rgb = true ∨ s.lum = true) (m : Nat) :
    Makes s (.map (s.depth / 8) s.swap 4 false
        (if s.prem then .fromPrgb (nff s) else if s.alpha then .fromArgb (nff s) else .fromXrgb (nff s))) m :=
  Or.inl ⟨_, rfl, fun p _ => by rw [foreign_eval S h p]⟩

theorem orElse_conv {x y : Init} {c : Conv} (h : x.orElse y = .conv c) : x = .conv c ∨ x = .nothing ∧ y = .conv c := by
  cases x with
  | error => simp [Init.orElse] at h
  | nothing => exact Or.inr ⟨rfl, h⟩
  | conv k => exact Or.inl h

theorem initPlain_some {d s : Fmt} {c : Conv} (h : initPlain d s = some c) : (initDirect d s).orElse (initMulti d s) = .conv c := by
  unfold initPlain at h
  split at h
  · rename_i k hk
    simp only [Option.some.injEq] at h
    rw [hk, h]
  · simp at h

/-- Without a simple conversion: grey and alpha bytes, or the converter for foreign formats. -/
theorem initDirect_native {f s d : Fmt} {c : Conv} (S : Sane f s) (hd : d = prgb32 ∨ d = xrgb32) (h : initPlain d s = some c) :
    (s.depth = 32 ∧ initSimple d s = .conv c) ∨
    (s.depth = 8 ∧ s.aligned = true ∧ c = initFrom8 d s) ∨
    ((s.depth = 16 ∨ s.depth = 24 ∨ s.depth = 32) ∧
      c = .map (s.depth / 8) s.swap 4 false
        (if s.prem then .fromPrgb (nff s) else if s.alpha then .fromArgb (nff s) else .fromXrgb (nff s))) := by
  have h := initPlain_some h
  have hd32 : d.depth = 32 ∧ d.aligned = true ∧ d.rgb = true := by rcases hd with rfl | rfl <;> exact ⟨rfl, rfl, rfl⟩
  have hF := initFromForeign_native (s := s) hd
  have hN : ∀ y : Init, (Init.nothing).orElse y = y := fun _ => rfl
  have hE : ∀ y : Init, (Init.error).orElse y = .error := fun _ => rfl
  have hC : ∀ (k : Conv) (y : Init), (Init.conv k).orElse y = .conv k := fun _ _ => rfl
  unfold initDirect at h
  rw [hF] at h
  rw [if_neg (show ¬ (d.depth = 8 ∧ s.depth = 32) by omega), if_pos (show d.depth = 32 ∧ d.aligned = true from ⟨hd32.1, hd32.2.1⟩), hN] at h
  rcases S.depth_mem with h' | h' | h' | h' | h' | h' | h'
  · rw [S.depth, h', if_neg (by omega), if_neg (by omega), if_neg (by omega)] at h
    simp [hN, hE] at h
  · rw [S.depth, h', if_neg (by omega), if_neg (by omega), if_neg (by omega)] at h
    simp [hN, hE] at h
  · rw [S.depth, h', if_neg (by omega), if_neg (by omega), if_neg (by omega)] at h
    simp [hN, hE] at h
  · have e8 : s.depth = 8 := by rw [S.depth, h']
    rw [e8, if_neg (by omega), hN] at h
    by_cases ha : s.aligned = true
    · rw [if_pos ⟨hd32.1, rfl, ⟨hd32.2.1, ha⟩, hd32.2.2⟩] at h
      simp only [hC, Init.conv.injEq] at h
      exact Or.inr (Or.inl ⟨e8, ha, h.symm⟩)
    · rw [if_neg (fun hh => ha hh.2.2.1.2)] at h
      simp [hN, hE] at h
  · have e : s.depth = 16 := by rw [S.depth, h']
    rw [e, if_neg (by omega), if_neg (by omega), hN, hN, if_pos (by omega)] at h
    simp only [hC, Init.conv.injEq] at h
    rw [e]
    exact Or.inr (Or.inr ⟨by omega, h.symm⟩)
  · have e : s.depth = 24 := by rw [S.depth, h']
    rw [e, if_neg (by omega), if_neg (by omega), hN, hN, if_pos (by omega)] at h
    simp only [hC, Init.conv.injEq] at h
    rw [e]
    exact Or.inr (Or.inr ⟨by omega, h.symm⟩)
  · have e : s.depth = 32 := by rw [S.depth, h']
    rw [e, if_pos (by omega), if_neg (show ¬ (d.depth = 32 ∧ 32 = 8 ∧ _) by omega), hN, if_pos (Or.inr (Or.inr rfl)), hC] at h
    rcases orElse_conv h with h | ⟨h, -⟩
    · rcases orElse_conv h with h | ⟨-, h⟩
      · exact Or.inl ⟨e, h⟩
      · simp only [Init.conv.injEq] at h
        rw [e]
        exact Or.inr (Or.inr ⟨by omega, h.symm⟩)
    · exfalso
      cases hi : initSimple d s <;> rw [hi] at h <;> simp [Init.orElse] at h

theorem sameFlags_iff (d s : Fmt) : sameFlags d s = true ↔
    d.rgb = s.rgb ∧ d.alpha = s.alpha ∧ d.lum = s.lum ∧ d.indexed = s.indexed ∧ d.swap = s.swap ∧ d.aligned = s.aligned ∧ d.undef = s.undef := by
  unfold sameFlags
  exact decide_eq_true_iff

/-- What a pixel converter to `PRGB32` does. -/
theorem prgb32_makes {f s : Fmt} {c : Conv} (S : Sane f s) (hrgb : s.rgb = true ∨ s.lum = true ∨ s.depth = 8)
    (h : initPlain prgb32 s = some c) (m : Nat) : Makes s c m := by
  have hP : s.prem = true → s.alpha = true := by rw [S.prem, S.alpha]; simp
  rcases initDirect_native S (Or.inl rfl) h with ⟨h32, h⟩ | ⟨h8, ha, h⟩ | ⟨hd, h⟩
  · have hrgb : s.rgb = true ∨ s.lum = true := by rcases hrgb with h | h | h; exact Or.inl h; exact Or.inr h; omega
    unfold initSimple at h
    split at h
    · rename_i hl
      obtain ⟨hr, hg, hb⟩ := hl
      split at h
      · rename_i ha
        split at h
        · rename_i hf
          rw [sameFlags_iff] at hf
          simp only [prgb32] at hf
          simp [prgb32] at h
          right
          refine ⟨h.symm, h32, hf.1.2.2.2.2.1.symm, fun p hp => ?_⟩
          unfold expected
          rw [if_pos hrgb, if_pos hf.2.symm, ← ha, ← hr, ← hg, ← hb]
          simp only [prgb32]
          have c3 : comp ⟨8, 24⟩ p = p / 16777216 % 256 := comp_byte 3 p
          have c2 : comp ⟨8, 16⟩ p = p / 65536 % 256 := comp_byte 2 p
          have c1 : comp ⟨8, 8⟩ p = p / 256 % 256 := comp_byte 1 p
          have c0 : comp ⟨8, 0⟩ p = p % 256 := (comp_byte 0 p).trans (by simp)
          rw [c3, c2, c1, c0]
          congr 1
          unfold pack4
          omega
        · split at h
          · rename_i hf
            obtain ⟨-, ⟨hs1, hs2, -⟩, hsame, hpr, -⟩ := hf
            rw [sameFlags_iff] at hsame
            simp only [prgb32] at hsame
            rw [if_pos (show prgb32.prem = true from rfl)] at h
            simp only [Init.conv.injEq] at h
            left
            refine ⟨.premul 24 0, ?_, fun p _ => ?_⟩
            · rw [← h, h32, ← hsame.2.2.2.2.1]; rfl
            · rw [show (PixFn.premul 24 0).eval p = premultiply 24 0 p from rfl,
                premul_eval p hr.symm hg.symm hb.symm ha.symm hs1 hs2 (by simpa [prgb32] using hpr)]
          · simp at h
      · split at h
        · rename_i hf
          obtain ⟨-, -, hs1, hs2⟩ := hf
          split at h
          · rename_i hk
            have hsa : s.alpha = false := by simpa [prgb32] using hk
            simp only [Init.conv.injEq] at h
            left
            refine ⟨.copyOr 0xFF000000, ?_, fun p _ => copyOr_eval p m (Or.inr hsa) hr.symm hg.symm hb.symm hs1 (Or.inr hsa) hP⟩
            rw [← h, h32, S.swapA hs2]
            simp [initCopyOr, prgb32, hsa]
            rfl
          · rw [if_neg (by simp [prgb32])] at h
            simp at h
        · simp at h
    · simp at h
  · left
    refine ⟨_, ?_, fun p hp => from8_eval S (Or.inl rfl) h8 ha p hp m (fun hx => by simp [prgb32, xrgb32] at hx)⟩
    rw [h, h8, S.swap8 (by omega)]
    rfl
  · rw [h]
    exact makes_foreign S (by rcases hrgb with h | h | h; exact Or.inl h; exact Or.inr h; omega) m

/-- What a pixel converter to `XRGB32` does. -/
theorem xrgb32_makes {f s : Fmt} {c : Conv} (S : Sane f s) (hrgb : s.rgb = true ∨ s.lum = true ∨ s.depth = 8)
    (h : initPlain xrgb32 s = some c) (m : Nat) (hm : m ∣ 2 ^ 24) : Makes s c m := by
  have hP : s.prem = true → s.alpha = true := by rw [S.prem, S.alpha]; simp
  have hfill : fillMask xrgb32 = 0xFF000000 := rfl
  rcases initDirect_native S (Or.inr rfl) h with ⟨h32, h⟩ | ⟨h8, ha, h⟩ | ⟨hd, h⟩
  · have hrgb : s.rgb = true ∨ s.lum = true := by rcases hrgb with h | h | h; exact Or.inl h; exact Or.inr h; omega
    unfold initSimple at h
    split at h
    · rename_i hl
      obtain ⟨hr, hg, hb⟩ := hl
      split at h
      · rename_i ha
        split at h
        · rename_i hf
          rw [sameFlags_iff] at hf
          simp only [xrgb32] at hf
          rw [if_pos (by simp [xrgb32])] at h
          simp only [Init.conv.injEq] at h
          have hsa : s.alpha = false := hf.1.2.1.symm
          left
          refine ⟨.copyOr 0xFF000000, ?_, fun p _ => copyOr_eval p m (Or.inl hm) hr.symm hg.symm hb.symm hf.1.1.symm (Or.inr hsa) hP⟩
          rw [← h, h32, ← hf.1.2.2.2.2.1]
          simp only [initCopyOr, hfill, hsa, Bool.and_false, Bool.false_eq_true, if_false]
          simp [xrgb32]
        · rw [if_neg (by simp [xrgb32])] at h
          simp at h
      · rename_i ha
        split at h
        · rename_i hf
          obtain ⟨-, -, hs1, hs2⟩ := hf
          split at h
          · rename_i hk
            have hsp : s.prem = true := by simpa [xrgb32] using hk
            simp only [Init.conv.injEq] at h
            left
            refine ⟨.copyOr 0xFF000000, ?_, fun p _ => copyOr_eval p m (Or.inl hm) hr.symm hg.symm hb.symm hs1 (Or.inl hsp) hP⟩
            rw [← h, h32, S.swapA hs2]
            simp only [initCopyOr, hfill]
            simp [xrgb32]
          · rename_i hk
            have hsp : s.prem = false := by simpa [xrgb32] using hk
            split at h
            · rename_i hk2
              have hsa : s.alpha = true := by simpa [xrgb32] using hk2
              simp only [Init.conv.injEq] at h
              have ea : s.a = ⟨8, 24⟩ := by
                have A := S.aligned hs2
                have W := S.within
                have P := S.apartA
                simp only [List.mem_cons, List.not_mem_nil, or_false, forall_eq_or_imp, forall_eq] at A W
                have h1 : 1 ≤ s.a.size := by
                  rcases S.hasAlpha with ⟨-, h⟩ | ⟨h, -⟩
                  · exact h
                  · rw [S.alpha, h] at hsa; simp at hsa
                have k := A.2.2.2 (by omega)
                rw [← hr, ← hg, ← hb] at P
                simp only [Apart, xrgb32] at P
                have w4 := W.2.2.2
                rw [← S.depth, h32] at w4
                have : s.a.shift = 24 := by omega
                cases hsa : s.a
                rw [hsa] at this k
                simp_all
              left
              refine ⟨.premul 24 0xFF000000, ?_, fun p _ => ?_⟩
              · rw [← h, h32, S.swapA hs2]
                simp [initPremul, xrgb32, ea]
                rfl
              · have e := premul_eval p hr.symm hg.symm hb.symm ea hs1 hsa hsp
                have e2 : (PixFn.premul 24 0xFF000000).eval p = premultiply 24 0 p ||| 0xFF000000 := by
                  simp [PixFn.eval, premultiply]
                rw [e2, ← e, UInt32.toNat_or, show (0xFF000000 : UInt32).toNat = 0xFF000000 from rfl, or_FF000000 _ (UInt32.toNat_lt _)]
                obtain ⟨k, hk⟩ := hm
                generalize (premultiply 24 0 p).toNat = x
                have e3 : 255 * 16777216 + x % 16777216 = x % 16777216 + m * (k * 255) := by
                  rw [← Nat.mul_assoc, ← hk]; omega
                have e4 : x = x % 16777216 + m * (k * (x / 16777216)) := by
                  rw [← Nat.mul_assoc, ← hk]; omega
                rw [e3, Nat.add_mul_mod_self_left]
                conv => rhs; rw [e4, Nat.add_mul_mod_self_left]
            · simp at h
        · simp at h
    · simp at h
  · left
    refine ⟨_, ?_, fun p hp => from8_eval S (Or.inr rfl) h8 ha p hp m (fun _ => hm)⟩
    rw [h, h8, S.swap8 (by omega)]
    rfl
  · rw [h]
    exact makes_foreign S (by rcases hrgb with h | h | h; exact Or.inl h; exact Or.inr h; omega) m

/-! ## Rows -/

theorem slice_lt (n i w : Nat) (row : List UInt8) (hl : row.length = w * n) (hi : i < w) : (slice n i row).length = n := by
  apply slice_length
  rw [hl]
  exact Nat.mul_le_mul_right _ hi

/-- The pixels of the row a converter makes. -/
theorem makes_row {s : Fmt} {c : Conv} {m : Nat} (h : Makes s c m) (hd : s.depth % 8 = 0) (h32 : s.depth ≤ 32) (hm : m ∣ 2 ^ 32)
    (w : Nat) (src : List UInt8) (hl : src.length = w * (s.depth / 8)) :
    ∃ out, c.row w src = some out ∧ out.length = w * 4 ∧
      ∀ i < w, number false (slice 4 i out) % m = expected s (number s.swap (slice (s.depth / 8) i src)) % m := by
  rcases h with ⟨fn, rfl, hfn⟩ | ⟨rfl, h32', hsw, hp⟩
  · obtain ⟨out, h1, h2, h3⟩ := mapRow_some (s.depth / 8) s.swap 4 false fn.eval w src (by omega)
    refine ⟨out, h1, h2, fun i hi => ?_⟩
    have hlen := slice_lt _ i w src hl hi
    have hf := fetch_toNat s.swap (slice (s.depth / 8) i src) (by omega)
    rw [h3 i hi, number_store, show (256 : Nat) ^ 4 = 2 ^ 32 by norm_num, Nat.mod_mod_of_dvd _ hm, hfn, hf]
    unfold InRange
    rw [hf, number_eq]
    have hb := leVal_lt (if s.swap then (slice (s.depth / 8) i src).reverse else slice (s.depth / 8) i src)
    have hl2 : (if s.swap then (slice (s.depth / 8) i src).reverse else slice (s.depth / 8) i src).length = s.depth / 8 := by
      split <;> simp [hlen]
    rw [hl2, show (256 : Nat) = 2 ^ 8 from rfl, ← Nat.pow_mul, show 8 * (s.depth / 8) = s.depth by omega] at hb
    exact hb
  · rw [h32'] at hl
    refine ⟨src, ?_, hl, fun i hi => ?_⟩
    · simp only [Conv.row]
      rw [if_neg (by omega), List.take_of_length_le (by omega)]
    · rw [h32', hsw]
      apply hp
      have hb := leVal_lt (slice 4 i src)
      rw [slice_lt _ i w src hl hi] at hb
      rw [number_eq]
      exact hb

end Blend2D.PixConv
