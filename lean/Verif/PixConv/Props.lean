import Verif.PixConv.Backward

/-!
# C52: converting pixels keeps their colours
-/
namespace Blend2D.PixConv
open Spec Pixel Bits
open Pixel.Spec (chan Nearest)

theorem sanitize_prgb32 : sanitize prgb32 = some prgb32 := by decide +kernel
theorem sanitize_xrgb32 : sanitize xrgb32 = some xrgb32 := by decide +kernel

theorem create_plain {dst src : Fmt} {dc : Bool} {c : Conv} (h : create dst src dc = some c) (hi : src.indexed = false) :
    ∃ d s, sanitize dst = some d ∧ sanitize src = some s ∧ s.indexed = false ∧ initPlain d s = some c := by
  unfold create at h
  obtain ⟨d, hd, h⟩ := Option.bind_eq_some_iff.1 h
  obtain ⟨s, hs, h⟩ := Option.bind_eq_some_iff.1 h
  have hsi : s.indexed = false := by
    obtain ⟨acc, -, -, -, rfl⟩ := sanitize_some hs hi
    simp only [finish]
    split
    · split
      · exact hi
      · split <;> exact hi
    · exact hi
  refine ⟨d, s, hd, hs, hsi, ?_⟩
  split at h
  · simp at h
  · rw [hsi] at h
    simpa using h

theorem expected_color {f s : Fmt} (S : Sane f s) (l : List UInt8) (hl : 8 * l.length = f.depth) :
    ∃ q : Color, Premultiplied f (number f.swap l) q ∧ expected s (number s.swap l) = native q := by
  obtain ⟨er, eg, eb, ea⟩ := S.field l hl
  obtain ⟨zr, zg, zb, za⟩ := S.sizes
  have cr : comp s.r (number s.swap l) = scale f.r.size 8 (field f.r (number f.swap l)) := by unfold comp; rw [er, zr]
  have cg : comp s.g (number s.swap l) = scale f.g.size 8 (field f.g (number f.swap l)) := by unfold comp; rw [eg, zg]
  have cb : comp s.b (number s.swap l) = scale f.b.size 8 (field f.b (number f.swap l)) := by unfold comp; rw [eb, zb]
  have ca : comp s.a (number s.swap l) = scale f.a.size 8 (field f.a (number f.swap l)) := by unfold comp; rw [ea, za]
  generalize number f.swap l = p at *
  have lr := comp_lt s.r (number s.swap l)
  have lg := comp_lt s.g (number s.swap l)
  have lb := comp_lt s.b (number s.swap l)
  have la := comp_lt s.a (number s.swap l)
  have near : ∀ x y : Nat, x < 256 → y < 256 → Nearest (r255 (x * y)) (x * y) 255 := fun x y hx hy =>
    r255_nearest _ (byte_mul_le (by omega) (by omega))
  have self : ∀ x : Nat, Nearest x (255 * x) 255 := fun x => by unfold Nearest; omega
  have opaq : ∀ x : Nat, Nearest x (x * 255) 255 := fun x => by unfold Nearest; omega
  unfold expected
  have hrl : (s.rgb = true ∨ s.lum = true) ↔ (f.rgb = true ∨ f.lum = true) := by rw [S.rgb, S.lum]
  by_cases h : s.rgb = true ∨ s.lum = true
  · have hf := hrl.1 h
    rw [if_pos h]
    by_cases hp : s.prem = true
    · rw [if_pos hp]
      have hpf : f.prem = true ∧ f.alpha = true := by have := S.prem; rw [hp] at this; simpa using this.symm
      refine ⟨color f p, ⟨fun _ => rfl, fun hn => absurd ⟨hpf.2, hpf.1, hf⟩ hn⟩, ?_⟩
      unfold pack4 native color
      simp only [hpf.2, if_true]
      rw [if_pos hf, if_pos hf, if_pos hf, cr, cg, cb, ca]
    · rw [if_neg hp]
      by_cases ha : s.alpha = true
      · rw [if_pos ha]
        have haf : f.alpha = true := by rw [← S.alpha]; exact ha
        have hnp : ¬ isPremultiplied f := by
          rintro ⟨-, h2, -⟩
          apply hp
          rw [S.prem, h2, haf]; rfl
        refine ⟨⟨_, _, _, _⟩, ⟨fun hh => absurd hh hnp, fun _ => ?_⟩, rfl⟩
        unfold Times color
        simp only [haf, if_true]
        rw [if_pos hf, if_pos hf, if_pos hf, ← cr, ← cg, ← cb, ← ca]
        exact ⟨near _ _ lr la, near _ _ lg la, near _ _ lb la, rfl⟩
      · rw [if_neg ha]
        have haf : f.alpha = false := by rw [← S.alpha]; simpa using ha
        have hnp : ¬ isPremultiplied f := by
          rintro ⟨h2, -⟩
          rw [haf] at h2; simp at h2
        refine ⟨⟨_, _, _, _⟩, ⟨fun hh => absurd hh hnp, fun _ => ?_⟩, rfl⟩
        unfold Times color
        simp only [haf, Bool.false_eq_true, if_false]
        rw [if_pos hf, if_pos hf, if_pos hf, ← cr, ← cg, ← cb]
        exact ⟨opaq _, opaq _, opaq _, trivial⟩
  · have hf : ¬ (f.rgb = true ∨ f.lum = true) := fun k => h (hrl.2 k)
    rw [if_neg h]
    have hnp : ¬ isPremultiplied f := fun k => hf k.2.2
    have haf : f.alpha = true := by
      rcases S.any with k | k | k
      · exact absurd (Or.inl k) hf
      · exact absurd (Or.inr k) hf
      · exact k
    refine ⟨⟨_, _, _, _⟩, ⟨fun hh => absurd hh hnp, fun _ => ?_⟩, rfl⟩
    unfold Times color
    simp only [haf, if_true]
    rw [if_neg hf, if_neg hf, if_neg hf, ← ca]
    exact ⟨self _, self _, self _, rfl⟩

theorem expected_lt (s : Fmt) (p : Nat) : expected s p < 2 ^ 32 := by
  have ka := comp_lt s.a p
  have kr := comp_lt s.r p
  have kg := comp_lt s.g p
  have kb := comp_lt s.b p
  have r1 := r255_le _ (byte_mul_le (Nat.le_of_lt_succ kr) (Nat.le_of_lt_succ ka))
  have r2 := r255_le _ (byte_mul_le (Nat.le_of_lt_succ kg) (Nat.le_of_lt_succ ka))
  have r3 := r255_le _ (byte_mul_le (Nat.le_of_lt_succ kb) (Nat.le_of_lt_succ ka))
  unfold expected
  split
  · split
    · unfold pack4; omega
    · split <;> unfold pack4 <;> omega
  · unfold pack4; omega

theorem native_depth {f s d : Fmt} {c : Conv} (S : Sane f s) (hd : d = prgb32 ∨ d = xrgb32) (h : initPlain d s = some c) :
    s.depth % 8 = 0 ∧ s.depth ≤ 32 := by
  rcases initDirect_native S hd h with ⟨h, -⟩ | ⟨h, -⟩ | ⟨h, -⟩ <;> omega

theorem send_depth {f d n : Fmt} {c : Conv} (D : Sane f d) (hn : n = prgb32 ∨ n = xrgb32 ∧ f.alpha = false)
    (h : initPlain d n = some c) : f.depth % 8 = 0 := by
  have hn' : n.depth = 32 ∧ n.aligned = true ∧ n.r = ⟨8, 16⟩ ∧ n.g = ⟨8, 8⟩ ∧ n.b = ⟨8, 0⟩ := by
    rcases hn with rfl | ⟨rfl, -⟩ <;> exact ⟨rfl, rfl, rfl, rfl, rfl⟩
  obtain ⟨n32, nal, nr, ng, nb⟩ := hn'
  by_contra hc
  have hd : d.depth = 1 ∨ d.depth = 2 ∨ d.depth = 4 := by
    have := D.depth
    rcases D.depth_mem with h | h | h | h | h | h | h <;> omega
  have : initDirect d n = .error := by
    unfold initDirect
    rw [if_neg (by omega), if_neg (by omega), if_neg (by omega), if_neg (by omega), if_pos ⟨n32, nal⟩]
    unfold initToForeign
    rw [if_neg (by simp [nr, ng, nb]), if_neg (by omega)]
    rfl
  unfold initPlain at h
  rw [this] at h
  simp [Init.orElse] at h

/-- **C52**: a converter to `PRGB32` makes from every row of pixels of an accepted format the premultiplied colours of the pixels:
components of any size and place are scaled to 8 bits, and multiplied by alpha, exactly rounded, if they are not yet.

Partial: byte-swapped formats must have a component that spans two bytes, or only whole bytes (`C52_byte_swap_counterexample`), and
formats without colour must have 8 bits (`C52_alpha_16_counterexample`). -/
theorem C52_to_prgb32_partial (f : Fmt) (dc : Bool) (c : Conv) (h : create prgb32 f dc = some c) (hi : f.indexed = false)
    (hs : SwapOk f) (hrgb : f.rgb = true ∨ f.lum = true ∨ f.depth = 8) (w : Nat) (src : List UInt8)
    (hl : src.length = w * (f.depth / 8)) :
    ∃ out, c.row w src = some out ∧ out.length = w * 4 ∧
      ∀ i < w, ∃ q : Color, Premultiplied f (pixel f src i) q ∧ pixel prgb32 out i = native q := by
  obtain ⟨d, s, hd, hss, hsi, hp⟩ := create_plain h hi
  rw [sanitize_prgb32] at hd
  obtain rfl : prgb32 = d := by simpa using hd
  have S := sane hss hi hs
  have hdep := native_depth S (Or.inl rfl) hp
  have M := prgb32_makes S (by rw [S.rgb, S.lum, S.depth]; exact hrgb) hp (2 ^ 32)
  obtain ⟨out, h1, h2, h3⟩ := makes_row M hdep.1 hdep.2 (Nat.dvd_refl _) w src (by rw [S.depth]; exact hl)
  refine ⟨out, h1, h2, fun i hi' => ?_⟩
  have hlen := slice_lt _ i w src hl hi'
  have hd8 : 8 * (slice (f.depth / 8) i src).length = f.depth := by
    rw [hlen]; have := S.depth; omega
  obtain ⟨q, hq1, hq2⟩ := expected_color S (slice (f.depth / 8) i src) hd8
  refine ⟨q, hq1, ?_⟩
  have h3 := h3 i hi'
  rw [S.depth, hq2] at h3
  have hb := leVal_lt (slice 4 i out)
  rw [slice_lt 4 i w out h2 hi'] at hb
  have hq32 : native q < 2 ^ 32 := by rw [← hq2]; exact expected_lt _ _
  rw [Nat.mod_eq_of_lt hq32] at h3
  rw [← h3]
  show number false (slice 4 i out) = _
  rw [Nat.mod_eq_of_lt (by rw [number_eq]; exact hb)]

/-- **C52**: a converter to `XRGB32` makes the same colours; the fourth byte of a pixel has no meaning. Partial in the same way. -/
theorem C52_to_xrgb32_partial (f : Fmt) (dc : Bool) (c : Conv) (h : create xrgb32 f dc = some c) (hi : f.indexed = false)
    (hs : SwapOk f) (hrgb : f.rgb = true ∨ f.lum = true ∨ f.depth = 8) (w : Nat) (src : List UInt8)
    (hl : src.length = w * (f.depth / 8)) :
    ∃ out, c.row w src = some out ∧ out.length = w * 4 ∧
      ∀ i < w, ∃ q : Color, Premultiplied f (pixel f src i) q ∧ pixel xrgb32 out i % 2 ^ 24 = native q % 2 ^ 24 := by
  obtain ⟨d, s, hd, hss, hsi, hp⟩ := create_plain h hi
  rw [sanitize_xrgb32] at hd
  obtain rfl : xrgb32 = d := by simpa using hd
  have S := sane hss hi hs
  have hdep := native_depth S (Or.inr rfl) hp
  have M := xrgb32_makes S (by rw [S.rgb, S.lum, S.depth]; exact hrgb) hp (2 ^ 24) (Nat.dvd_refl _)
  obtain ⟨out, h1, h2, h3⟩ := makes_row M hdep.1 hdep.2 (by decide) w src (by rw [S.depth]; exact hl)
  refine ⟨out, h1, h2, fun i hi' => ?_⟩
  have hlen := slice_lt _ i w src hl hi'
  have hd8 : 8 * (slice (f.depth / 8) i src).length = f.depth := by
    rw [hlen]; have := S.depth; omega
  obtain ⟨q, hq1, hq2⟩ := expected_color S (slice (f.depth / 8) i src) hd8
  refine ⟨q, hq1, ?_⟩
  have h3 := h3 i hi'
  rw [S.depth, hq2] at h3
  exact h3

/-- A 16-bit format with components of 5, 6 and 5 bits. -/
def rgb565 : Fmt := { depth := 16, rgb := true, r := ⟨5, 11⟩, g := ⟨6, 5⟩, b := ⟨5, 0⟩ }

/-- A 16-bit format with components of 5 bits. -/
def rgb555 : Fmt := { depth := 16, rgb := true, r := ⟨5, 10⟩, g := ⟨5, 5⟩, b := ⟨5, 0⟩ }

/-- A 16-bit format with components of 5 bits and one bit of alpha, not premultiplied, most significant byte first. -/
def argb1555be : Fmt := { depth := 16, rgb := true, alpha := true, swap := true, a := ⟨1, 15⟩, r := ⟨5, 10⟩, g := ⟨5, 5⟩, b := ⟨5, 0⟩ }

example : (create prgb32 rgb565 false).isSome ∧ SwapOk rgb565 ∧ (create xrgb32 argb1555be true).isSome ∧ SwapOk argb1555be := by
  refine ⟨by decide +kernel, ?_, by decide +kernel, ?_⟩
  · intro h; simp [rgb565] at h
  · intro _
    left
    exact ⟨⟨5, 5⟩, by simp [argb1555be], by decide, by decide⟩

example : ((create prgb32 rgb565 false).bind fun c => c.row 2 [0x00, 0xF8, 0x1F, 0x04]) =
    some [0x00, 0x00, 0xFF, 0xFF, 0xFF, 0x82, 0x00, 0xFF] := by decide +kernel

/-- **C52**: a converter from `PRGB32` stores in every component of a pixel the leading bits of the component of the colour,
divided by alpha, exactly rounded, if the format is not premultiplied; the same from `XRGB32` to formats without alpha.

Partial: byte-swapped formats as above, luminance formats (`C52_luminance_counterexample`), and alpha from `XRGB32`
(`C52_opaque_counterexample`). -/
theorem C52_from_native_partial (f n : Fmt) (dc : Bool) (c : Conv) (h : create f n dc = some c)
    (hn : n = prgb32 ∨ n = xrgb32 ∧ f.alpha = false) (hi : f.indexed = false) (hs : SwapOk f) (hrgb : f.rgb = true) (hlum : f.lum = false)
    (w : Nat) (src : List UInt8) (hl : src.length = w * 4)
    (hv : f.alpha = true → f.prem = false → ∀ i < w, Valid (color prgb32 (pixel n src i))) :
    ∃ out, c.row w src = some out ∧ out.length = w * (f.depth / 8) ∧
      ∀ i < w, ∃ q : Color, Stores f (pixel f out i) q ∧
        (f.alpha = true ∧ f.prem = false → Over (color prgb32 (pixel n src i)) q) ∧
        (¬ (f.alpha = true ∧ f.prem = false) → q = color prgb32 (pixel n src i)) := by
  have hni : n.indexed = false := by rcases hn with rfl | ⟨rfl, -⟩ <;> rfl
  have hnsw : n.swap = false := by rcases hn with rfl | ⟨rfl, -⟩ <;> rfl
  have hnd : n.depth / 8 = 4 := by rcases hn with rfl | ⟨rfl, -⟩ <;> rfl
  obtain ⟨d, s, hd, hss, hsi, hp⟩ := create_plain h hni
  have hns : sanitize n = some n := by rcases hn with rfl | ⟨rfl, -⟩; exact sanitize_prgb32; exact sanitize_xrgb32
  rw [hns] at hss
  obtain rfl : n = s := by simpa using hss
  have D := sane hd hi hs
  have M := native_sends D hrgb hlum hn hp
  have hcol : ∀ p, color prgb32 p = nativeColor p := by
    intro p
    have c3 : scale 8 8 (field ⟨8, 24⟩ p) = chan 3 p := comp_byte 3 p
    have c2 : scale 8 8 (field ⟨8, 16⟩ p) = chan 2 p := comp_byte 2 p
    have c1 : scale 8 8 (field ⟨8, 8⟩ p) = chan 1 p := comp_byte 1 p
    have c0 : scale 8 8 (field ⟨8, 0⟩ p) = chan 0 p := comp_byte 0 p
    unfold color nativeColor
    simp only [prgb32, true_or, if_true, c3, c2, c1, c0]
  have hdp : d.alpha = true → d.prem = false → f.alpha = true ∧ f.prem = false := by
    intro h1 h2
    rw [D.alpha] at h1
    have := D.prem
    rw [h2, h1] at this
    exact ⟨h1, by simpa using this.symm⟩
  have hcond : (d.alpha && !d.prem) = true ↔ f.alpha = true ∧ f.prem = false := by
    constructor
    · intro h
      simp only [Bool.and_eq_true, Bool.not_eq_true'] at h
      exact hdp h.1 h.2
    · rintro ⟨h1, h2⟩
      rw [D.alpha, D.prem, h1, h2]; rfl
  have hval : d.alpha = true → d.prem = false → ∀ i < w, Pixel.Spec.Premultiplied (pixel n src i) := by
    intro h1 h2 i hi k hk
    obtain ⟨v1, v2, v3⟩ := hv (hdp h1 h2).1 (hdp h1 h2).2 i hi
    rw [hcol] at v1 v2 v3
    simp only [nativeColor] at v1 v2 v3
    obtain rfl | rfl | rfl : k = 0 ∨ k = 1 ∨ k = 2 := by omega
    exacts [v3, v2, v1]
  have hover : ∀ i < w, (f.alpha = true ∧ f.prem = false → Over (color prgb32 (pixel n src i)) (outColor d (pixel n src i))) ∧
        (¬ (f.alpha = true ∧ f.prem = false) → outColor d (pixel n src i) = color prgb32 (pixel n src i)) := by
    intro i hi
    refine ⟨fun hh => ?_, fun hh => ?_⟩
    · have hc := hcond.2 hh
      have hc' := hc
      simp only [Bool.and_eq_true, Bool.not_eq_true'] at hc'
      have hpm := hval hc'.1 hc'.2 i hi
      rw [hcol]
      unfold outColor
      rw [if_pos hc]
      refine ⟨rfl, fun hne => ?_⟩
      simp only [nativeColor] at hne ⊢
      have l := fun k => chan_le k (pixel n src i)
      have l3 := l 3
      have t := fun k (hk : k < 3) =>
        (unp_table (chan 3 (pixel n src i)) (by omega) (chan k (pixel n src i)) (by have := l k; omega) (hpm k hk)).2.2 hne
      exact ⟨t 2 (by omega), t 1 (by omega), t 0 (by omega)⟩
    · rw [hcol]
      unfold outColor
      rw [if_neg (fun hc => hh (hcond.1 hc))]
  have hst : ∀ (i : Nat) (out : List UInt8) (q : Color), out.length = w * (f.depth / 8) → i < w → f.depth % 8 = 0 →
      Fields d (number d.swap (slice (f.depth / 8) i out)) q → Stores f (pixel f out i) q := by
    intro i out q h1 h2 h3 h4
    have hlen := slice_lt _ i w out h1 h2
    obtain ⟨er, eg, eb, ea⟩ := D.field (slice (f.depth / 8) i out) (by omega)
    obtain ⟨zr, zg, zb, za⟩ := D.sizes
    obtain ⟨k1, k2, k3, k4⟩ := h4
    unfold Stores pixel
    rw [← er, ← eg, ← eb, ← ea, ← zr, ← zg, ← zb, ← za]
    exact ⟨k1, k2, k3, k4⟩
  have hmod : ∀ (v : Nat) (q : Color), f.depth % 8 = 0 → Fields d v q → Fields d (v % 256 ^ (f.depth / 8)) q := by
    intro v q h8 hf
    have W := D.within
    simp only [List.mem_cons, List.not_mem_nil, or_false, forall_eq_or_imp, forall_eq] at W
    have e : (256 : Nat) ^ (f.depth / 8) = 2 ^ f.depth := by
      rw [show (256 : Nat) = 2 ^ 8 from rfl, ← Nat.pow_mul]; congr 1; omega
    have key : ∀ k : Ch, k.shift + k.size ≤ f.depth → field k (v % 2 ^ f.depth) = field k v := by
      intro k hk
      unfold field
      apply Nat.eq_of_testBit_eq
      intro j
      simp only [Nat.testBit_mod_two_pow, Nat.testBit_div_two_pow]
      by_cases hj : j < k.size
      · simp only [hj, decide_true, Bool.true_and]
        rw [decide_eq_true (by omega), Bool.true_and]
      · simp [hj]
    rw [e]
    unfold Fields
    rw [key _ W.1, key _ W.2.1, key _ W.2.2.1, key _ W.2.2.2]
    exact hf
  have hd8 : f.depth % 8 = 0 := send_depth D hn hp
  rcases M with ⟨fn, rfl, hfn⟩ | ⟨rfl, h32, hsw, hf⟩
  · obtain ⟨out, h1, h2, h3⟩ := mapRow_some 4 false (d.depth / 8) d.swap fn.eval w src (by omega)
    rw [D.depth] at h2
    refine ⟨out, h1, h2, fun i hi' => ⟨outColor d (pixel n src i), ?_, hover i hi'⟩⟩
    apply hst i out _ h2 hi' hd8
    have h3 := h3 i hi'
    rw [D.depth] at h3
    rw [h3, number_store]
    apply hmod _ _ hd8
    have hlen := slice_lt 4 i w src hl hi'
    have hfe := fetch_toNat false (slice 4 i src) (by omega)
    have hpx : pixel n src i = (fetch false (slice 4 i src)).toNat := by
      unfold pixel; rw [hfe, hnsw, hnd]
    rw [hpx]
    apply hfn
    intro a1 a2
    rw [← hpx]
    exact hval a1 a2 i hi'
  · have hf32 : f.depth = 32 := by rw [← D.depth]; exact h32
    refine ⟨src, ?_, by rw [hl, hf32], fun i hi' => ⟨outColor d (pixel n src i), ?_, hover i hi'⟩⟩
    · simp only [Conv.row]
      rw [if_neg (by omega), List.take_of_length_le (by omega)]
    · apply hst i src _ (by rw [hl, hf32]) hi' hd8
      rw [hsw, hf32]
      have := hf (pixel n src i)
      unfold pixel at this ⊢
      rw [hnsw, hnd] at this ⊢
      exact this

example : (create argb1555be prgb32 false).isSome ∧ (create rgb565 xrgb32 false).isSome := by decide +kernel

example : ((create argb1555be prgb32 false).bind fun c => c.row 2 [0x80, 0x00, 0x40, 0x80, 0xFF, 0xFF, 0x00, 0xFF]) =
    some [0xC0, 0x1F, 0x83, 0xFF] := by decide +kernel

/-- Scaling a component to 8 bits and back changes nothing. -/
theorem scale_back (m : Nat) (hm : m ≤ 8) (v : Nat) (hv : v < 2 ^ m) : scale 8 m (scale m 8 v) = v := by
  have t : ∀ m : Fin 9, ∀ v : Fin 256, v.val < 2 ^ m.val → scale 8 m.val (scale m.val 8 v.val) = v.val := by decide +kernel
  have hv' : v < 256 := Nat.lt_of_lt_of_le hv (Nat.pow_le_pow_right (by omega) hm : 2 ^ m ≤ 2 ^ 8)
  exact t ⟨m, by omega⟩ ⟨v, hv'⟩ hv

/-- **C52**: converted to `PRGB32` and back, every component of every pixel of a format with up to 8 bits per component is the same,
if it has no alpha or is premultiplied. -/
theorem C52_roundtrip_partial (f : Fmt) (dc dc' : Bool) (c c' : Conv) (h : create prgb32 f dc = some c) (h' : create f prgb32 dc' = some c')
    (hi : f.indexed = false) (hs : SwapOk f) (hrgb : f.rgb = true) (hlum : f.lum = false) (hp : f.alpha = false ∨ f.prem = true)
    (h8 : f.r.size ≤ 8 ∧ f.g.size ≤ 8 ∧ f.b.size ≤ 8 ∧ f.a.size ≤ 8) (w : Nat) (src : List UInt8) (hl : src.length = w * (f.depth / 8)) :
    ∃ mid out, c.row w src = some mid ∧ c'.row w mid = some out ∧ out.length = src.length ∧
      ∀ i < w, field f.r (pixel f out i) = field f.r (pixel f src i) ∧ field f.g (pixel f out i) = field f.g (pixel f src i) ∧
        field f.b (pixel f out i) = field f.b (pixel f src i) ∧
        (f.alpha = true → field f.a (pixel f out i) = field f.a (pixel f src i)) := by
  obtain ⟨mid, e1, l1, p1⟩ := C52_to_prgb32_partial f dc c h hi hs (Or.inl hrgb) w src hl
  have hnp : ¬ (f.alpha = true ∧ f.prem = false) := by
    rintro ⟨a, b⟩
    rcases hp with hp | hp
    · rw [a] at hp; simp at hp
    · rw [b] at hp; simp at hp
  obtain ⟨out, e2, l2, p2⟩ := C52_from_native_partial f prgb32 dc' c' h' (Or.inl rfl) hi hs hrgb hlum w mid l1
    (fun a b => absurd ⟨a, b⟩ hnp)
  refine ⟨mid, out, e1, e2, by rw [l2, hl], fun i hi' => ?_⟩
  obtain ⟨q, hq1, hq2⟩ := p1 i hi'
  obtain ⟨q', ⟨s1, s2, s3, s4⟩, -, hq'⟩ := p2 i hi'
  obtain rfl := hq' hnp
  have lt : ∀ m v, scale m 8 v ≤ 255 := fun m v => Nat.min_le_left _ _
  -- the colour in between
  have hq : q.r = (color f (pixel f src i)).r ∧ q.g = (color f (pixel f src i)).g ∧ q.b = (color f (pixel f src i)).b ∧
      q.a = (color f (pixel f src i)).a := by
    by_cases k : isPremultiplied f
    · rw [hq1.1 k]; exact ⟨rfl, rfl, rfl, rfl⟩
    · have ha : f.alpha = false := by
        rcases hp with hp | hp
        · exact hp
        · by_contra hc
          exact k ⟨by simpa using hc, hp, Or.inl hrgb⟩
      obtain ⟨n1, n2, n3, n4⟩ := hq1.2 k
      have hca : (color f (pixel f src i)).a = 255 := by simp [color, ha]
      rw [hca] at n1 n2 n3
      unfold Nearest at n1 n2 n3
      exact ⟨by omega, by omega, by omega, n4⟩
  have hle : q.r ≤ 255 ∧ q.g ≤ 255 ∧ q.b ≤ 255 ∧ q.a ≤ 255 := by
    obtain ⟨q1, q2, q3, q4⟩ := hq
    rw [q1, q2, q3, q4]
    unfold color
    simp only [hrgb, true_or, if_true]
    refine ⟨lt _ _, lt _ _, lt _ _, ?_⟩
    split
    · exact lt _ _
    · exact Nat.le_refl _
  have hcol : color prgb32 (pixel prgb32 mid i) = q := by
    rw [hq2]
    obtain ⟨r, g, b, a⟩ := q
    simp only at hle
    have c3 : ∀ p, scale 8 8 (field ⟨8, 24⟩ p) = chan 3 p := comp_byte 3
    have c2 : ∀ p, scale 8 8 (field ⟨8, 16⟩ p) = chan 2 p := comp_byte 2
    have c1 : ∀ p, scale 8 8 (field ⟨8, 8⟩ p) = chan 1 p := comp_byte 1
    have c0 : ∀ p, scale 8 8 (field ⟨8, 0⟩ p) = chan 0 p := comp_byte 0
    unfold color
    simp only [prgb32, true_or, if_true, c3, c2, c1, c0, Color.mk.injEq]
    unfold chan native
    simp only
    refine ⟨?_, ?_, ?_, ?_⟩ <;> omega
  rw [hcol] at s1 s2 s3 s4
  have fl : ∀ k p, field k p < 2 ^ k.size := fun k p => Nat.mod_lt _ (Nat.pos_of_ne_zero (by positivity))
  obtain ⟨q1, q2, q3, q4⟩ := hq
  rw [q1] at s1
  rw [q2] at s2
  rw [q3] at s3
  rw [q4] at s4
  unfold color at s1 s2 s3 s4
  simp only [hrgb, true_or, if_true] at s1 s2 s3 s4
  refine ⟨?_, ?_, ?_, fun ha => ?_⟩
  · rw [s1, scale_back _ h8.1 _ (fl _ _)]
  · rw [s2, scale_back _ h8.2.1 _ (fl _ _)]
  · rw [s3, scale_back _ h8.2.2.1 _ (fl _ _)]
  · rw [if_pos ha] at s4
    rw [s4, scale_back _ h8.2.2.2 _ (fl _ _)]

example : rgb565.r.size ≤ 8 ∧ rgb565.g.size ≤ 8 ∧ rgb565.b.size ≤ 8 ∧ rgb565.a.size ≤ 8 := by decide

/-! ## Where the code does not keep the colour -/

/-- A 16-bit format with components of 4 bits, byte-swapped. -/
def rgb444be : Fmt := { depth := 16, rgb := true, swap := true, r := ⟨4, 8⟩, g := ⟨4, 4⟩, b := ⟨4, 0⟩ }

/-- **C52** (counterexample): a byte-swapped format without a component that spans two bytes is read with the halves of its bytes
exchanged: the pixel with the number `0x0123` has the components 1, 2 and 3, and they become 0, 3 and 2. -/
theorem C52_byte_swap_counterexample :
    (field rgb444be.r 0x0123, field rgb444be.g 0x0123, field rgb444be.b 0x0123) = (1, 2, 3) ∧
    pixel rgb444be [0x01, 0x23] 0 = 0x0123 ∧
    ((create prgb32 rgb444be false).bind fun c => c.row 1 [0x01, 0x23]) = some [0x22, 0x33, 0x00, 0xFF] := by
  decide +kernel

/-- A format of 16 bits of alpha. -/
def a16 : Fmt := { depth := 16, alpha := true, a := ⟨16, 0⟩ }

/-- **C52** (counterexample): 16 bits of alpha become black instead of white. -/
theorem C52_alpha_16_counterexample :
    ((create prgb32 a16 false).bind fun c => c.row 1 [0xFF, 0xFF]) = some [0x00, 0x00, 0x00, 0xFF] ∧
    ((create prgb32 a8 false).bind fun c => c.row 1 [0xFF]) = some [0xFF, 0xFF, 0xFF, 0xFF] := by
  decide +kernel

/-- **C52** (counterexample): from one format that is not native to another the converter that is created has no second function to
call. -/
theorem C52_two_formats_counterexample :
    ∃ c, create rgb555 rgb565 false = some c ∧ ∀ w src, c.row w src = none := by
  have h : ∃ k, create rgb555 rgb565 false = some (.multi k none) := by
    have := (by decide +kernel : ((create rgb555 rgb565 false).bind fun c => match c with | .multi _ none => some () | _ => none) = some ())
    obtain ⟨c, h1, h2⟩ := Option.bind_eq_some_iff.1 this
    cases c with
    | multi k s =>
      cases s with
      | none => exact ⟨k, h1⟩
      | some s => simp at h2
    | _ => simp at h2
  obtain ⟨k, h⟩ := h
  refine ⟨_, h, fun w src => ?_⟩
  simp only [Conv.row]
  cases k.row w src <;> rfl

/-- A format of 16 bits of luminance. -/
def lum16 : Fmt := { depth := 16, lum := true, r := ⟨16, 0⟩, g := ⟨16, 0⟩, b := ⟨16, 0⟩ }

/-- **C52** (counterexample): the luminance of a colour is the bitwise or of its components: 1, 2 and 4 give 7. -/
theorem C52_luminance_counterexample :
    ((create lum16 prgb32 false).bind fun c => c.row 1 [0x04, 0x02, 0x01, 0xFF]) = some [0x07, 0x07] := by decide +kernel

/-- A 16-bit format with one bit of alpha. -/
def argb1555 : Fmt := { argb1555be with swap := false }

/-- **C52** (counterexample): the meaningless byte of an `XRGB32` pixel becomes alpha. -/
theorem C52_opaque_counterexample :
    ((create argb1555 xrgb32 false).bind fun c => c.row 2 [0xFF, 0xFF, 0xFF, 0x00, 0xFF, 0xFF, 0xFF, 0xFF]) =
      some [0x00, 0x00, 0xFF, 0xFF] := by decide +kernel

/-- The 32-bit format with alpha that is not premultiplied. -/
def argb32 : Fmt := { prgb32 with prem := false }

/-- **C52** (counterexample): a 16-bit format with alpha becomes premultiplied `ARGB32`: a transparent white pixel becomes black. -/
theorem C52_argb32_counterexample :
    ((create argb32 argb1555 false).bind fun c => c.row 1 [0xFF, 0x7F]) = some [0x00, 0x00, 0x00, 0x00] ∧
    color argb1555 0x7FFF = ⟨255, 255, 255, 0⟩ := by
  refine ⟨by decide +kernel, ?_⟩
  unfold color
  simp only [Color.mk.injEq]
  decide +kernel

/-- A palette of two colours, transparent and almost transparent. -/
def twoAlphas : Fmt := { depth := 1, alpha := true, indexed := true, palette := [0x00000000, 0x01000000] }

/-- **C52** (counterexample): one bit per pixel, the alphas 0 and 1 become 0 and 255. -/
theorem C52_one_bit_counterexample :
    ((create a8 twoAlphas false).bind fun c => c.row 8 [0x55]) =
      some [0x00, 0xFF, 0x00, 0xFF, 0x00, 0xFF, 0x00, 0xFF] := by decide +kernel

end Blend2D.PixConv
