import Verif.Qoi.Lanes
import Verif.Qoi.Flat
/-! The decoder inverts the encoder: simulation, generic in the pixel codec. -/
namespace Blend2D.Qoi
open Bits Pixel Pixel.Spec
open Comp (P4)

/-! ## Chunks understood by the decoder -/

/-- `bytes` make the decoder store the pixel with unpacked value `u'`, when the current one is `u`. -/
def Chunk (a : Bool) (u : UInt64) (bytes : List UInt8) (u' : UInt64) : Prop :=
  (∃ b bs, bytes = b :: bs ∧ 64 ≤ b) ∧
  ∀ w d rest, d.unpacked = u → d.src = bytes ++ rest → 8 ≤ rest.length →
    step a w d = storePixel a w { d with src := rest, unpacked := u' }

theorem u8_lt_iff (x y : UInt8) : x < y ↔ x.toNat < y.toNat := UInt8.lt_iff_toNat_lt
theorem u8_le_iff (x y : UInt8) : x ≤ y ↔ x.toNat ≤ y.toNat := UInt8.le_iff_toNat_le

theorem chunk_diff (a : Bool) (px p : UInt32) (b0 : UInt8) (i : Nat) (h0 : b0.toNat = 64 + i) (hi : i < 64)
    (h3 : chan 3 px.toNat = chan 3 p.toNat)
    (h1 : (chan 1 px.toNat + (i / 4 % 4 + 254) % 256) % 256 = chan 1 p.toNat)
    (h2 : (chan 2 px.toNat + (i / 16 + 254) % 256) % 256 = chan 2 p.toNat)
    (hb : (chan 0 px.toNat + (i % 4 + 254) % 256) % 256 = chan 0 p.toNat) :
    Chunk a (unpackPx px) [b0] (unpackPx p) := by
  have l := fun k => chan_le k px.toNat
  have l0 := l 0
  have l1 := l 1
  have l2 := l 2
  have l3 := l 3
  refine ⟨⟨b0, [], rfl, by rw [u8_le_iff, h0]; simp⟩, ?_⟩
  intro w d rest hu hsrc hlen
  match rest, hlen with
  | b1 :: rest, hlen =>
    have he : applyDelta d.unpacked b0 b1 = unpackPx p := by
      apply eq_unpack
      rw [hu, applyDelta_diff (unpackPx px) b0 b1 i _ _ _ _ h0 hi (unpackPx_toNat px) (by omega) (by omega) (by omega)
        (by omega), h3, h1, h2, hb]
      rfl
    have c1 : b0 < 0xC0 := by rw [u8_lt_iff, h0]; simp; omega
    have c2 : ¬ b0 < 64 := by rw [u8_lt_iff, h0]; simp
    have c3 : b0.toNat >>> 7 = 0 := by rw [Nat.shiftRight_eq_div_pow]; omega
    unfold step
    rw [hsrc]
    simp only [List.singleton_append, List.length_cons] at hlen ⊢
    rw [if_neg (by omega), if_pos c1, if_neg c2, c3, he]
    rfl

theorem chunk_luma (a : Bool) (px p : UInt32) (b0 b1 : UInt8) (i : Nat) (h0 : b0.toNat = 128 + i) (hi : i < 64)
    (h3 : chan 3 px.toNat = chan 3 p.toNat)
    (h1 : (chan 1 px.toNat + (i + 224) % 256) % 256 = chan 1 p.toNat)
    (h2 : (chan 2 px.toNat + b1.toNat / 16 + (i + 216) % 256) % 256 = chan 2 p.toNat)
    (hb : (chan 0 px.toNat + b1.toNat % 16 + (i + 216) % 256) % 256 = chan 0 p.toNat) :
    Chunk a (unpackPx px) [b0, b1] (unpackPx p) := by
  have l := fun k => chan_le k px.toNat
  have l0 := l 0
  have l1 := l 1
  have l2 := l 2
  have l3 := l 3
  refine ⟨⟨b0, [b1], rfl, by rw [u8_le_iff, h0]; simp; omega⟩, ?_⟩
  intro w d rest hu hsrc hlen
  have he : applyDelta d.unpacked b0 b1 = unpackPx p := by
    apply eq_unpack
    rw [hu, applyDelta_luma (unpackPx px) b0 b1 i _ _ _ _ h0 hi (unpackPx_toNat px) (by omega) (by omega) (by omega)
      (by omega), h3, h1, h2, hb]
    rfl
  have c1 : b0 < 0xC0 := by rw [u8_lt_iff, h0]; simp; omega
  have c2 : ¬ b0 < 64 := by rw [u8_lt_iff, h0]; simp; omega
  have c3 : b0.toNat >>> 7 = 1 := by rw [Nat.shiftRight_eq_div_pow]; omega
  unfold step
  rw [hsrc]
  simp only [List.cons_append, List.nil_append, List.length_cons] at hlen ⊢
  rw [if_neg (by omega), if_pos c1, if_neg c2, c3, he]
  rfl

theorem chunk_rgb (a : Bool) (px p : UInt32) (r g b : UInt8) (h3 : chan 3 px.toNat = chan 3 p.toNat)
    (hr : r.toNat = chan 2 p.toNat) (hg : g.toNat = chan 1 p.toNat) (hb : b.toNat = chan 0 p.toNat) :
    Chunk a (unpackPx px) [0xFE, r, g, b] (unpackPx p) := by
  have l := fun k => chan_le k px.toNat
  have l0 := l 0
  have l1 := l 1
  have l2 := l 2
  have l3 := l 3
  refine ⟨⟨0xFE, _, rfl, by decide⟩, ?_⟩
  intro w d rest hu hsrc hlen
  match rest, hlen with
  | s3 :: rest, hlen =>
    have he : opRGBX d.unpacked (0xFE : UInt8).toUInt32 (unpackRGBA r g b s3) = unpackPx p := by
      apply eq_unpack
      have := opRGB_toNat (unpackPx px) (unpackRGBA r g b s3) _ _ _ _ _ _ _ _ (unpackPx_toNat px)
        (unpackRGBA_toNat r g b s3) (by omega) (by omega) (by omega) (by omega) s3.toNat_lt g.toNat_lt r.toNat_lt
        b.toNat_lt
      rw [hu]
      refine Eq.trans this ?_
      rw [h3, hr, hg, hb]
      rfl
    unfold step
    rw [hsrc]
    simp only [List.cons_append, List.nil_append, List.length_cons] at hlen ⊢
    rw [if_neg (by omega), if_neg (by decide), if_pos (by decide), he]
    rfl

theorem chunk_rgba (a : Bool) (u : UInt64) (p : UInt32) (ua ug ur ub : Nat) (hu : u.toNat = P4 ua ug ur ub)
    (hua : ua < 256) (hug : ug < 256) (hur : ur < 256) (hub : ub < 256) (r g b al : UInt8)
    (h3 : al.toNat = chan 3 p.toNat)
    (hr : r.toNat = chan 2 p.toNat) (hg : g.toNat = chan 1 p.toNat) (hb : b.toNat = chan 0 p.toNat) :
    Chunk a u [0xFF, r, g, b, al] (unpackPx p) := by
  refine ⟨⟨0xFF, _, rfl, by decide⟩, ?_⟩
  intro w d rest hud hsrc hlen
  have he : opRGBX d.unpacked (0xFF : UInt8).toUInt32 (unpackRGBA r g b al) = unpackPx p := by
    apply eq_unpack
    have := opRGBA_toNat u (unpackRGBA r g b al) _ _ _ _ _ _ _ _ hu
      (unpackRGBA_toNat r g b al) hua hug hur hub al.toNat_lt g.toNat_lt r.toNat_lt b.toNat_lt
    rw [hud]
    refine Eq.trans this ?_
    rw [h3, hr, hg, hb]
    rfl
  unfold step
  rw [hsrc]
  simp only [List.cons_append, List.nil_append, List.length_cons] at hlen ⊢
  rw [if_neg (by omega), if_neg (by decide), if_pos (by decide), he]
  rfl

/-! ## The generic simulation -/

/-- What a pixel codec must satisfy, with `img q` the decoded pixel that stands for source pixel `q`. -/
structure Sim {σ} (c : Codec σ) (a : Bool) (valid : UInt32 → Prop) (img : UInt32 → UInt32)
    (Rel : σ → Dec → Prop) : Prop where
  frame : ∀ s d src x h out, Rel s d → Rel s { d with src := src, x := x, h := h, out := out }
  same : ∀ s d q, Rel s d → valid q → c.same s (c.load q) = true → d.packed = img q
  emit : ∀ s d q, Rel s d → valid q → c.same s (c.load q) = false →
    (∃ i, i < 64 ∧ (c.emit s (c.load q)).1 = [UInt8.ofNat i] ∧ d.packedTable i = img q ∧
      Rel (c.emit s (c.load q)).2 { d with packed := d.packedTable i, unpacked := d.unpackedTable i }) ∨
    (∃ u', Chunk a d.unpacked (c.emit s (c.load q)).1 u' ∧ packPx a u' = img q ∧
      Rel (c.emit s (c.load q)).2
        { d with unpacked := u', packed := packPx a u',
                 unpackedTable := upd d.unpackedTable (hash64 u') u',
                 packedTable := upd d.packedTable (hash64 u') (packPx a u') })

/-- Resume the loop after an iteration. -/
def resume (a : Bool) (w : Nat) : Res → Res
  | .more d => dec a w d
  | r => r

/-- Process one INDEX chunk without looking at the chunk that follows it. -/
def cont (a : Bool) (w : Nat) (d : Dec) : Res :=
  match d.src with
  | [] => .ub
  | b :: rest =>
    match put { d with packed := d.packedTable b.toNat, unpacked := d.unpackedTable b.toNat, src := rest }
      (d.packedTable b.toNat) with
    | none => .ub
    | some d => resume a w (if d.x ≠ 0 then .more d else endRow w d)

theorem resume_next {a : Bool} {w R : Nat} {d0 : Dec} {res : Res} (h : Next w d0 R res) :
    (R = 0 ∧ resume a w res = .done d0.out) ∨
    (R ≠ 0 ∧ ∃ x hh, At w { d0 with x := x, h := hh } R ∧
      resume a w res = dec a w { d0 with x := x, h := hh }) := by
  rcases h with ⟨a1, b⟩ | ⟨a1, x, hh, b, c⟩
  · subst b; exact Or.inl ⟨a1, rfl⟩
  · subst b; exact Or.inr ⟨a1, x, hh, c, rfl⟩

theorem dec_eq_resume {a : Bool} {w R : Nat} {d : Dec} (h : At w d R) : dec a w d = resume a w (step a w d) := by
  match hs : step a w d with
  | .more d' => exact dec_more h hs
  | .done out => exact dec_done hs
  | .truncated out => unfold dec loop; rw [hs]; rfl
  | .ub => unfold dec loop; rw [hs]; rfl

theorem cont_cases {a : Bool} {w R : Nat} {d : Dec} {b : UInt8} {rest : List UInt8} (h : At w d R)
    (hs : d.src = b :: rest) :
    (R - 1 = 0 ∧ cont a w d = .done (d.out ++ [d.packedTable b.toNat])) ∨
    (R - 1 ≠ 0 ∧ ∃ x hh,
      At w { d with packed := d.packedTable b.toNat, unpacked := d.unpackedTable b.toNat, src := rest,
                    out := d.out ++ [d.packedTable b.toNat], x := x, h := hh } (R - 1) ∧
      cont a w d = dec a w { d with packed := d.packedTable b.toNat, unpacked := d.unpackedTable b.toNat,
                                    src := rest, out := d.out ++ [d.packedTable b.toNat], x := x, h := hh }) := by
  obtain ⟨d', e1, n1⟩ := put_next w R { d with packed := d.packedTable b.toNat,
                                                unpacked := d.unpackedTable b.toNat,
                                                src := rest } (d.packedTable b.toNat) h
  unfold cont
  rw [hs]
  simp only
  rw [e1]
  exact resume_next n1

theorem dec_index_cases {a : Bool} {w R : Nat} {d : Dec} {b b1 : UInt8} {rest : List UInt8} (h : At w d R)
    (hs : d.src = b :: b1 :: rest) (hb : b < 64) (hl : 7 ≤ rest.length) :
    (R - 1 = 0 ∧ dec a w d = .done (d.out ++ [d.packedTable b.toNat])) ∨
    (R - 1 ≠ 0 ∧ ∃ x hh d1,
      d1 = { d with packed := d.packedTable b.toNat, unpacked := d.unpackedTable b.toNat, src := b1 :: rest,
                    out := d.out ++ [d.packedTable b.toNat], x := x, h := hh } ∧
      At w d1 (R - 1) ∧ (dec a w d = dec a w d1 ∨ (b1 < 64 ∧ dec a w d = cont a w d1))) := by
  obtain ⟨d', e1, n1⟩ := put_next w R { d with packed := d.packedTable b.toNat,
                                                unpacked := d.unpackedTable b.toNat,
                                                src := b1 :: rest } (d.packedTable b.toNat) h
  have c1 : b < 0xC0 := by rw [u8_lt_iff] at hb ⊢; simp at hb ⊢; omega
  have hstep : step a w d =
      (if d'.x ≠ 0 then
        if ¬ b1 < 64 then .more d'
        else
          match put { d' with packed := d'.packedTable b1.toNat, unpacked := d'.unpackedTable b1.toNat,
                              src := rest } (d'.packedTable b1.toNat) with
          | none => .ub
          | some d => if d.x ≠ 0 then .more d else endRow w d
      else endRow w d') := by
    unfold step
    rw [hs]
    simp only [List.length_cons]
    rw [if_neg (by omega), if_pos c1, if_pos hb, e1]
    rfl
  rw [dec_eq_resume h, hstep]
  by_cases hx : d'.x ≠ 0
  · rw [if_pos hx] at n1
    simp only [if_pos hx]
    rcases n1 with ⟨_, b⟩ | ⟨hne, x, hh, e, hat⟩
    · cases b
    · cases e
      refine Or.inr ⟨hne, x, hh, _, rfl, hat, ?_⟩
      by_cases h1 : b1 < 64
      · right
        refine ⟨h1, ?_⟩
        rw [if_neg (by simpa using h1)]
        unfold cont
        simp only
        split <;> rfl
      · left
        rw [if_pos h1]
        rfl
  · rw [if_neg hx] at n1
    simp only [if_neg hx]
    rcases resume_next (a := a) n1 with ⟨a1, b⟩ | ⟨a1, x, hh, hat, b⟩
    · exact Or.inl ⟨a1, b⟩
    · exact Or.inr ⟨a1, x, hh, _, rfl, hat, Or.inl b⟩

theorem decRuns {a : Bool} {w : Nat} : ∀ (fuel n R : Nat) (d : Dec) (tl : List UInt8), n ≤ fuel → 1 ≤ n → n ≤ R →
    At w d R → d.src = emitRuns fuel n ++ tl → 8 ≤ tl.length →
    (R - n = 0 ∧ dec a w d = .done (d.out ++ List.replicate n d.packed)) ∨
    (R - n ≠ 0 ∧ ∃ x h, At w { d with src := tl, out := d.out ++ List.replicate n d.packed, x := x, h := h } (R - n) ∧
      dec a w d = dec a w { d with src := tl, out := d.out ++ List.replicate n d.packed, x := x, h := h }) := by
  intro fuel
  induction fuel with
  | zero => intro n R d tl h h1; omega
  | succ fuel ih =>
    intro n R d tl hf h1 hR hat hsrc hl
    unfold emitRuns at hsrc
    simp only [List.cons_append] at hsrc
    obtain ⟨run, hrun⟩ : ∃ r, r = min n 62 := ⟨_, rfl⟩
    rw [← hrun] at hsrc
    have hr62 : run ≤ 62 := by omega
    have hr1 : 1 ≤ run := by omega
    have hrn : run ≤ n := by omega
    obtain ⟨more, hmore⟩ : ∃ m, m = (if n - run ≠ 0 then emitRuns fuel (n - run) else []) ++ tl := ⟨_, rfl⟩
    rw [← hmore] at hsrc
    have hml : 8 ≤ more.length := by rw [hmore, List.length_append]; omega
    have hb : (UInt8.ofNat (run + 0xBF)).toNat = run + 191 := by
      rw [UInt8.toNat_ofNat']; omega
    have c1 : ¬ (UInt8.ofNat (run + 0xBF)) < 0xC0 := by rw [u8_lt_iff, hb]; simp; omega
    have c2 : ¬ (UInt8.ofNat (run + 0xBF)) ≥ 0xFE := by rw [ge_iff_le, u8_le_iff, hb]; simp; omega
    have hstep : step a w d = storeRle w d.h run { d with src := more } := by
      unfold step
      rw [hsrc]
      match more, hml with
      | b1 :: rest, hml =>
        simp only [List.length_cons] at hml ⊢
        rw [if_neg (by omega), if_neg c1, if_neg c2, hb, and_63]
        congr 1; omega
    have hn := storeRle_next w d.h run { d with src := more } R rfl hat hr1
    rw [← hstep] at hn
    have hmin : min run R = run := by omega
    rw [hmin] at hn
    rcases dec_next hat hn with ⟨z, e⟩ | ⟨z, x, hh, hat', e⟩
    · have : run = n := by omega
      subst this
      exact Or.inl ⟨z, e⟩
    · by_cases hrest : n - run ≠ 0
      · rw [if_pos hrest] at hmore
        have := ih (n - run) (R - run)
          { d with src := more, out := d.out ++ List.replicate run d.packed, x := x, h := hh } tl (by omega) (by omega)
          (by omega) hat' hmore hl
        simp only at this
        rw [← e, show R - run - (n - run) = R - n by omega, List.append_assoc, List.replicate_append_replicate,
          show run + (n - run) = n by omega] at this
        exact this
      · rw [if_neg hrest, List.nil_append] at hmore
        have : run = n := by omega
        subst this
        subst hmore
        exact Or.inr ⟨z, x, hh, hat', e⟩

/-- The decoder recovers the pixels from the encoder's output. -/
theorem sim_spec {σ} {c : Codec σ} {a : Bool} {valid : UInt32 → Prop} {img : UInt32 → UInt32}
    {Rel : σ → Dec → Prop} (S : Sim c a valid img Rel) (hpos : ∀ s p, 1 ≤ (c.emit s p).1.length) (w : Nat)
    (tail : List UInt8) (htail : 8 ≤ tail.length)
    {s : σ} {ps : List UInt32} {bytes : List UInt8} (henc : Enc c s ps bytes) :
    ps ≠ [] → (∀ q ∈ ps, valid q) → ∀ d, Rel s d → At w d ps.length → d.src = bytes ++ tail →
      dec a w d = .done (d.out ++ ps.map img) ∧
      ((∃ b bs, bytes = b :: bs ∧ b < 64) → cont a w d = .done (d.out ++ ps.map img)) := by
  induction henc with
  | nil => intro h; exact absurd rfl h
  | run s run rest bytes hne hsame _ ih =>
    intro _ hv d hrel hat hsrc
    have hl : 1 ≤ run.length := List.length_pos_iff.mpr hne
    rw [List.append_assoc] at hsrc
    have hrep : run.map img = List.replicate run.length d.packed := by
      rw [List.map_eq_replicate_iff]
      intro q hq
      exact (S.same s d q hrel (hv q (by simp [hq])) (hsame q hq)).symm
    constructor
    · have := decRuns (a := a) run.length run.length (run ++ rest).length d (bytes ++ tail) (Nat.le_refl _) hl
        (by simp) hat hsrc (by rw [List.length_append]; omega)
      rw [List.length_append, Nat.add_sub_cancel_left] at this
      rcases this with ⟨z, e⟩ | ⟨z, x, h, hat', e⟩
      · have : rest = [] := List.length_eq_zero_iff.mp z
        subst this
        rw [e, List.append_nil, hrep]
      · have hr : rest ≠ [] := by intro h; subst h; simp at z
        have := (ih hr (fun q hq => hv q (by simp [hq])) _ (S.frame s d (bytes ++ tail) x h
          (d.out ++ List.replicate run.length d.packed) hrel) hat' rfl).1
        rw [e, this, List.map_append, hrep, List.append_assoc]
    · intro ⟨b, bs, e, hb⟩
      exfalso
      obtain ⟨k, hk⟩ : ∃ k, run.length = k + 1 := ⟨run.length - 1, by omega⟩
      rw [hk] at e
      unfold emitRuns at e
      simp only [List.cons_append, List.cons.injEq] at e
      rw [← e.1, u8_lt_iff, UInt8.toNat_ofNat'] at hb
      simp at hb
      omega
  | px s q rest bytes hns henc ih =>
    intro _ hv d hrel hat hsrc
    rw [List.append_assoc] at hsrc
    have hvr : ∀ y ∈ rest, valid y := fun y hy => hv y (by simp [hy])
    have hbl : rest ≠ [] → 1 ≤ bytes.length := fun h => henc.length_pos hpos h
    rcases S.emit s d q hrel (hv q (by simp)) hns with ⟨i, hi, hbytes, hpt, hrel'⟩ | ⟨u', hch, hpk, hrel'⟩
    · rw [hbytes] at hsrc ⊢
      have hb : (UInt8.ofNat i).toNat = i := by rw [UInt8.toNat_ofNat']; omega
      have hb64 : UInt8.ofNat i < 64 := by rw [u8_lt_iff, hb]; simpa using hi
      simp only [List.cons_append, List.nil_append] at hsrc
      have hlen : (q :: rest).length - 1 = rest.length := by simp
      constructor
      · obtain ⟨b1, rs, hbt⟩ : ∃ b1 rs, bytes ++ tail = b1 :: rs := by
          match hx : bytes ++ tail with
          | [] => have := congrArg List.length hx; simp at this; have := this.2; subst this; simp at htail
          | b1 :: rs => exact ⟨b1, rs, rfl⟩
        have hlr : 7 ≤ rs.length := by
          have := congrArg List.length hbt; simp at this; omega
        rw [hbt] at hsrc
        rcases dec_index_cases (a := a) hat hsrc hb64 hlr with ⟨z, e⟩ | ⟨z, x, hh, d1, hd1, hat', e⟩
        · rw [hlen] at z
          have : rest = [] := List.length_eq_zero_iff.mp z
          subst this
          rw [e, hb, hpt]; rfl
        · rw [hlen] at z hat'
          have hr : rest ≠ [] := by intro h; subst h; simp at z
          rw [hb] at hd1
          have hrel1 := S.frame _ _ (b1 :: rs) x hh (d.out ++ [d.packedTable i]) hrel'
          have := ih hr hvr d1 (by rw [hd1]; exact hrel1) hat' (by rw [hd1]; exact hbt.symm)
          have hout : d1.out = d.out ++ [img q] := by rw [hd1, ← hpt]
          have hfin : d1.out ++ rest.map img = d.out ++ (q :: rest).map img := by
            rw [hout]; simp
          rw [hfin] at this
          rcases e with e | ⟨hb1, e⟩
          · rw [e]; exact this.1
          · rw [e]
            refine this.2 ?_
            match bytes, hbl hr, hbt with
            | b :: bs, _, hbt =>
              simp only [List.cons_append, List.cons.injEq] at hbt
              exact ⟨b, bs, rfl, by rw [hbt.1]; exact hb1⟩
      · intro _
        rcases cont_cases (a := a) hat hsrc with ⟨z, e⟩ | ⟨z, x, hh, hat', e⟩
        · rw [hlen] at z
          have : rest = [] := List.length_eq_zero_iff.mp z
          subst this
          rw [e, hb, hpt]; rfl
        · rw [hlen] at z hat'
          have hr : rest ≠ [] := by intro h; subst h; simp at z
          rw [hb] at e hat'
          have hrel1 := S.frame _ _ (bytes ++ tail) x hh (d.out ++ [d.packedTable i]) hrel'
          have := (ih hr hvr _ hrel1 hat' rfl).1
          rw [e]
          refine Eq.trans this ?_
          simp [hpt]
    · have hlen : (q :: rest).length - 1 = rest.length := by simp
      obtain ⟨⟨b0, bs0, hb0, hb64⟩, hstep⟩ := hch
      constructor
      · have hst := hstep w d (bytes ++ tail) rfl hsrc (by rw [List.length_append]; omega)
        have hn := storePixel_next a w _ { d with src := bytes ++ tail, unpacked := u' } hat
        rw [← hst, hlen] at hn
        rcases dec_next hat hn with ⟨z, e⟩ | ⟨z, x, hh, hat', e⟩
        · have : rest = [] := List.length_eq_zero_iff.mp z
          subst this
          rw [e]
          simp [hpk]
        · have hr : rest ≠ [] := by intro h; subst h; simp at z
          have hrel1 := S.frame _ _ (bytes ++ tail) x hh (d.out ++ [packPx a u']) hrel'
          have := (ih hr hvr _ hrel1 hat' rfl).1
          rw [e]
          refine Eq.trans this ?_
          simp [hpk]
      · intro ⟨b, bs, e, hb⟩
        exfalso
        rw [hb0] at e
        simp only [List.cons_append, List.cons.injEq] at e
        rw [← e.1, u8_lt_iff] at hb
        rw [u8_le_iff] at hb64
        simp at hb hb64
        omega

end Blend2D.Qoi
