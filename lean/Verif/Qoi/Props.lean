import Verif.Qoi.Codecs
import Verif.Qoi.Spec
/-!
# Properties of the QOI codec

C01 round trip, C02 decoder safety for arbitrary bytes, C03 encoder output bound.
-/
namespace Blend2D.Qoi
open Bits Pixel Pixel.Spec Spec
open Comp (P4)

/-! ## C02 -/

theorem decodeData_safe (a : Bool) (w h : Nat) (pt : Nat → UInt32) (src : List UInt8) (hw : 1 ≤ w) (hh : 1 ≤ h)
    (hs : src ≠ []) :
    (∃ out, decodeData a w h pt src = .done out ∧ out.length = w * h) ∨
    (∃ out, decodeData a w h pt src = .truncated out ∧ out.length < w * h) := by
  match src, hs with
  | b0 :: rest, _ =>
    have e : w + (h - 1) * w = w * h := by
      obtain ⟨k, rfl⟩ : ∃ k, h = k + 1 := ⟨h - 1, by omega⟩
      rw [Nat.add_sub_cancel, Nat.mul_add, Nat.mul_one, Nat.mul_comm]; omega
    unfold decodeData
    simp only
    split <;>
    · refine loop_good a w (w * h) _ _ (w * h) ⟨hw, Nat.le_refl _, hh, e⟩ (by simp) ?_
      simp

/-- C02 (decoder safety): for every byte sequence whatsoever, decoding terminates and either reports an error or
yields an image with every one of its `w × h` pixels written exactly once and dimensions within the supported range.
In particular no read outside the input, no write outside a row of the destination and no table access out of
bounds ever happens (the outcome `ub` is impossible). -/
theorem C02_decoder_safe (data : List UInt8) :
    (∃ format w h pixels, decodeFile data = .ok format w h pixels ∧ pixels.length = w * h ∧
      1 ≤ w ∧ w ≤ 65535 ∧ 1 ≤ h ∧ h ≤ 65535) ∨
    (∃ code, decodeFile data = .error code) := by
  unfold decodeFile
  split
  · rename_i m0 m1 m2 m3 w0 w1 w2 w3 h0 h1 h2 h3 channels colorspace body
    simp only
    generalize be32 w0 w1 w2 w3 = w
    generalize be32 h0 h1 h2 h3 = h
    split
    · exact Or.inr ⟨_, rfl⟩
    · split
      · exact Or.inr ⟨_, rfl⟩
      · rename_i hz
        split
        · exact Or.inr ⟨_, rfl⟩
        · split
          · exact Or.inr ⟨_, rfl⟩
          · split
            · exact Or.inr ⟨_, rfl⟩
            · rename_i hbig
              split
              · exact Or.inr ⟨_, rfl⟩
              · rename_i hb
                have hne : body ≠ [] := by intro e; subst e; simp at hb
                rcases decodeData_safe (decide (channels = 4)) w h
                    (fun _ => if channels = 4 then 0 else 0xFF000000) body (by omega) (by omega)
                    hne with ⟨out, e, hl⟩ | ⟨out, e, hl⟩
                · left
                  rw [e]
                  exact ⟨_, _, _, _, rfl, hl, by omega, by omega, by omega, by omega⟩
                · right
                  rw [e]
                  exact ⟨_, rfl⟩
  · exact Or.inr ⟨_, rfl⟩

/-- C02, the other half: a truncated stream is reported, never silently accepted - if decoding succeeds, at least
one byte beyond the 14-byte header and the 8-byte end marker was present. -/
theorem C02_no_success_without_data (data : List UInt8) (h : data.length < 23) :
    ∃ code, decodeFile data = .error code := by
  rcases C02_decoder_safe data with ⟨f, w, hh, px, e, hl, h1, _, h3, _⟩ | h
  · exfalso
    unfold decodeFile at e
    split at e
    · rename_i m0 m1 m2 m3 w0 w1 w2 w3 h0 h1 h2 h3 channels colorspace body
      simp only [List.length_cons] at h
      simp only at e
      have hb : body.length < 9 := by omega
      split at e
      · cases e
      split at e
      · cases e
      split at e
      · cases e
      split at e
      · cases e
      split at e
      · cases e
      split at e
      · cases e
      match body, hb with
      | [], _ => simp [decodeData] at e
      | b0 :: rest, hb =>
        unfold decodeData loop step at e
        simp only [List.length_cons] at hb e
        by_cases hc : (decide (b0 ≥ 0xC0) && decide (b0 < 0xC0 + 62)) = true
        · simp only [if_pos hc, List.length_cons, if_pos hb] at e
          cases e
        · simp only [if_neg hc, List.length_cons, if_pos hb] at e
          cases e
    · cases e
  · exact h

/-- Arbitrary garbage after a valid header: the decoder survives it (here it produces an image). -/
example : ∃ px, decodeFile ([0x71, 0x6F, 0x69, 0x66, 0, 0, 0, 2, 0, 0, 0, 1, 4, 0] ++
    [0x7F, 0xFE, 1, 2, 3, 9, 9, 9, 9, 9, 9, 9, 9]) = .ok .prgb32 2 1 px := by
  refine ⟨[0xFF010101, 0xFF010203], ?_⟩
  decide +kernel

/-! ## C03 -/

theorem rows_flatten_length {w h : Nat} {rows : List (List UInt32)} (wf : WellFormed w h rows) :
    rows.flatten.length = w * h := by
  obtain ⟨hl, hr⟩ := wf
  subst hl
  induction rows with
  | nil => simp
  | cons r rows ih =>
    have h1 := hr r (by simp)
    have h2 := ih (fun r' hr' => hr r' (by simp [hr']))
    simp only [List.flatten_cons, List.length_append, List.length_cons, h1, h2, Nat.mul_add, Nat.mul_one]
    omega

theorem encodeFile_bytes (f : Format) (w h : Nat) (rows : List (List UInt32)) (hw : 1 ≤ w) (hh : 1 ≤ h)
    (wf : WellFormed w h rows) :
    ∃ body, encodeFile f w h rows = some (([0x71, 0x6F, 0x69, 0x66] ++ putBe32 w ++ putBe32 h ++
        [if f = .xrgb32 then 3 else 4, 0]) ++ body ++ endMarker) ∧
      match f with
      | .a8 => Enc codecA8 {} rows.flatten body
      | .xrgb32 => Enc codecX {} rows.flatten body
      | .prgb32 => Enc codecP {} rows.flatten body := by
  unfold encodeFile
  cases f with
  | prgb32 =>
    obtain ⟨b, e, henc⟩ := encodeData_spec codecP {} w h rows hw hh wf.1 wf.2
    exact ⟨b, by simp only [e, Option.map_some], henc⟩
  | xrgb32 =>
    obtain ⟨b, e, henc⟩ := encodeData_spec codecX {} w h rows hw hh wf.1 wf.2
    exact ⟨b, by simp only [e, Option.map_some], henc⟩
  | a8 =>
    obtain ⟨b, e, henc⟩ := encodeData_spec codecA8 {} w h rows hw hh wf.1 wf.2
    exact ⟨b, by simp only [e, Option.map_some], henc⟩

/-- C03 (encoder bound): for every image the encoder terminates without reading outside the image, and the number of
bytes it writes never exceeds the size it reserved in the output array, `w*h*(channels + 1) + 14 + 8`. -/
theorem C03_encoder_bound (f : Format) (w h : Nat) (rows : List (List UInt32)) (hw : 1 ≤ w) (hh : 1 ≤ h)
    (wf : WellFormed w h rows) :
    ∃ bytes, encodeFile f w h rows = some bytes ∧ bytes.length ≤ maxSize f w h := by
  obtain ⟨body, e, henc⟩ := encodeFile_bytes f w h rows hw hh wf
  refine ⟨_, e, ?_⟩
  have hn := rows_flatten_length wf
  have hb : body.length ≤ w * h * ((if f = .xrgb32 then 3 else 4) + 1) := by
    cases f with
    | prgb32 =>
      have := henc.length_le 5 (by omega) (fun s p => (emitP_len s p).2)
      rw [hn] at this; simpa using this
    | xrgb32 =>
      have := henc.length_le 4 (by omega) (fun s p => (emitX_len s p).2)
      rw [hn] at this; simpa using this
    | a8 =>
      have := henc.length_le 5 (by omega) (fun s p => (emitA8_len s p).2)
      rw [hn] at this; simpa using this
  unfold maxSize
  simp only [List.length_append, putBe32, endMarker, List.length_cons, List.length_nil]
  omega

/-- The bound is reached: an image whose pixels all need the long form. -/
example : (encodeFile .prgb32 2 1 [[0x80000000, 0x70001000]]).map List.length = some (maxSize .prgb32 2 1) := by
  decide +kernel

/-! ## C01 -/

theorem be32_put (v : Nat) (h : v ≤ 65535) :
    be32 (UInt8.ofNat (v / 16777216)) (UInt8.ofNat (v / 65536)) (UInt8.ofNat (v / 256)) (UInt8.ofNat v) = v := by
  unfold be32
  simp only [UInt8.toNat_ofNat']
  omega

theorem decodeFile_header (w h : Nat) (ch : UInt8) (body : List UInt8) (hw : 1 ≤ w) (hw' : w ≤ 65535) (hh : 1 ≤ h)
    (hh' : h ≤ 65535) (hc : ch = 3 ∨ ch = 4) (hb : body ≠ []) (out : List UInt32)
    (hd : decodeData (decide (ch = 4)) w h (fun _ => if ch = 4 then 0 else 0xFF000000) body = .done out) :
    decodeFile (([0x71, 0x6F, 0x69, 0x66] ++ putBe32 w ++ putBe32 h ++ [ch, 0]) ++ body) =
      .ok (if ch = 4 then .prgb32 else .xrgb32) w h out := by
  unfold decodeFile putBe32
  simp only [List.cons_append, List.nil_append]
  rw [be32_put w hw', be32_put h hh']
  have h1 : ¬ (ch ≠ 3 ∧ ch ≠ 4) := by rcases hc with rfl | rfl <;> decide
  have h2 : body.isEmpty = false := by cases body with | nil => exact absurd rfl hb | cons => rfl
  rw [if_neg (by decide), if_neg (by omega), if_neg h1, if_neg (by decide), if_neg (by omega), if_neg (by simp [h2]), hd]

theorem decodeData_enc {σ} {c : Codec σ} {a : Bool} {valid : UInt32 → Prop} {img : UInt32 → UInt32}
    {Rel : σ → Dec → Prop} (S : Sim c a valid img Rel) (hpos : ∀ s p, 1 ≤ (c.emit s p).1.length)
    (w h : Nat) (hw : 1 ≤ w) (hh : 1 ≤ h) (pt : Nat → UInt32) (s : σ) (ps : List UInt32) (body : List UInt8)
    (hlen : ps.length = w * h) (hv : ∀ q ∈ ps, valid q) (henc : Enc c s ps body)
    (hinit : ∀ src x h out, Rel s { src := src, x := x, h := h, packedTable := pt, unpackedTable := fun _ => 0, packed := 0xFF000000, unpacked := unpackPx 0xFF000000, out := out })
    (hinit' : ∀ src x h out, Rel s {
        src := src, x := x, h := h,
        packedTable := upd pt (hash64 (unpackPx 0xFF000000)) 0xFF000000,
        unpackedTable := upd (fun _ => 0) (hash64 (unpackPx 0xFF000000)) (unpackPx 0xFF000000),
        packed := 0xFF000000, unpacked := unpackPx 0xFF000000, out := out }) :
    decodeData a w h pt (body ++ endMarker) = .done (ps.map img) := by
  have hpos2 : 1 ≤ w * h := Nat.mul_pos hw hh
  have hps : ps ≠ [] := by intro e; subst e; simp at hlen; omega
  have e : w + (h - 1) * w = ps.length := by
    rw [hlen]
    obtain ⟨k, rfl⟩ : ∃ k, h = k + 1 := ⟨h - 1, by omega⟩
    rw [Nat.add_sub_cancel, Nat.mul_add, Nat.mul_one, Nat.mul_comm]; omega
  match hbody : body ++ endMarker with
  | [] => have := congrArg List.length hbody; simp [endMarker] at this
  | b0 :: rest =>
    unfold decodeData
    simp only
    split
    · have := (sim_spec S hpos w endMarker (by simp [endMarker]) henc hps hv
        { src := b0 :: rest, x := w, h := h,
          packedTable := upd pt (hash64 (unpackPx 0xFF000000)) 0xFF000000,
          unpackedTable := upd (fun _ => 0) (hash64 (unpackPx 0xFF000000)) (unpackPx 0xFF000000),
          packed := 0xFF000000, unpacked := unpackPx 0xFF000000, out := [] }
        (hinit' _ _ _ _) ⟨hw, Nat.le_refl _, hh, e⟩ hbody.symm).1
      exact this
    · have := (sim_spec S hpos w endMarker (by simp [endMarker]) henc hps hv
        { src := b0 :: rest, x := w, h := h, packedTable := pt, unpackedTable := fun _ => 0,
          packed := 0xFF000000, unpacked := unpackPx 0xFF000000, out := [] }
        (hinit _ _ _ _) ⟨hw, Nat.le_refl _, hh, e⟩ hbody.symm).1
      exact this

theorem unpack_black : hash64 (unpackPx 0xFF000000) = 53 := by decide +kernel
theorem hash_zero : hashRgba32 0 = 0 := by decide +kernel

/-- C01, PRGB32: every image of premultiplied pixels survives encoding and decoding bit by bit. -/
theorem C01_roundtrip_prgb32 (w h : Nat) (rows : List (List UInt32)) (hw : 1 ≤ w) (hw' : w ≤ 65535) (hh : 1 ≤ h)
    (hh' : h ≤ 65535) (wf : WellFormed w h rows) (hpm : ∀ r ∈ rows, ∀ p ∈ r, Premultiplied p.toNat) :
    ∃ bytes, encodeFile .prgb32 w h rows = some bytes ∧ decodeFile bytes = .ok .prgb32 w h rows.flatten := by
  obtain ⟨body, e, henc⟩ := encodeFile_bytes .prgb32 w h rows hw hh wf
  refine ⟨_, e, ?_⟩
  have t0 : Tables true (fun _ => True) (fun _ => 0)
      { src := [], x := 0, h := 0, packedTable := fun _ => 0, unpackedTable := fun _ => 0,
        packed := 0xFF000000, unpacked := unpackPx 0xFF000000, out := [] } := by
    constructor
    · intro i; show (0 : UInt32) = packPx true 0; decide +kernel
    · intro v _ hv; simp only at hv ⊢; rw [← hv]; decide +kernel
  have t1 : Tables true (fun _ => True) (fun _ => 0)
      { src := [], x := 0, h := 0, packedTable := upd (fun _ => 0) (hash64 (unpackPx 0xFF000000)) 0xFF000000,
        unpackedTable := upd (fun _ => 0) (hash64 (unpackPx 0xFF000000)) (unpackPx 0xFF000000),
        packed := 0xFF000000, unpacked := unpackPx 0xFF000000, out := [] } := by
    constructor
    · intro i
      simp only [upd]
      split
      · decide +kernel
      · show (0 : UInt32) = packPx true 0; decide +kernel
    · intro v _ hv; simp only at hv ⊢; rw [← hv]; decide +kernel
  have hd := decodeData_enc simP (fun s p => (emitP_len s p).1) w h hw hh (fun _ => 0) {} rows.flatten body
    (rows_flatten_length wf)
    (by intro q hq; obtain ⟨r, hr, hq⟩ := List.mem_flatten.mp hq; exact hpm r hr q hq) henc
    (fun _ _ _ _ => ⟨rfl, rfl, t0⟩) (fun _ _ _ _ => ⟨rfl, rfl, t1⟩)
  rw [List.append_assoc]
  have := decodeFile_header w h 4 (body ++ endMarker) hw hw' hh hh' (Or.inr rfl) (by simp [endMarker])
    (rows.flatten.map id) hd
  simpa using this

/-- C01, XRGB32: colours survive; the undefined byte comes back as 255. -/
theorem C01_roundtrip_xrgb32 (w h : Nat) (rows : List (List UInt32)) (hw : 1 ≤ w) (hw' : w ≤ 65535) (hh : 1 ≤ h)
    (hh' : h ≤ 65535) (wf : WellFormed w h rows) :
    ∃ bytes pixels, encodeFile .xrgb32 w h rows = some bytes ∧ decodeFile bytes = .ok .xrgb32 w h pixels ∧
      pixels = rows.flatten.map (fun p => p ||| 0xFF000000) := by
  obtain ⟨body, e, henc⟩ := encodeFile_bytes .xrgb32 w h rows hw hh wf
  refine ⟨_, _, e, ?_, rfl⟩
  have hne : ∀ v : UInt32, chan 3 v.toNat = 255 → (0 : UInt32) ≠ v := by
    intro v hv e; subst e; exact absurd hv (by decide)
  have t0 : Tables false (fun v => chan 3 v.toNat = 255) (fun _ => 0)
      { src := [], x := 0, h := 0, packedTable := fun _ => 0xFF000000, unpackedTable := fun _ => 0,
        packed := 0xFF000000, unpacked := unpackPx 0xFF000000, out := [] } := by
    constructor
    · intro i; show (0xFF000000 : UInt32) = packPx false 0; decide +kernel
    · intro v h3 hv; exact absurd hv (hne v h3)
  have t1 : Tables false (fun v => chan 3 v.toNat = 255) (fun _ => 0)
      { src := [], x := 0, h := 0, packedTable := upd (fun _ => 0xFF000000) (hash64 (unpackPx 0xFF000000)) 0xFF000000,
        unpackedTable := upd (fun _ => 0) (hash64 (unpackPx 0xFF000000)) (unpackPx 0xFF000000),
        packed := 0xFF000000, unpacked := unpackPx 0xFF000000, out := [] } := by
    constructor
    · intro i
      simp only [upd]
      split
      · decide +kernel
      · show (0xFF000000 : UInt32) = packPx false 0; decide +kernel
    · intro v h3 hv; exact absurd hv (hne v h3)
  have h3 : chan 3 (0xFF000000 : UInt32).toNat = 255 := by decide +kernel
  have hd := decodeData_enc simX (fun s p => (emitX_len s p).1) w h hw hh (fun _ => 0xFF000000) {} rows.flatten body
    (rows_flatten_length wf) (fun _ _ => trivial) henc
    (fun _ _ _ _ => ⟨rfl, rfl, h3, t0⟩) (fun _ _ _ _ => ⟨rfl, rfl, h3, t1⟩)
  rw [List.append_assoc]
  have := decodeFile_header w h 3 (body ++ endMarker) hw hw' hh hh' (Or.inl rfl) (by simp [endMarker])
    (rows.flatten.map imgX) hd
  exact this

/-- C01, A8: every alpha value `a` comes back as the premultiplied white pixel of alpha `a`. -/
theorem C01_roundtrip_a8 (w h : Nat) (rows : List (List UInt32)) (hw : 1 ≤ w) (hw' : w ≤ 65535) (hh : 1 ≤ h)
    (hh' : h ≤ 65535) (wf : WellFormed w h rows) (ha : ∀ r ∈ rows, ∀ p ∈ r, p.toNat ≤ 255) :
    ∃ bytes pixels, encodeFile .a8 w h rows = some bytes ∧ decodeFile bytes = .ok .prgb32 w h pixels ∧
      pixels.length = rows.flatten.length ∧
      ∀ (i : Nat) (p a : UInt32), pixels[i]? = some p → rows.flatten[i]? = some a →
        HasChannels p a.toNat a.toNat a.toNat a.toNat := by
  obtain ⟨body, e, henc⟩ := encodeFile_bytes .a8 w h rows hw hh wf
  refine ⟨_, rows.flatten.map imgA, e, ?_, List.length_map _, ?_⟩
  · have hne : ∀ v : UInt32, v.toNat ≤ 255 → ((0xFFFF : UInt16).toUInt32 : UInt32) ≠ v := by
      intro v hv e; subst e; exact absurd hv (by decide)
    have hpx : ∀ q : UInt32, (q &&& 0xFF) = 0xFFFFFFFF → (0xFF000000 : UInt32) = imgA q := by
      intro q hq
      exfalso
      have := congrArg UInt32.toNat hq
      rw [low8] at this
      simp only [UInt32.reduceToNat] at this
      omega
    have lanes := lanes_unpack 0xFF000000
    have hd := decodeData_enc simA (fun s p => (emitA8_len s p).1) w h hw hh (fun _ => 0) {} rows.flatten body
      (rows_flatten_length wf) (fun _ _ => trivial) henc
      (fun _ _ _ _ => ⟨lanes, hpx, by intro i; show (0 : UInt32) = packPx true 0; decide +kernel,
        fun v hv e => absurd e (hne v hv)⟩)
      (fun _ _ _ _ => ⟨lanes, hpx, by
        intro i
        simp only [upd]
        split
        · decide +kernel
        · show (0 : UInt32) = packPx true 0; decide +kernel,
        fun v hv e => absurd e (hne v hv)⟩)
    rw [List.append_assoc]
    have := decodeFile_header w h 4 (body ++ endMarker) hw hw' hh hh' (Or.inr rfl) (by simp [endMarker])
      (rows.flatten.map imgA) hd
    simpa using this
  · have hall : ∀ p ∈ rows.flatten, p.toNat ≤ 255 := by
      intro q hq; obtain ⟨r, hr, hq⟩ := List.mem_flatten.mp hq; exact ha r hr q hq
    intro i p q hp hq'
    rw [List.getElem?_map, hq', Option.map_some, Option.some.injEq] at hp
    subst hp
    have hq := hall q (List.mem_of_getElem? hq')
    have hv : (imgA q).toNat = pack4 q.toNat q.toNat q.toNat q.toNat := by
      unfold imgA pack4
      simp only [UInt32.toNat_mul, low8, UInt32.reduceToNat]
      rw [Nat.mod_eq_of_lt (by omega : q.toNat < 256)]
      omega
    have := chan_pack4 q.toNat q.toNat q.toNat q.toNat (by omega) (by omega) (by omega) (by omega)
    unfold HasChannels
    rw [hv]
    exact ⟨this.2.2.2, this.2.2.1, this.2.1, this.1⟩

/-- A concrete image that exercises runs across rows, index, diff, luma, RGB and RGBA chunks. -/
example : ∃ bytes, encodeFile .prgb32 3 2 [[0xFF000000, 0xFF000000, 0xFF010100], [0x80402010, 0xFF010100, 0xFF100C0A]]
    = some bytes ∧ decodeFile bytes =
      .ok .prgb32 3 2 [0xFF000000, 0xFF000000, 0xFF010100, 0x80402010, 0xFF010100, 0xFF100C0A] := by
  refine C01_roundtrip_prgb32 3 2 _ (by decide) (by decide) (by decide) (by decide) (by unfold WellFormed; simp) ?_
  intro r hr p hp
  simp only [List.mem_cons, List.not_mem_nil, or_false] at hr
  rcases hr with rfl | rfl <;> simp only [List.mem_cons, List.not_mem_nil, or_false] at hp <;>
    rcases hp with rfl | rfl | rfl <;> unfold Premultiplied <;> decide +kernel

end Blend2D.Qoi
