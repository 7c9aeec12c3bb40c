import Verif.GlyphBuffer.Inv
/-! C55: a glyph buffer holds the text and glyphs it was given.

The buffer is used through a history of calls on one object: texts in any encoding, glyph ids from memory,
`clear`, `reset`, and the functions of a font that map its text to glyphs and position them.  Each allocation
may fail. -/
namespace Blend2D.GlyphBuffer
open Blend2D.Unicode (Enc charSize)
open Blend2D.Unicode.Spec (codePoint text Encodable)

/-- Calls on a glyph buffer. -/
inductive Op where
  | setText (encoding : Nat) (src : List UInt8) (size : Option Nat) (m : Malloc)
  | setGlyphs (mem : List UInt8) (a : Int) (size : Nat) (m : Malloc)
  | fromStruct (mem : List UInt8) (a : Int) (size idSize : Nat) (advance : Int) (m : Malloc)
  | clear
  | reset
  | mapText (F : Face)
  | position (F : Face) (useKern : Bool) (m : Malloc)
  | shape (F : Face) (useKern : Bool) (m : Malloc)
  | applyKerning (F : Face)

/-- One call. -/
def call (d : Impl) : Op → Option (Res × Impl)
  | .setText e src size m => setTextRaw d e src size m
  | .setGlyphs mem a size m => setGlyphs d mem a size m
  | .fromStruct mem a size k adv m => setGlyphsFromStruct d mem a size k adv m
  | .clear => some (.success, clear d)
  | .reset => some (.success, reset d)
  | .mapText F => mapText F d
  | .position F k m => position F k d m
  | .shape F k m => shape F k d m
  | .applyKerning F => applyKerning F d

/-- A history of calls. -/
def run (d : Impl) : List Op → Option Impl
  | [] => some d
  | o :: os =>
    match call d o with
    | none => none
    | some (_, d') => run d' os

/-- The encodings of the API (`BLTextEncoding`). -/
def encodingOf : Nat → Option Enc
  | 0 => some .latin1
  | 1 => some .utf8
  | 2 => some .utf16
  | 3 => some .utf32
  | _ => none

/-- The memory a call is given holds what the call says it holds: `size` units of text, or a text with a
terminating zero; `size` readable glyph ids. -/
def Op.Given : Op → Prop
  | .setText enc src size _ => ∀ e, encodingOf enc = some e → ∃ n, textSize e src size = some n ∧ n * Spec.unitBytes e ≤ src.length
  | .setGlyphs mem a size _ => 0 ≤ a ∧ a.toNat + 4 * size ≤ mem.length
  | .fromStruct mem a size k adv _ => ∀ i : Nat, i < size → 0 ≤ a + i * adv ∧ (a + i * adv).toNat + k ≤ mem.length
  | _ => True

/-- The calls of this history leave kerning to the functions that position glyphs. -/
def Op.NoKerning : Op → Prop
  | .applyKerning _ => False
  | _ => True

theorem load_some {mem : List UInt8} {k : Nat} {a : Int} (h : 0 ≤ a ∧ a.toNat + k ≤ mem.length) :
    ∃ v, load mem k a = some v := by
  unfold load; rw [if_pos h]; exact ⟨_, rfl⟩

theorem idsAt_some (mem : List UInt8) (k : Nat) (adv : Int) : ∀ (n : Nat) (a : Int),
    (∀ i : Nat, i < n → 0 ≤ a + i * adv ∧ (a + i * adv).toNat + k ≤ mem.length) →
    ∃ ids : List UInt32, idsAt mem k adv a n = ids.map some ∧ ids.length = n ∧
      ∀ i : Nat, i < n → load mem k (a + i * adv) = ids[i]? := by
  intro n
  induction n with
  | zero => intro a _; exact ⟨[], rfl, rfl, by simp⟩
  | succ n ih =>
    intro a h
    obtain ⟨v, hv⟩ := load_some (by simpa using h 0 (by omega))
    obtain ⟨ids, h1, h2, h3⟩ := ih (a + adv) (by
      intro i hi
      have := h (i + 1) (by omega)
      have e : a + adv + (i : Int) * adv = a + ((i + 1 : Nat) : Int) * adv := by
        rw [Int.natCast_add, Int.add_mul]; simp; omega
      rw [e]; exact this)
    refine ⟨v :: ids, by simp [idsAt, hv, h1], by simp [h2], ?_⟩
    intro i hi
    cases i with
    | zero => simpa using hv
    | succ i =>
      have e : a + ((i + 1 : Nat) : Int) * adv = a + adv + (i : Int) * adv := by
        rw [Int.natCast_add, Int.add_mul]; simp; omega
      rw [e, h3 i (by omega)]; simp

theorem setText_inv {d : Impl} (hd : Inv d) (e : Enc) (src : List UInt8) (size : Option Nat) (m : Malloc)
    (h : ∃ n, textSize e src size = some n ∧ n * Spec.unitBytes e ≤ src.length) :
    ∃ r d', setText d e src size m = some (r, d') ∧ Inv d' := by
  obtain ⟨n, h1, h2⟩ := h
  rw [unit_charSize] at h2
  rcases setText_spec d hd e src size n h1 h2 m with ⟨d', out, g1, g2, -⟩ | ⟨g1, -⟩
  · exact ⟨_, _, g1, g2⟩
  · exact ⟨_, _, g1, hd⟩

theorem call_inv {d : Impl} (hd : Inv d) (o : Op) (hg : o.Given) (hk : o.NoKerning) :
    ∃ r d', call d o = some (r, d') ∧ Inv d' := by
  cases o with
  | setText enc src size m =>
    simp only [call]
    match enc, hg with
    | 0, hg => exact setText_inv hd .latin1 src size m (hg _ rfl)
    | 1, hg => exact setText_inv hd .utf8 src size m (hg _ rfl)
    | 2, hg => exact setText_inv hd .utf16 src size m (hg _ rfl)
    | 3, hg => exact setText_inv hd .utf32 src size m (hg _ rfl)
    | n + 4, _ => exact ⟨_, _, rfl, hd⟩
  | setGlyphs mem a size m =>
    simp only [call, setGlyphs]
    split
    · exact ⟨_, _, rfl, hd⟩
    · obtain ⟨g1, g2⟩ := hg
      obtain ⟨ids, h1, -, -⟩ := idsAt_some mem 4 2 size a (by
        intro i hi; omega)
      rcases ensure0_spec d size m with ⟨d1, e1, e2, e3, -⟩ | ⟨e1, -⟩
      · rw [e1]
        simp only
        obtain ⟨d', k1, k2, -⟩ := setGlyphIds_spec d1 (e3 hd.same) mem 4 a size 2 ids h1 e2
        rw [k1]
        exact ⟨_, _, rfl, k2⟩
      · rw [e1]; exact ⟨_, _, rfl, hd⟩
  | fromStruct mem a size k adv m =>
    simp only [call, setGlyphsFromStruct]
    split
    · exact ⟨_, _, rfl, hd⟩
    · rename_i hk4
      split
      · exact ⟨_, _, rfl, hd⟩
      · have hkk : (if k = 2 then 2 else 4) = k := by split <;> omega
        obtain ⟨ids, h1, -, -⟩ := idsAt_some mem k adv size a hg
        rcases ensure0_spec d size m with ⟨d1, e1, e2, e3, -⟩ | ⟨e1, -⟩
        · rw [e1]
          simp only [hkk]
          obtain ⟨d', k1, k2, -⟩ := setGlyphIds_spec d1 (e3 hd.same) mem k a size adv ids h1 e2
          rw [k1]
          exact ⟨_, _, rfl, k2⟩
        · rw [e1]; exact ⟨_, _, rfl, hd⟩
  | clear => exact ⟨_, _, rfl, inv_clear hd⟩
  | reset => exact ⟨_, _, rfl, inv_create⟩
  | mapText F => exact mapText_inv F hd
  | position F k m => exact position_inv F k hd m
  | shape F k m => exact shape_inv F k hd m
  | applyKerning F => exact absurd hk (by simp [Op.NoKerning])

theorem run_inv : ∀ (os : List Op) (d : Impl), Inv d → (∀ o ∈ os, o.Given) → (∀ o ∈ os, o.NoKerning) →
    ∃ d', run d os = some d' ∧ Inv d' := by
  intro os
  induction os with
  | nil => intro d h _ _; exact ⟨d, rfl, h⟩
  | cons o os ih =>
    intro d h hg hk
    obtain ⟨r, d', h1, h2⟩ := call_inv h o (hg o (by simp)) (hk o (by simp))
    unfold run
    rw [h1]
    exact ih d' h2 (fun x hx => hg x (by simp [hx])) (fun x hx => hk x (by simp [hx]))

theorem capacity_limit (n : Nat) (h : newCapacity n * 16 ≥ 2 ^ 64) : 2 ^ 59 ≤ n := by
  unfold newCapacity at h
  split at h
  · omega
  · split at h <;> omega

/-- The states a history of calls reaches. -/
def Reachable (d : Impl) : Prop :=
  ∃ os : List Op, (∀ o ∈ os, o.Given) ∧ (∀ o ∈ os, o.NoKerning) ∧ run create os = some d

theorem reachable_inv {d : Impl} (h : Reachable d) : Inv d := by
  obtain ⟨os, h1, h2, h3⟩ := h
  obtain ⟨d', e1, e2⟩ := run_inv os create inv_create h1 h2
  rw [e1] at h3
  exact Option.some.inj h3 ▸ e2

/-- **C55 (safety)** No history of calls touches memory outside the buffers or fails to end, whatever
allocations fail, and at every point the arrays cover the items that the buffer says it holds.  Partial: the
explicit `apply_kerning` is excluded, see `C55_kerning_counterexample`; the placements of the glyph run are
not covered, see `C55_placement_counterexample`. -/
theorem C55_history_partial (os : List Op) (hg : ∀ o ∈ os, o.Given) (hk : ∀ o ∈ os, o.NoKerning) :
    ∃ d, run create os = some d ∧ Spec.Covered d := by
  obtain ⟨d, h1, h2⟩ := run_inv os create inv_create hg hk
  exact ⟨d, h1, h2.fits, h2.same ▸ h2.fits⟩

/-- **C55 (text)** Whatever the buffer held, `set_text` makes it hold exactly the decoding of the text: its
code points in order, with the index of the unit each starts at, a lone surrogate kept, and U+FFFD for every
unit that cannot be decoded; and marks the content as text.  If that needs memory that cannot be had, it
fails and the buffer keeps what it held.  Partial: the flag that tells about invalid text is never set, see
`C55_invalid_text_counterexample`. -/
theorem C55_text_partial (d : Impl) (hd : Reachable d) (enc : Nat) (e : Enc) (he : encodingOf enc = some e)
    (src : List UInt8) (size : Option Nat) (n : Nat) (hn : textSize e src size = some n)
    (hsrc : n * Spec.unitBytes e ≤ src.length) (m : Malloc) :
    (∃ d' out, call d (.setText enc src size m) = some (.success, d') ∧
      Spec.Decodes e 0 (src.take (n * Spec.unitBytes e)) out ∧
      (∀ out', Spec.Decodes e 0 (src.take (n * Spec.unitBytes e)) out' → out' = out) ∧
      d'.size = out.length ∧
      Spec.items d' = out.map (fun p => (UInt32.ofNat p.1, UInt32.ofNat p.2)) ∧
      d'.flags.ucs4 = (out.length != 0) ∧ d'.flags.undefinedGlyphs = false) ∨
    (call d (.setText enc src size m) = some (.outOfMemory, d) ∧ d.content.length < n ∧
      (m = none ∨ 2 ^ 59 ≤ n)) := by
  have hc : call d (.setText enc src size m) = setText d e src size m := by
    match enc, he with
    | 0, he => obtain rfl := Option.some.inj he; rfl
    | 1, he => obtain rfl := Option.some.inj he; rfl
    | 2, he => obtain rfl := Option.some.inj he; rfl
    | 3, he => obtain rfl := Option.some.inj he; rfl
    | n + 4, he => exact absurd he (by simp [encodingOf])
  rw [hc]
  rw [unit_charSize] at hsrc ⊢
  rcases setText_spec d (reachable_inv hd) e src size n hn hsrc m with ⟨d', out, h1, -, h2, h3, h4, h5⟩ | h
  · exact Or.inl ⟨d', out, h1, h2, fun o ho => decodes_unique e ho h2, h3, h4, by rw [h5], by rw [h5]⟩
  · exact Or.inr ⟨h.1, h.2.1, h.2.2.imp_right (capacity_limit n)⟩

/-- **C55 (well-formed text)** The text of a list of code points, in any encoding, is held as these code
points, each with the index of the unit it starts at. -/
theorem C55_well_formed (d : Impl) (hd : Reachable d) (enc : Nat) (e : Enc) (he : encodingOf enc = some e)
    (cs : List Nat) (hcs : ∀ c ∈ cs, Encodable e c) (n : Nat) (hn : n * Spec.unitBytes e = (text e cs).length)
    (w : UInt32) (hmem : n < 2 ^ 59) :
    ∃ d', call d (.setText enc (text e cs) (some n) (some w)) = some (.success, d') ∧ d'.size = cs.length ∧
      Spec.items d' = (cs.map UInt32.ofNat).zip ((Spec.starts e 0 cs).map UInt32.ofNat) := by
  have hst : ∀ (cs : List Nat) (k : Nat), (Spec.starts e k cs).length = cs.length := by
    intro cs
    induction cs with
    | nil => intro k; rfl
    | cons c t ih => intro k; simp [Spec.starts, ih]
  rcases C55_text_partial d hd enc e he (text e cs) (some n) n rfl (by omega) (some w) with
    ⟨d', out, h1, h2, -, h4, h5, -⟩ | ⟨-, -, h⟩
  · rw [hn, List.take_length] at h2
    have := decodes_unique e h2 (decodes_text e cs 0 hcs)
    subst this
    refine ⟨d', h1, by rw [h4]; simp [hst], ?_⟩
    rw [h5, List.zip_map]; rfl
  · rcases h with h | h
    · simp at h
    · omega


theorem strLen_spec (e : Enc) (src : List UInt8) (n : Nat) (hlen : (n + 1) * Spec.unitBytes e ≤ src.length)
    (hz : ∀ b ∈ (src.drop (n * Spec.unitBytes e)).take (Spec.unitBytes e), b = 0)
    (hnz : ∀ i, i < n → ∃ b ∈ (src.drop (i * Spec.unitBytes e)).take (Spec.unitBytes e), b ≠ 0) :
    ∀ (fuel i : Nat), i ≤ n → n - i < fuel → strLen e src fuel i = some n := by
  rw [unit_charSize] at *
  intro fuel
  induction fuel with
  | zero => intro i _ h; omega
  | succ fuel ih =>
    intro i hi hf
    unfold strLen
    have hle : (i + 1) * charSize e ≤ src.length :=
      Nat.le_trans (Nat.mul_le_mul_right _ (by omega)) hlen
    simp only
    rw [if_pos hle]
    by_cases hin : i = n
    · subst hin
      rw [if_pos (by rw [List.all_eq_true]; intro b hb; simp [hz b hb])]
    · rw [if_neg (by
        rw [List.all_eq_true]
        intro hall
        obtain ⟨b, hb, hb0⟩ := hnz i (by omega)
        exact hb0 (by simpa using hall b hb))]
      exact ih (i + 1) (by omega) (by omega)

/-- **C55 (terminated text)** If the size is not given, the text ends before the first zero unit, in every
encoding; nothing behind that unit is read. -/
theorem C55_terminated (e : Enc) (src : List UInt8) (n : Nat) (hlen : (n + 1) * Spec.unitBytes e ≤ src.length)
    (hz : ∀ b ∈ (src.drop (n * Spec.unitBytes e)).take (Spec.unitBytes e), b = 0)
    (hnz : ∀ i, i < n → ∃ b ∈ (src.drop (i * Spec.unitBytes e)).take (Spec.unitBytes e), b ≠ 0)
    (d : Impl) (m : Malloc) : setText d e src none m = setText d e src (some n) m := by
  have h : textSize e src none = some n := by
    refine strLen_spec e src n hlen hz hnz _ 0 (Nat.zero_le _) ?_
    have : 1 ≤ Spec.unitBytes e := by cases e <;> simp [Spec.unitBytes]
    have : (n + 1) * 1 ≤ (n + 1) * Spec.unitBytes e := Nat.mul_le_mul_left _ this
    omega
  unfold setText
  rw [h]
  rfl

/-- **C55 (glyphs)** `set_glyphs_from_struct` makes the buffer hold the glyph ids found at the given address
and then every `advance` bytes (which may be negative), of two or four bytes each, and numbers them from
zero. -/
theorem C55_glyphs_from_struct (d : Impl) (hd : Reachable d) (mem : List UInt8) (a adv : Int) (size k : Nat)
    (hk : k = 2 ∨ k = 4) (hsize : size < 2 ^ 32) (w : UInt32)
    (hg : ∀ i : Nat, i < size → 0 ≤ a + i * adv ∧ (a + i * adv).toNat + k ≤ mem.length) :
    ∃ d', call d (.fromStruct mem a size k adv (some w)) = some (.success, d') ∧ d'.size = size ∧
      d'.flags = {} ∧
      ∀ i : Nat, i < size → ∃ v, load mem k (a + i * adv) = some v ∧
        (Spec.items d')[i]? = some (v, UInt32.ofNat i) := by
  obtain ⟨ids, h1, h2, h3⟩ := idsAt_some mem k adv size a hg
  simp only [call, setGlyphsFromStruct]
  rw [if_neg (by omega), if_neg (by omega)]
  rcases ensure0_spec d size (some w) with ⟨d1, e1, e2, e3, -⟩ | ⟨-, -, h | h⟩
  · rw [e1]
    simp only
    rw [show (if k = 2 then 2 else 4) = k by split <;> omega]
    obtain ⟨d', g1, g2, g3, g4, g5⟩ := setGlyphIds_spec d1 (e3 (reachable_inv hd).same) mem k a size adv ids h1 e2
    rw [g1]
    refine ⟨d', rfl, g3, g4, ?_⟩
    intro i hi
    refine ⟨ids[i]'(by omega), by rw [h3 i hi, List.getElem?_eq_getElem (by omega)], ?_⟩
    rw [g5, List.getElem?_eq_getElem (by simp; omega)]
    simp
  · simp at h
  · have := capacity_limit size h; omega

/-- **C55 (one glyph)** `set_glyphs` with one glyph id makes the buffer hold it.  Partial: with two or more it
holds something else, see `C55_set_glyphs_counterexample`. -/
theorem C55_set_glyphs_partial (d : Impl) (hd : Reachable d) (mem : List UInt8) (a : Int)
    (h : 0 ≤ a ∧ a.toNat + 4 ≤ mem.length) (w : UInt32) :
    ∃ d' v, call d (.setGlyphs mem a 1 (some w)) = some (.success, d') ∧ load mem 4 a = some v ∧
      Spec.items d' = [(v, 0)] := by
  obtain ⟨v, hv⟩ := load_some h
  simp only [call, setGlyphs]
  rw [if_neg (by omega)]
  rcases ensure0_spec d 1 (some w) with ⟨d1, e1, e2, e3, -⟩ | ⟨-, -, h | h⟩
  · rw [e1]
    simp only
    obtain ⟨d', g1, g2, g3, g4, g5⟩ := setGlyphIds_spec d1 (e3 (reachable_inv hd).same) mem 4 a 1 2 [v]
      (by simp [idsAt, hv]) e2
    rw [g1]
    exact ⟨d', v, rfl, hv, by rw [g5]; rfl⟩
  · simp at h
  · have := capacity_limit 1 h; omega

/-- **C55 (mapping)** Mapping replaces each code point by its glyph, keeps the clusters, marks the content as
glyphs and tells whether a glyph is missing.  A buffer that holds glyphs is refused and not changed. -/
theorem C55_map (d : Impl) (hd : Reachable d) (F : Face) (h0 : d.size ≠ 0) :
    (d.flags.ucs4 = true → ∃ d', call d (.mapText F) = some (.success, d') ∧ d'.size = d.size ∧
      Spec.items d' = (Spec.items d).map (fun p => (F.glyph p.1, p.2)) ∧ d'.flags.ucs4 = false ∧
      (d'.flags.undefinedGlyphs = true ↔
        d.flags.undefinedGlyphs = true ∨ ∃ p ∈ Spec.items d, F.glyph p.1 = 0)) ∧
    (d.flags.ucs4 = false → call d (.mapText F) = some (.invalidState, d)) := by
  have hI := reachable_inv hd
  have hf := hI.fits
  have hs := hI.same
  constructor
  · intro hu
    simp only [call, mapText]
    rw [if_neg h0, if_neg (by simp [hu]), if_pos hf]
    refine ⟨_, rfl, rfl, ?_, rfl, ?_⟩
    · simp only [Spec.items]
      rw [List.take_left' (by simp; omega), List.zip_map_left]
      rfl
    · have hex : (∃ c, c ∈ d.content.take d.size ∧ F.glyph c = 0) ↔ ∃ p ∈ Spec.items d, F.glyph p.1 = 0 := by
        constructor
        · rintro ⟨c, hc, hc0⟩
          obtain ⟨i, hi, rfl⟩ := List.getElem_of_mem hc
          have hi' : i < d.size := by simp at hi; omega
          have hj : i < (Spec.items d).length := by simp [Spec.items]; omega
          refine ⟨(Spec.items d)[i], List.getElem_mem hj, ?_⟩
          simpa [Spec.items] using hc0
        · rintro ⟨p, hp, hp0⟩
          exact ⟨p.1, (List.of_mem_zip (by simpa [Spec.items] using hp)).1, hp0⟩
      rw [← hex]
      simp only [Bool.or_eq_true, List.any_eq_true, beq_iff_eq]
  · intro hu
    simp only [call, mapText]
    rw [if_neg h0, if_pos hu]

/-- **C55 (positioning)** Positioning glyphs for which there are no advances yet gives each glyph of the run
its advance, and then applies the kerning of the font; the run says that it has placements.  Text is refused
and not changed, and so is a buffer for which there is no memory. -/
theorem C55_position (d : Impl) (hd : Reachable d) (F : Face) (k : Bool) (m : Malloc) (h0 : d.size ≠ 0) :
    (d.flags.ucs4 = true → call d (.position F k m) = some (.invalidState, d)) ∧
    (d.flags.ucs4 = false → d.flags.advances = false →
      (∃ d', call d (.position F k m) = some (.success, d') ∧ d'.size = d.size ∧
        Spec.items d' = Spec.items d ∧ d'.placed = true ∧ d'.offsets = true ∧ d'.size ≤ d'.second.length ∧
        Spec.placements d' =
          (if k then (List.range d.size).map (F.kern ((Spec.items d).map (·.1))
              ((Spec.items d).map (fun p => ⟨0, 0, F.advance p.1, 0⟩)))
           else (Spec.items d).map (fun p => ⟨0, 0, F.advance p.1, 0⟩))) ∨
      (call d (.position F k m) = some (.outOfMemory, d) ∧ d.second.length < d.size ∧
        (m = none ∨ 2 ^ 59 ≤ d.size))) := by
  have hI := reachable_inv hd
  have hf := hI.fits
  have hs := hI.same
  have hids : d.content.take d.size = (Spec.items d).map (·.1) := by
    simp only [Spec.items]
    rw [List.map_fst_zip]; simp; omega
  constructor
  · intro hu
    simp only [call, position]
    rw [if_neg h0, if_pos hu]
  · intro hu hadv
    simp only [call, position]
    rw [if_neg h0, if_neg (by simp [hu])]
    rcases addAdvances_spec F hI m with ⟨s, h1, h2, -, h3⟩ | ⟨h1, h2, h3⟩
    · left
      have h3 := h3 hadv
      rw [hids, List.map_map] at h3
      rw [h1]
      cases k
      · simp only [Bool.false_eq_true, if_false]
        refine ⟨_, rfl, rfl, rfl, rfl, by simp [hadv], h2, ?_⟩
        exact h3
      · simp only [if_true]
        obtain ⟨d', e1, e2, e3, e4⟩ := kernRun_spec F (d := { d with
          second := s, placed := true, offsets := d.offsets || !d.flags.advances,
          flags := { d.flags with advances := true } }) hf h2
        rw [e1]
        refine ⟨d', rfl, ?_⟩
        rw [e3]
        refine ⟨rfl, rfl, rfl, by simp [hadv], by simpa [e2] using h2, ?_⟩
        simp only [Spec.placements]
        rw [e4]
        simp only [hids, h3]
        rfl
    · right
      rw [h1]
      exact ⟨rfl, h2, h3.imp_right (capacity_limit d.size)⟩

theorem reachable_call {d d' : Impl} (hd : Reachable d) (o : Op) (hg : o.Given) (hk : o.NoKerning) (r : Res)
    (h : call d o = some (r, d')) : Reachable d' := by
  obtain ⟨os, h1, h2, h3⟩ := hd
  refine ⟨os ++ [o], ?_, ?_, ?_⟩
  · intro x hx; rcases List.mem_append.1 hx with hx | hx
    · exact h1 x hx
    · rw [List.mem_singleton.1 hx]; exact hg
  · intro x hx; rcases List.mem_append.1 hx with hx | hx
    · exact h2 x hx
    · rw [List.mem_singleton.1 hx]; exact hk
  · have key : ∀ (os : List Op) (c : Impl), run c os = some d → run c (os ++ [o]) = some d' := by
      intro os
      induction os with
      | nil =>
        intro c hc
        obtain rfl := Option.some.inj hc
        simp [run, h]
      | cons x xs ih =>
        intro c hc
        rw [List.cons_append]
        unfold run at hc ⊢
        cases hx : call c x with
        | none => rw [hx] at hc; simp at hc
        | some p => rw [hx] at hc; exact ih p.2 hc
    exact key os create h3

/-- **C55 (shaping)** Shaping a text, with a font that has no substitutions, gives the run of the glyphs of its
code points with their clusters, and a placement for each: the advance of the glyph, changed by the kerning of
the font.  If there is no memory for the placements the result says so and the buffer holds the glyphs. -/
theorem C55_shape (d : Impl) (hd : Reachable d) (F : Face) (k : Bool) (m : Malloc) (h0 : d.size ≠ 0)
    (hu : d.flags.ucs4 = true) :
    ∃ r d', call d (.shape F k m) = some (r, d') ∧ (r = .success ∨ r = .outOfMemory) ∧ d'.size = d.size ∧
      Spec.items d' = (Spec.items d).map (fun p => (F.glyph p.1, p.2)) ∧
      (r = .success → d'.placed = true ∧ d'.offsets = true ∧ d'.size ≤ d'.second.length ∧
        let glyphs := (Spec.items d).map (fun p => F.glyph p.1)
        let own := glyphs.map (fun g => (⟨0, 0, F.advance g, 0⟩ : Place))
        Spec.placements d' = if k then (List.range d.size).map (F.kern glyphs own) else own) := by
  obtain ⟨d1, h1, h2, h3, h4, -⟩ := (C55_map d hd F h0).1 hu
  have hr := reachable_call hd (.mapText F) trivial trivial _ h1
  have hadv : d1.flags.advances = false := by
    have hI := reachable_inv hd
    have ha := hI.txt hu
    simp only [call, mapText] at h1
    rw [if_neg h0, if_neg (by simp [hu]), if_pos hI.fits] at h1
    have := congrArg (fun p : Res × Impl => p.2.flags.advances) (Option.some.inj h1)
    simp only [ha] at this
    exact this.symm
  have hs : call d (.shape F k m) = call d1 (.position F k m) := by
    simp only [call] at h1 ⊢
    unfold shape
    rw [h1]
  rw [hs]
  rcases (C55_position d1 hr F k m (by omega)).2 h4 hadv with ⟨d', g1, g2, g3, g4, g5, g6, g7⟩ | ⟨g1, -⟩
  · refine ⟨_, d', g1, Or.inl rfl, by omega, by rw [g3, h3], fun _ => ⟨g4, g5, g6, ?_⟩⟩
    rw [g7, h3, h2]
    simp only [List.map_map]
    rfl
  · exact ⟨_, d1, g1, Or.inr rfl, h2, h3, by simp⟩

/-- **C55 (clear)** `clear` and `reset` leave nothing of what the buffer held. -/
theorem C55_clear (d : Impl) : (clear d).size = 0 ∧ Spec.items (clear d) = [] ∧ Spec.placements (clear d) = [] ∧
    (d.size ≠ 0 → (clear d).placed = false ∧ (clear d).flags = {}) ∧ Spec.items (reset d) = [] := by
  unfold clear
  split
  · rename_i h; simp [Spec.items, Spec.placements, h, reset, create]
  · simp [Spec.items, Spec.placements, reset, create]

end Blend2D.GlyphBuffer
