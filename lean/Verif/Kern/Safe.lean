import Verif.Kern.Props
/-! # C54: any table -/

namespace Blend2D.Kern
open Algo Algo.Spec Spec

theorem u8_n {d : Data} {i : Nat} (h : i < d.length) : u8 d i = some (n8 d i) := by
  rw [u8_some h]
  unfold n8
  rw [List.getD_eq_getElem _ _ h]

theorem u16_n {d : Data} {i : Nat} (h : i + 2 ≤ d.length) : u16 d i = some (n16 d i) := by
  unfold u16
  rw [u8_n (by omega), u8_n (by omega)]
  rfl

theorem u32_n {d : Data} {i : Nat} (h : i + 4 ≤ d.length) : u32 d i = some (n32 d i) := by
  unfold u32
  rw [u16_n (by omega), u16_n (by omega)]
  rfl

theorem n16_lt (d : Data) (i : Nat) : n16 d i < 65536 := by
  unfold n16 n8
  have := (d.getD i 0).toNat_lt
  have := (d.getD (i + 1) 0).toNat_lt
  omega

/-- The format of a group is always read as 0, whatever it is made with. -/
theorem Group.format_made (format flags o n : Nat) (h1 : format < 4) (h2 : flags < 16) : (mkRef format flags o n).format = 0 := by
  have e1 : (n <<< 6) % 2 ^ 32 = 2 ^ 6 * (n % 2 ^ 26) := by rw [Nat.shiftLeft_eq]; omega
  have e2 : ∀ (a : Fin 4) (b : Fin 16), b.val ||| (a.val <<< 2) < 16 := by decide
  have e3 := e2 ⟨format, h1⟩ ⟨flags, h2⟩
  simp only at e3
  refine (fields e3 (n := n % 2 ^ 26) _ ?_).1
  show flags ||| (format <<< 2) ||| (n <<< 6) % 2 ^ 32 = _
  rw [e1, Nat.or_comm, ← Nat.two_pow_add_eq_or_of_lt (by omega)]
  omega

/-- Groups that can be applied without leaving the table. -/
def Within (d : Data) (k : Group) : Prop := k.format = 0 ∧ k.size = (k.pairs d).size ∧ SortedBy Pair.key (k.pairs d)

theorem load2_safe {d : Data} {o hs size flags : Nat} (h : o + size ≤ d.length) (h1 : 16 ≤ size - hs) (h2 : hs ≤ size) (hf : flags < 16) :
    ∃ gs, load2 d o hs size flags = some gs ∧ ∀ k ∈ gs, k.format = 0 := by
  unfold load2
  rw [u16_n (by omega), u16_n (by omega), u16_n (by omega)]
  simp only [Option.bind_eq_bind, Option.bind_some]
  split
  · exact ⟨[], rfl, by simp⟩
  · rename_i hc
    rw [u16_n (by omega), u16_n (by omega)]
    simp only [Option.bind_some]
    split
    · exact ⟨[], rfl, by simp⟩
    · exact ⟨_, rfl, by simp [Group.format_made 2 flags o size (by omega) hf]⟩

theorem load3_safe {d : Data} {o hs size flags : Nat} (h : o + size ≤ d.length) (h1 : 6 ≤ size - hs) (h2 : hs ≤ size) (hf : flags < 16) :
    ∃ gs, load3 d o hs size flags = some gs ∧ ∀ k ∈ gs, k.format = 0 := by
  unfold load3
  rw [u16_n (by omega), u8_n (by omega), u8_n (by omega), u8_n (by omega)]
  simp only [Option.bind_eq_bind, Option.bind_some]
  split
  · exact ⟨[], rfl, by simp⟩
  · exact ⟨_, rfl, by simp [Group.format_made 3 flags o size (by omega) hf]⟩

theorem loadSub_safe {d : Data} {o hs length format flags : Nat} (h : o + length ≤ d.length) (h2 : hs ≤ length) (hf : Flags flags) :
    ∃ gs, loadSub d o hs length format flags = some gs ∧ (∀ k ∈ gs, k.format = 0) ∧ (format ≠ 2 → format ≠ 3 → ∀ k ∈ gs, Within d k) := by
  unfold loadSub
  split
  · rename_i hc
    split
    · rename_i e
      subst e
      have h8 : 8 ≤ length - hs := hc.2
      obtain ⟨gs, g1, g2⟩ := load0_spec (d := d) (o := o + hs) (length := length - hs) (flags := flags) (count := n16 d (o + hs))
        (by omega) h8 hf (u16_n (by omega)) (n16_lt _ _)
      exact ⟨gs, g1, fun k hk => (g2.fine k hk).format, fun _ _ k hk => ⟨(g2.fine k hk).format, (g2.fine k hk).size, (g2.fine k hk).sorted⟩⟩
    · split
      · rename_i e
        subst e
        have h8 : 16 ≤ length - hs := hc.2
        obtain ⟨gs, g1, g2⟩ := load2_safe (hs := hs) (flags := flags) h h8 h2 hf.1
        exact ⟨gs, g1, g2, fun h => (h rfl).elim⟩
      · split
        · rename_i e
          subst e
          have h8 : 6 ≤ length - hs := hc.2
          obtain ⟨gs, g1, g2⟩ := load3_safe (hs := hs) (flags := flags) h h8 h2 hf.1
          exact ⟨gs, g1, g2, fun _ h => (h rfl).elim⟩
        · exact ⟨[], rfl, by simp, by simp⟩
  · exact ⟨[], rfl, by simp, by simp⟩

theorem head_safe {d : Data} {mac : Bool} {count index o : Nat} (h : o + headSize mac ≤ d.length) :
    ∃ hd, head mac d count index o = some hd ∧ hd.format = format d mac o ∧
      (index + 1 < count → SubAt d mac o → SubAt d mac (o + hd.length)) := by
  unfold head
  cases mac with
  | false =>
    have h6 : o + 6 ≤ d.length := h
    simp only [Bool.false_eq_true, if_false]
    unfold headWin
    rw [u8_n (by omega), u16_n (by omega), u8_n (by omega)]
    simp only [Option.bind_eq_bind, Option.bind_some]
    refine ⟨_, rfl, rfl, fun hi S => ?_⟩
    simp only
    rw [if_neg (by omega), if_neg (by omega)]
    exact .nextWin o S
  | true =>
    have h8 : o + 8 ≤ d.length := h
    simp only [if_true]
    unfold headMac
    rw [u8_n (by omega), u32_n (by omega), u8_n (by omega)]
    simp only [Option.bind_eq_bind, Option.bind_some]
    exact ⟨_, rfl, rfl, fun hi S => .nextMac o S⟩

theorem loadLoop_safe (mac : Bool) (d : Data) (count : Nat) : ∀ (fuel index o : Nat) (gs : List Group), d.length - o < fuel →
    (∀ k ∈ gs, k.format = 0) →
    ∃ r, loadLoop mac d count fuel index o gs = some r ∧ (∀ gs', r = .groups gs' → ∀ k ∈ gs', k.format = 0) ∧
      (SubAt d mac o → (∀ x, SubAt d mac x → format d mac x ≠ 2 ∧ format d mac x ≠ 3) → (∀ k ∈ gs, Within d k) →
        ∀ gs', r = .groups gs' → ∀ k ∈ gs', Within d k) := by
  have hsz : 1 ≤ headSize mac := by unfold headSize; split <;> omega
  intro fuel
  induction fuel with
  | zero => intro index o gs h; omega
  | succ fuel ih =>
    intro index o gs h hg0
    unfold loadLoop
    split
    · refine ⟨_, rfl, fun gs' e => ?_, fun _ _ hg gs' e => ?_⟩
      · cases e; exact hg0
      · cases e; exact hg
    · rename_i hr
      obtain ⟨hd, h1, h2, h3⟩ := head_safe (count := count) (index := index) (by omega : o + headSize mac ≤ d.length)
      rw [h1]
      simp only
      split
      · refine ⟨.nothing, rfl, fun gs' e => ?_, fun _ _ _ gs' e => ?_⟩ <;> cases e
      · rename_i hc
        obtain ⟨new, n1, n0, n2⟩ := loadSub_safe (d := d) (o := o) (hs := headSize mac) (length := hd.length) (format := hd.format)
          (flags := hd.coverage &&& 14) (by omega) (by omega) (flags_and14 _)
        rw [n1]
        simp only
        have m0 : ∀ k ∈ (if hd.horizontal = true then gs ++ new else gs), k.format = 0 := by
          intro k hk
          split at hk
          · rcases List.mem_append.1 hk with m | m
            · exact hg0 k m
            · exact n0 k m
          · exact hg0 k hk
        have m1 : SubAt d mac o → (∀ x, SubAt d mac x → format d mac x ≠ 2 ∧ format d mac x ≠ 3) → (∀ k ∈ gs, Within d k) →
            ∀ k ∈ (if hd.horizontal = true then gs ++ new else gs), Within d k := by
          intro S F hg k hk
          have f := F o S
          rw [← h2] at f
          split at hk
          · rcases List.mem_append.1 hk with m | m
            · exact hg k m
            · exact n2 f.1 f.2 k m
          · exact hg k hk
        split
        · rename_i hi
          obtain ⟨r, r1, r0, r2⟩ := ih (index + 1) (o + hd.length) (if hd.horizontal = true then gs ++ new else gs) (by omega) m0
          exact ⟨r, r1, r0, fun S F hg => r2 (h3 hi S) F (m1 S F hg)⟩
        · refine ⟨_, rfl, fun gs' e => ?_, fun S F hg gs' e => ?_⟩
          · cases e; exact m0
          · cases e; exact m1 S F hg

theorem start_safe (d : Data) : ∃ r, start d = some r ∧ ∀ mac count o, r = some (mac, count, o) → SubAt d mac o := by
  unfold start
  split
  · exact ⟨none, rfl, by simp⟩
  · rw [u16_n (by omega)]
    simp only [Option.bind_eq_bind, Option.bind_some]
    split
    · rename_i h0
      rw [u16_n (by omega)]
      simp only [Option.bind_some]
      refine ⟨_, rfl, fun mac count o e => ?_⟩
      split at e
      · cases e
      · simp only [Option.some.injEq, Prod.mk.injEq] at e
        obtain ⟨rfl, -, rfl⟩ := e
        exact .win h0
    · split
      · rename_i h1
        rw [u16_n (by omega)]
        simp only [Option.bind_some]
        split
        · exact ⟨none, rfl, by simp⟩
        · rename_i h8
          rw [u32_n (by omega)]
          simp only [Option.bind_some]
          refine ⟨_, rfl, fun mac count o e => ?_⟩
          split at e
          · cases e
          · simp only [Option.some.injEq, Prod.mk.injEq] at e
            obtain ⟨rfl, -, rfl⟩ := e
            exact .mac h1
      · exact ⟨none, rfl, by simp⟩

/-- **C54**: whatever bytes the table consists of, loading the font reads nothing outside of it. -/
theorem C54_load_safe (d : Data) : load d ≠ none := by
  obtain ⟨r, h1, -⟩ := start_safe d
  unfold load
  rw [h1]
  match r with
  | none => simp
  | some (mac, count, o) =>
    obtain ⟨r, r1, -⟩ := loadLoop_safe mac d count (d.length + 1) 0 o [] (by omega) (by simp)
    simp only
    rw [r1]
    simp

/-- The functions for other formats are never called. -/
theorem load_format {d : Data} {gs : List Group} (h : load d = some (.groups gs)) : ∀ k ∈ gs, k.format = 0 := by
  obtain ⟨r, h1, -⟩ := start_safe d
  unfold load at h
  rw [h1] at h
  match r with
  | none => simp at h
  | some (mac, count, o) =>
    obtain ⟨r, r1, r2, -⟩ := loadLoop_safe mac d count (d.length + 1) 0 o [] (by omega) (by simp)
    simp only at h
    rw [r1, Option.some.injEq] at h
    exact r2 gs h

/-- **C54**: applying a table to any glyphs reads nothing outside of the table, and writes nothing outside of the placements.

Partial: if the table has no sub-table of format 2 or 3; see `C54_format2_counterexample`. -/
theorem C54_kern_safe_partial (d : Data) (h : ∀ a o, SubAt d a o → format d a o ≠ 2 ∧ format d a o ≠ 3) (glyphs : List Nat) (places : List Place)
    (hl : places.length = glyphs.length) : ∃ out, kern d glyphs places = some out ∧ out.length = places.length := by
  obtain ⟨r, h1, h2⟩ := start_safe d
  unfold kern load
  rw [h1]
  match r with
  | none => exact ⟨places, rfl, rfl⟩
  | some (mac, count, o) =>
    obtain ⟨r, r1, -, r2⟩ := loadLoop_safe mac d count (d.length + 1) 0 o [] (by omega) (by simp)
    have S := h2 mac count o rfl
    have W := r2 S (fun x hx => h mac x hx) (by simp)
    simp only
    rw [r1]
    match r with
    | .nothing => exact ⟨places, rfl, rfl⟩
    | .groups gs =>
      have W := W gs rfl
      simp only
      split
      · exact ⟨places, rfl, rfl⟩
      · match glyphs, places, hl with
        | [], [], _ => exact ⟨[], rfl, rfl⟩
        | [g], [p], _ => exact ⟨[p], rfl, rfl⟩
        | g :: k :: ks, p :: ps, hl =>
          simp only [List.length_cons] at hl
          obtain ⟨qs, c, q1, q2⟩ := applyGroups_safe (d := d) g (k :: ks) gs ps W (by simp only [List.length_cons]; omega)
          unfold apply
          simp only
          rw [q1]
          simp only
          refine ⟨_, rfl, ?_⟩
          split
          · rw [finish_length, q2]; rfl
          · simp [q2]

/-! ## Disagreements -/

/-- One sub-table of format 2 (arrays of classes): glyph 0 before glyph 0 has the value 5. -/
def classes : Data :=
  [0, 0, 0, 1,  0, 0, 0, 28, 2, 1,  0, 2, 0, 14, 0, 20, 0, 26,  0, 0, 0, 1, 0, 26,  0, 0, 0, 1, 0, 0,  0, 5]

/-- Sub-tables of format 2 are read as if they were pairs, as many as they have bytes, which is outside of the table. -/
theorem C54_format2_counterexample : kern classes [0, 0] [Place.zero, Place.zero] = none := by decide +kernel

/-- One pair of glyphs across the line. -/
def across : Sub := ⟨true, false, true, false, [(1, 2, 10)], [0, 6, 0, 0, 0, 0]⟩

/-- Values across the line move glyphs along the line. -/
theorem C54_cross_counterexample : across.Valid ∧ kerning [across] 1 2 = 0 ∧
    kern (win [across]) [1, 2] [Place.zero, Place.zero] = some [⟨0, 0, 10, 0⟩, Place.zero] := by
  refine ⟨⟨by decide, by decide, by decide, rfl⟩, rfl, by decide +kernel⟩

/-- A pair that is repeated in a table that is not sorted: 40 pairs in order, and the first one again. -/
def repeated : Sub := ⟨true, false, false, false, (List.range 40).map (fun i => (1, i, (10 : Int))) ++ [(1, 0, 10)], [0, 6, 0, 0, 0, 0]⟩

/-- It counts twice, but once if the table is sorted. -/
theorem C54_repeated_counterexample : kerning [repeated] 1 0 = 10 ∧
    kern (win [repeated]) [1, 0] [Place.zero, Place.zero] = some [⟨0, 0, 20, 0⟩, Place.zero] := by
  refine ⟨by decide +kernel, by decide +kernel⟩

/-- One pair. -/
def single : Sub := ⟨true, false, false, false, [(1, 2, -10)], [0, 6, 0, 0, 0, 0]⟩

/-- Placements that glyphs already have become part of the advance of the glyph before. -/
theorem C54_placement_counterexample :
    kern (win [single]) [1, 2, 3] [Place.zero, Place.zero, ⟨7, 5, 100, 0⟩] = some [⟨0, 0, -10, 0⟩, ⟨0, 0, 7, 5⟩, ⟨0, 0, 100, 0⟩] := by decide +kernel

/-! ## The hypotheses are met -/

/-- Two sub-tables, not sorted, the second replaces values of the first. -/
def some2 : List Sub :=
  [⟨true, false, false, false, [(3, 4, 7), (1, 2, -10)], [0, 6, 0, 0, 0, 0]⟩, ⟨true, false, false, true, [(1, 2, -20)], [0, 6, 0, 0, 0, 0]⟩]

example : (∀ s ∈ some2, s.Valid) ∧ kerning some2 1 2 = -20 ∧ kerning some2 3 4 = 7 ∧ kerning some2 2 3 = 0 := by
  refine ⟨?_, rfl, rfl, rfl⟩
  intro s hs
  simp only [some2, List.mem_cons, List.not_mem_nil, or_false] at hs
  rcases hs with rfl | rfl
  · exact ⟨by decide, by decide, by decide, rfl⟩
  · exact ⟨by decide, by decide, by decide, rfl⟩

example : kern (win some2) [1, 2, 3, 4] [⟨0, 0, 50, 0⟩, ⟨0, 0, 50, 0⟩, ⟨0, 0, 50, 0⟩, ⟨0, 0, 50, 0⟩] =
    some [⟨0, 0, 30, 0⟩, ⟨0, 0, 50, 0⟩, ⟨0, 0, 57, 0⟩, ⟨0, 0, 50, 0⟩] := by decide +kernel

example : kern (mac [single]) [1, 2] [Place.zero, Place.zero] = some [⟨0, 0, -10, 0⟩, Place.zero] := by decide +kernel

/-- A table without classes. -/
example : ∀ a o, SubAt (win [single]) a o → format (win [single]) a o ≠ 2 ∧ format (win [single]) a o ≠ 3 := by
  have key : ∀ a o, SubAt (win [single]) a o → a = false ∧ (o = 4 ∨ 24 ≤ o) := by
    intro a o h
    induction h with
    | win _ => exact ⟨rfl, .inl rfl⟩
    | mac h => exact absurd h (by decide)
    | nextWin o _ ih =>
      refine ⟨rfl, ?_⟩
      rcases ih.2 with rfl | k
      · exact .inr (by decide)
      · exact .inr (by omega)
    | nextMac o _ ih => exact absurd ih.1 (by decide)
  intro a o h
  obtain ⟨rfl, rfl | k⟩ := key a o h
  · decide
  · have : format (win [single]) false o = 0 := by
      show ((win [single]).getD (o + 4) 0).toNat = 0
      rw [List.getD_eq_getElem?_getD, List.getElem?_eq_none (by show 24 ≤ _; omega)]
      rfl
    rw [this]
    decide

end Blend2D.Kern
