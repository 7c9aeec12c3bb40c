import Verif.GradLut.Loop

/-!
# C44: the colour table of a gradient holds the interpolated colours
-/

namespace Blend2D.GradLut

open Spec Blend2D.Pixel.Spec

section

variable {C P S : Type} [DecidableEq C]

theorem width_cast (n : Nat) (hn : 0 < n) : (((n - 1) * 256 : Nat) : ℚ) = 256 * ((n : ℚ) - 1) := by
  obtain ⟨m, rfl⟩ : ∃ m, n = m + 1 := ⟨n - 1, by omega⟩
  rw [Nat.add_sub_cancel]
  push_cast
  ring

theorem width_nonneg (n : Nat) (hn : 0 < n) : (0 : ℚ) ≤ 256 * ((n : ℚ) - 1) := by
  rw [← width_cast n hn]; positivity

theorem floor_nonneg {mul : ℚ → ℚ → ℚ} (hm : Multiplication mul) (n : Nat) (hn : 0 < n) (o : ℚ) (ho : 0 ≤ o) : 0 ≤ ⌊mul o (256 * ((n : ℚ) - 1)) + 1 / 2⌋ := by
  apply Int.floor_nonneg.2
  have := hm.mono _ (width_nonneg n hn) 0 o ho
  rw [hm.zero] at this
  linarith

theorem position_entry {mul : ℚ → ℚ → ℚ} (hm : Multiplication mul) (n : Nat) (hn : 0 < n) (o : ℚ) (ho : 0 ≤ o) : position mul n o / 256 = entryOf mul n o := by
  unfold position entryOf
  rw [roundToInt_eq, width_cast n hn]
  have := floor_nonneg hm n hn o ho
  omega

theorem position_mono {mul : ℚ → ℚ → ℚ} (hm : Multiplication mul) (n : Nat) (hn : 0 < n) (a b : ℚ) (h : a ≤ b) : position mul n a ≤ position mul n b := by
  unfold position
  rw [roundToInt_eq, roundToInt_eq, width_cast n hn]
  have := hm.mono _ (width_nonneg n hn) a b h
  exact Int.toNat_le_toNat (Int.floor_le_floor (by linarith))

theorem position_lt {mul : ℚ → ℚ → ℚ} (hm : Multiplication mul) (n : Nat) (hn : 0 < n) (o : ℚ) (ho : o ≤ 1) : position mul n o / 256 < n := by
  have h1 := position_mono hm n hn o 1 ho
  have h2 : position mul n 1 = (n - 1) * 256 := by
    unfold position
    rw [roundToInt_eq, hm.one]
    have : ⌊(((n - 1) * 256 : Nat) : ℚ) + 1 / 2⌋ = (((n - 1) * 256 : Nat) : Int) := by
      rw [Int.floor_eq_iff]
      push_cast
      constructor <;> linarith
    rw [this]; rfl
  omega

/-- The table for any inner loops that blend. -/
theorem table_spec {K : Kernel C P S} {B : C → C → Nat → Nat → P → Prop} {N : Nat} (G : Good K B N) {mul : ℚ → ℚ → ℚ} (hm : Multiplication mul) (n : Nat) (hn : 0 < n) (hN : n ≤ N)
    (stops : List (ℚ × C)) (hs : Stops stops) : ∃ t, interpolate K mul n stops = some t ∧ Table B (entryOf mul n) n stops t := by
  obtain ⟨hne, h01, hord⟩ := hs
  cases stops with
  | nil => exact absurd rfl hne
  | cons s r =>
    have hent : ∀ s' ∈ s :: r, position mul n s'.1 / 256 = entryOf mul n s'.1 := fun s' h => position_entry hm n hn _ (h01 s' h).1
    have hp : (((s :: r).map fun s => (position mul n s.1, s.2)).Pairwise fun a b => a.1 ≤ b.1) := by
      rw [List.pairwise_map]
      exact hord.imp fun {a b} h => position_mono hm n hn _ _ h
    rw [List.map_cons] at hp
    generalize hf : (fun s : ℚ × C => (position mul n s.1, s.2)) = f at hp
    have hf1 : ∀ s, (f s).1 = position mul n s.1 := fun s => by rw [← hf]
    have hf2 : ∀ s, (f s).2 = s.2 := fun s => by rw [← hf]
    have hp : ((f s :: r.map f).Pairwise fun a b => a.1 ≤ b.1) := by
      rw [← hf] at hp ⊢; exact hp
    have hlast : ∃ l, (s :: r).getLast? = some l ∧ lastOf (f s) (r.map f) = f l := by
      have h := getLast?_lastOf (r.map f) (f s)
      rw [← List.map_cons, List.getLast?_map] at h
      cases hl : (s :: r).getLast? with
      | none => rw [hl] at h; exact absurd h (by simp)
      | some l =>
        rw [hl] at h
        exact ⟨l, rfl, by injection h with h; exact h.symm⟩
    obtain ⟨l, el, el'⟩ := hlast
    have hlm : l ∈ s :: r := List.mem_of_mem_getLast? el
    obtain ⟨t, e, hlen, hk⟩ := fillTable_spec G n hn hN (f s) (r.map f) hp (by rw [el', hf1]; exact position_lt hm n hn _ (h01 l hlm).2)
    rw [el'] at hk
    have hsm : s ∈ s :: r := List.mem_cons_self
    rw [hf1, hf2, hf1, hf2, hent s hsm, hent l hlm] at hk
    refine ⟨t, ?_, hlen, ?_, ?_, ?_, ?_⟩
    · show fillTable K n ((s :: r).map _) = _
      rw [hf, List.map_cons]; exact e
    · intro k hkn
      obtain ⟨p, ep, _⟩ := hk k hkn
      exact ⟨p, ep⟩
    · intro s' hs' k p hp' hkk
      have hs' : s = s' := by simpa using hs'
      subst hs'
      have hkn : k < n := by
        have := List.getElem?_eq_some_iff.1 hp'
        obtain ⟨h, _⟩ := this
        omega
      obtain ⟨p', ep', hB⟩ := hk k hkn
      rw [hp'] at ep'
      have : p = p' := by injection ep' with h; injection h
      rw [if_pos hkk] at hB
      rw [this]; exact hB
    · intro j s1 s2 h1 h2 k p hp' hk0 hk1 hk2
      have hkn : k < n := by
        obtain ⟨h, _⟩ := List.getElem?_eq_some_iff.1 hp'
        omega
      obtain ⟨p', ep', hB⟩ := hk k hkn
      rw [hp'] at ep'
      have : p = p' := by injection ep' with h; injection h
      subst this
      have m1 : s1 ∈ s :: r := List.mem_of_getElem? h1
      have m2 : s2 ∈ s :: r := List.mem_of_getElem? h2
      have g1 : (f s :: r.map f)[j]? = some (f s1) := by rw [← List.map_cons, List.getElem?_map, h1]; rfl
      have g2 : (f s :: r.map f)[j + 1]? = some (f s2) := by rw [← List.map_cons, List.getElem?_map, h2]; rfl
      have hge : entryOf mul n s.1 ≤ entryOf mul n s1.1 := by
        rw [← hent s hsm, ← hent s1 m1]
        apply Nat.div_le_div_right
        rcases List.mem_cons.1 m1 with e | e
        · rw [e]
        · rw [List.pairwise_cons] at hord
          exact position_mono hm n hn _ _ (hord.1 s1 e)
      have hle : entryOf mul n s2.1 ≤ entryOf mul n l.1 := by
        rw [← hent l hlm, ← hent s2 m2]
        apply Nat.div_le_div_right
        apply position_mono hm n hn
        obtain ⟨i2, e2⟩ := List.getElem?_eq_some_iff.1 h2
        have el2 : (s :: r).getLast (by simp) = l := by
          have := List.getLast?_eq_getLast_of_ne_nil (l := s :: r) (by simp)
          rw [el] at this; injection this with h; exact h.symm
        rw [List.getLast_eq_getElem] at el2
        rw [← e2, ← el2]
        by_cases hi : j + 1 = (s :: r).length - 1
        · simp only [hi]; exact le_refl _
        · exact List.pairwise_iff_getElem.1 hord _ _ _ _ (by omega)
      rw [if_neg (by omega), if_pos (by omega)] at hB
      have := From.between (r.map f) (f s) hp k p (by rw [hf1, hf2, hent s hsm]; exact hB) j (f s1) (f s2) g1 g2
      rw [hf1, hf1, hf2, hf2, hent s1 m1, hent s2 m2] at this
      exact this hk1 hk2
    · intro l' hl' k p hp' hk0 hk1
      have hl' : (s :: r).getLast? = some l' := hl'
      have : l = l' := by rw [el] at hl'; injection hl'
      subst this
      have hkn : k < n := by
        obtain ⟨h, _⟩ := List.getElem?_eq_some_iff.1 hp'
        omega
      obtain ⟨p', ep', hB⟩ := hk k hkn
      rw [hp'] at ep'
      have : p = p' := by injection ep' with h; injection h
      subst this
      have hge : entryOf mul n s.1 ≤ entryOf mul n l.1 := by
        rw [← hent s hsm, ← hent l hlm]
        apply Nat.div_le_div_right
        rcases List.mem_cons.1 hlm with e | e
        · rw [e]
        · rw [List.pairwise_cons] at hord
          exact position_mono hm n hn _ _ (hord.1 l e)
      rw [if_neg (by omega)] at hB
      by_cases h2 : k < entryOf mul n l.1 + 1
      · rw [if_pos h2] at hB
        have := From.last (r.map f) (f s) hp k p (by rw [hf1, hf2, hent s hsm]; exact hB)
        rw [el', hf1, hf2, hent l hlm] at this
        exact this hk1
      · rw [if_neg h2] at hB; exact hB

end

theorem good32 : Good prgb32 Blend32 2048 where
  prem := prem32
  ramp c d k n h1 h2 h3 := ramp32 c d k n h1 h2 h3
  fin := end32

theorem good64 : Good prgb64 Blend64 1024 where
  prem := prem64
  ramp c d k n h1 h2 h3 := ramp64 c d k n h1 h2 h3
  fin := end64

/-- The stops of a table of 32-bit pixels: the upper bytes of the components. -/
theorem stops32 {stops : List (ℚ × UInt64)} (h : Stops stops) : Stops (stops.map fun s => (s.1, rgba32FromRgba64 s.2)) := by
  obtain ⟨h1, h2, h3⟩ := h
  refine ⟨by simpa using h1, ?_, ?_⟩
  · intro s hs
    obtain ⟨s', m, rfl⟩ := List.mem_map.1 hs
    exact h2 s' m
  · rw [List.pairwise_map]
    exact h3

/-- **C44**: for every gradient (offsets from 0 to 1 in order), every table size up to 2048 and every rounding of the product of an offset and the width, the table of 32-bit pixels is written entirely, nothing
is written outside of it, and it holds the colours of the gradient: every component is the nearest to the exact one. -/
theorem C44_table32 {mul : ℚ → ℚ → ℚ} (hm : Multiplication mul) (n : Nat) (hn : 0 < n) (hN : n ≤ 2048) (stops : List (ℚ × UInt64)) (hs : Stops stops) :
    ∃ t, interpolate32 mul n stops = some t ∧ Table Blend32 (entryOf mul n) n (stops.map fun s => (s.1, rgba32FromRgba64 s.2)) t :=
  table_spec good32 hm n hn hN _ (stops32 hs)

/-- **C44**: the colours of such a table are the upper bytes of the components of the stops. -/
theorem C44_stop_colour (x : UInt64) (i : Nat) (hi : i < 4) : chan i (rgba32FromRgba64 x).toNat = chan16 i x.toNat / 256 :=
  rgba32FromRgba64_chan x i hi

/-- **C44**: the same for tables of 64-bit pixels up to a size of 1024, with an error of the components of at most 17/32. -/
theorem C44_table64 {mul : ℚ → ℚ → ℚ} (hm : Multiplication mul) (n : Nat) (hn : 0 < n) (hN : n ≤ 1024) (stops : List (ℚ × UInt64)) (hs : Stops stops) :
    ∃ t, interpolate64 mul n stops = some t ∧ Table Blend64 (entryOf mul n) n stops t :=
  table_spec good64 hm n hn hN _ hs

/-- The exact product is a multiplication in the sense of the theorems. -/
theorem exactMul : Multiplication (fun x w => x * w) :=
  ⟨fun w => zero_mul w, fun w => one_mul w, fun _ hw _ _ h => mul_le_mul_of_nonneg_right h hw⟩

/-- **C44**: a stop is at most one entry and 1/512 before its offset in the table, and at most 1/512 behind it. -/
theorem C44_entry (n : Nat) (hn : 0 < n) (o : ℚ) (h0 : 0 ≤ o) :
    (entryOf (fun x w => x * w) n o : ℚ) ≤ o * (n - 1) + 1 / 512 ∧ o * (n - 1) - 1 - 1 / 512 < entryOf (fun x w => x * w) n o := by
  unfold entryOf
  have h := floor_nonneg exactMul n hn o h0
  have h1 := Int.floor_le (o * (256 * ((n : ℚ) - 1)) + 1 / 2)
  have h2 := Int.lt_floor_add_one (o * (256 * ((n : ℚ) - 1)) + 1 / 2)
  simp only at h ⊢
  generalize ⌊o * (256 * ((n : ℚ) - 1)) + 1 / 2⌋ = z at *
  have hq : 0 ≤ z / 256 := Int.ediv_nonneg h (by omega)
  have e : (((z / 256).toNat : Nat) : ℚ) = ((z / 256 : Int) : ℚ) := by
    have : (((z / 256).toNat : Nat) : Int) = z / 256 := Int.toNat_of_nonneg hq
    exact_mod_cast congrArg (Int.cast (R := ℚ)) this
  rw [e]
  have b1 : 256 * (z / 256) ≤ z := by omega
  have b2 : z ≤ 256 * (z / 256) + 255 := by omega
  have c1 : (256 : ℚ) * ((z / 256 : Int) : ℚ) ≤ z := by exact_mod_cast b1
  have c2 : (z : ℚ) ≤ 256 * ((z / 256 : Int) : ℚ) + 255 := by exact_mod_cast b2
  constructor <;> linarith

/-! ## What follows from the specification alone -/

/-- **C44**: the pixel of a stop is the premultiplied colour of the stop, exactly. -/
theorem C44_stop_exact (c d : UInt32) (n : Nat) (p : UInt32) (hn : 0 < n) (h : Blend32 c d 0 n p ∨ Blend32 d c n n p) :
    chan 3 p.toNat = chan 3 c.toNat ∧ ∀ i < 3, Nearest (chan i p.toNat) (chan i c.toNat * chan 3 c.toNat) 255 := by
  have key : ∃ x : Nat → Nat, (∀ i < 4, x i = chan i c.toNat) ∧ chan 3 p.toNat = x 3 ∧ ∀ i < 3, Nearest (chan i p.toNat) (x i * x 3) 255 := by
    rcases h with ⟨x, h1, h2, h3⟩ | ⟨x, h1, h2, h3⟩
    · exact ⟨x, fun i hi => near_zero (by omega) hn (h1 i hi).2, h2, fun i hi => (h3 i hi).1⟩
    · exact ⟨x, fun i hi => near_end (by omega) hn (h1 i hi).2, h2, fun i hi => (h3 i hi).1⟩
  obtain ⟨x, h1, h2, h3⟩ := key
  refine ⟨by rw [h2, h1 3 (by omega)], fun i hi => ?_⟩
  rw [← h1 i (by omega), ← h1 3 (by omega)]
  exact h3 i hi

/-- **C44**: between opaque stops all pixels are opaque, and their components are nearest to the interpolated ones. -/
theorem C44_opaque (c d : UInt32) (k n : Nat) (p : UInt32) (hn : 0 < n) (h : Blend32 c d k n p) (hc : chan 3 c.toNat = 255) (hd : chan 3 d.toNat = 255) :
    chan 3 p.toNat = 255 ∧ ∀ i < 3, Near 1 2 (chan i c.toNat) (chan i d.toNat) k n (chan i p.toNat) := by
  obtain ⟨x, h1, h2, h3⟩ := h
  have hA := (h1 3 (by omega)).2
  rw [hc, hd] at hA
  have eA : x 3 = 255 := near_end (p := 1) (q := 2) (a := 255) (by omega) hn (by
    unfold Near at hA ⊢
    simpa using hA)
  refine ⟨by rw [h2, eA], fun i hi => ?_⟩
  obtain ⟨h4, _⟩ := h3 i hi
  rw [eA] at h4
  have : chan i p.toNat = x i := by unfold Nearest at h4; omega
  rw [this]
  exact (h1 i (by omega)).2

/-- **C44**: every pixel of a table is validly premultiplied. -/
theorem C44_premultiplied (c d : UInt32) (k n : Nat) (p : UInt32) (h : Blend32 c d k n p) : Premultiplied p.toNat := by
  obtain ⟨x, h1, h2, h3⟩ := h
  exact fun i hi => (h3 i hi).2

/-! ## Examples -/

/-- A gradient from opaque red to transparent blue with a stop in between. -/
def exampleStops : List (ℚ × UInt64) := [(0, 0xFFFFFFFF00000000), (1 / 2, 0x8000000080000000), (1, 0x000000000000FFFF)]

theorem exampleStops_ok : Stops exampleStops := by
  refine ⟨by simp [exampleStops], ?_, ?_⟩
  · intro s hs
    simp only [exampleStops, List.mem_cons, List.not_mem_nil, or_false] at hs
    rcases hs with h | h | h <;> subst h <;> norm_num
  · simp [exampleStops]
    norm_num

example : ∃ t, interpolate32 (fun x w => x * w) 256 exampleStops = some t ∧
    Table Blend32 (entryOf (fun x w => x * w) 256) 256 (exampleStops.map fun s => (s.1, rgba32FromRgba64 s.2)) t :=
  C44_table32 exactMul 256 (by omega) (by omega) exampleStops exampleStops_ok

/-- A table of five entries. -/
example : fillTable prgb32 5 [(0, 0xFFFF0000), (512, 0x80008000), (1024, 0x000000FF)] =
    some [some 0xFFFF0000, some 0xC0603000, some 0x80004000, some 0x40001020, some 0] := by decide +kernel

end Blend2D.GradLut
