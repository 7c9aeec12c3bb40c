import Verif.FaceMetrics.Spec
import Verif.Glyf.Props
/-! Every function that reads tables, in terms of their fields. -/
namespace Blend2D.FaceMetrics
open Blend2D.Kern (u8 u16 u32 i16)
open Spec (word sword long)

theorem get_u16 {l : List UInt8} {o : Nat} (h : o + 2 ≤ l.length) : get (u16 l o) = .ok (word l o) := by
  rw [← Glyf.field2, Glyf.Spec.field, if_pos h]; rfl

theorem get_i16 {l : List UInt8} {o : Nat} (h : o + 2 ≤ l.length) : get (i16 l o) = .ok (sword l o) := by
  have hu : u16 l o = some (word l o) := by rw [← Glyf.field2, Glyf.Spec.field, if_pos h]; rfl
  unfold i16; rw [hu]; rfl

theorem get_u32 {l : List UInt8} {o : Nat} (h : o + 4 ≤ l.length) : get (u32 l o) = .ok (long l o) := by
  rw [← Glyf.field4, Glyf.Spec.field, if_pos h]; rfl

theorem word_lt {l : List UInt8} {o : Nat} (h : o + 2 ≤ l.length) : word l o < 65536 := by
  obtain ⟨v, h1, h2⟩ := Kern.u16_some h
  have := get_u16 h
  rw [h1] at this
  exact (Except.ok.inj this) ▸ h2

theorem ok_bind {α β : Type} (a : α) (k : α → Except Err β) : (Except.ok a >>= k) = k a := rfl

theorem err_bind {α β : Type} (e : Err) (k : α → Except Err β) : ((Except.error e : Except Err α) >>= k) = .error e := rfl

theorem readBytes_ok {l : List UInt8} (n o : Nat) (h : o + n ≤ l.length) :
    readBytes l o n = .ok (((l.drop o).take n).map UInt8.toNat) := by
  induction n generalizing o with
  | zero => rfl
  | succ n ih =>
    have h1 : get (u8 l o) = .ok (l[o]'(by omega)).toNat := by rw [Kern.u8_some (by omega)]; rfl
    rw [readBytes, h1, ok_bind, ih (o + 1) (by omega), ok_bind, Glyf.drop_cons (show o < l.length by omega),
      List.take_succ_cons, List.map_cons]

theorem and_bit (n k : Nat) : (n &&& 2 ^ k != 0) = n.testBit k := by
  rw [Nat.testBit_eq_decide_div_mod_eq, Nat.and_two_pow]
  rcases Nat.mod_two_eq_zero_or_one (n / 2 ^ k) with h | h
  · simp [Nat.testBit_eq_decide_div_mod_eq, h]
  · have := Nat.two_pow_pos k
    simp [Nat.testBit_eq_decide_div_mod_eq, h]

theorem initHead_ok {T : Tables} {f : Face}
    (h : 54 ≤ T.head.length ∧ 16 ≤ word T.head 18 ∧ word T.head 18 ≤ 16384 ∧ word T.head 52 = 0 ∧ word T.head 50 ≤ 1) :
    initHead T f = .ok { f with
        lastResort := f.lastResort || (word T.head 16).testBit 14
        baselineY0 := f.baselineY0 || (word T.head 16).testBit 0
        lsbX0 := f.lsbX0 || (word T.head 16).testBit 1
        revision := long T.head 4
        dm := { f.dm with unitsPerEm := word T.head 18, lowestPpem := word T.head 46, box := Spec.box T }
        short := word T.head 50 == 0 } := by
  obtain ⟨h1, h2, h3, h4, h5⟩ := h
  unfold initHead
  rw [if_neg (by omega)]
  simp (disch := omega) only [get_u16, get_i16, get_u32, ok_bind]
  rw [if_neg (by omega), if_neg (by omega), if_neg (by omega), ← and_bit, ← and_bit, ← and_bit]
  have hb : (if sword T.head 36 > sword T.head 40 ∨ -sword T.head 42 > -sword T.head 38 then (⟨0, 0, 0, 0⟩ : Glyf.Box)
      else ⟨sword T.head 36, -sword T.head 42, sword T.head 40, -sword T.head 38⟩) = Spec.box T := by
    unfold Spec.box
    split <;> split <;> first | rfl | omega
  rw [hb]
  rfl

theorem initHead_bad {T : Tables} {f : Face}
    (h : ¬(54 ≤ T.head.length ∧ 16 ≤ word T.head 18 ∧ word T.head 18 ≤ 16384 ∧ word T.head 52 = 0 ∧ word T.head 50 ≤ 1)) :
    ∃ e, e ≠ .ub ∧ initHead T f = .error e := by
  unfold initHead
  split
  · refine ⟨_, ?_, rfl⟩; split <;> simp
  · simp (disch := omega) only [get_u16, get_i16, get_u32, ok_bind]
    split
    · exact ⟨_, by simp, rfl⟩
    · split
      · exact ⟨_, by simp, rfl⟩
      · split
        · exact ⟨_, by simp, rfl⟩
        · omega

theorem initMaxp_ok {T : Tables} {f : Face} (h : 6 ≤ T.maxp.length ∧ Spec.glyphs T ≠ 0) :
    initMaxp T f = .ok { f with glyphCount := Spec.glyphs T } := by
  unfold initMaxp
  rw [if_neg (by omega), get_u16 (by omega), ok_bind, if_neg (show ¬ word T.maxp 4 = 0 from h.2),
    Nat.mod_eq_of_lt (word_lt (l := T.maxp) (o := 4) (by omega))]
  rfl

theorem initMaxp_bad {T : Tables} {f : Face} (h : ¬(6 ≤ T.maxp.length ∧ Spec.glyphs T ≠ 0)) :
    ∃ e, e ≠ .ub ∧ initMaxp T f = .error e := by
  unfold initMaxp
  split
  · refine ⟨_, ?_, rfl⟩; split <;> simp
  · rw [get_u16 (by omega), ok_bind, if_pos]
    · exact ⟨_, by simp, rfl⟩
    · exact Decidable.byContradiction fun hn => h ⟨by omega, hn⟩

theorem weightOf_spec (w : Nat) : weightOf w = Spec.weight w := by
  unfold weightOf Spec.weight
  simp only []
  repeat' split
  all_goals omega

theorem stretchOf_spec (s : Nat) : stretchOf s = Spec.stretch s := by
  unfold stretchOf Spec.stretch
  simp only []
  repeat' split
  all_goals omega

theorem initOs2_ok {T : Tables} {f : Face} :
    initOs2 T f = .ok
      (if Spec.os2 T then
        { f with
          weight := Spec.weight (word T.os2 4)
          stretch := Spec.stretch (word T.os2 6)
          panose := ((T.os2.drop 32).take 10).map UInt8.toNat
          hasPanose := f.hasPanose || (((T.os2.drop 32).take 10).map UInt8.toNat).any (· != 0)
          coverage := [long T.os2 42, long T.os2 46, long T.os2 50, long T.os2 54]
          hasCoverage := f.hasCoverage ||
            [long T.os2 42, long T.os2 46, long T.os2 50, long T.os2 54].any (· != 0)
          style := if Spec.selection T 0 then 2 else if Spec.selection T 9 then 1 else f.style
          typographic := f.typographic || Spec.typographic T
          dm := { f.dm with
            strikePosition := -(sword T.os2 28 + sword T.os2 26)
            strikeThickness := sword T.os2 26
            ascent := if Spec.os2Full T then sword T.os2 68 else f.dm.ascent
            descent := if Spec.os2Full T then |sword T.os2 70| else f.dm.descent
            lineGap := if Spec.os2Full T then sword T.os2 72 else f.dm.lineGap
            xHeight := if Spec.os2V2 T then sword T.os2 86 else f.dm.xHeight
            capHeight := if Spec.os2V2 T then sword T.os2 88 else f.dm.capHeight } }
       else f) := by
  unfold initOs2 Spec.typographic Spec.selection
  by_cases h : T.os2.length < 68
  · have h1 : Spec.os2 T = false := by simp only [Spec.os2, decide_eq_false_iff_not]; omega
    rw [if_pos h, h1]; rfl
  · have h1 : Spec.os2 T = true := by simp only [Spec.os2, decide_eq_true_eq]; omega
    rw [if_neg h, h1, if_pos rfl]
    unfold initOs2A
    simp (disch := omega) only [get_u16, get_i16, get_u32, readBytes_ok, ok_bind]
    unfold initOs2B
    simp (disch := omega) only [get_u16, ok_bind]
    by_cases h2 : T.os2.length < 78
    · have h3 : Spec.os2Full T = false := by simp only [Spec.os2Full, decide_eq_false_iff_not]; omega
      have h4 : Spec.os2V2 T = false := by simp only [Spec.os2V2, decide_eq_false_iff_not]; omega
      rw [if_pos h2, h3, h4, weightOf_spec, stretchOf_spec]
      simp
    · have h3 : Spec.os2Full T = true := by simp only [Spec.os2Full, decide_eq_true_eq]; omega
      rw [if_neg h2, h3]
      simp (disch := omega) only [get_u16, get_i16, ok_bind]
      have b0 : (word T.os2 62 &&& 1 ≠ 0) = ((word T.os2 62).testBit 0 = true) := by
        rw [← and_bit, bne_iff_ne]; rfl
      have b9 : (word T.os2 62 &&& 0x200 ≠ 0) = ((word T.os2 62).testBit 9 = true) := by
        rw [← and_bit, bne_iff_ne]; rfl
      have b7 : (word T.os2 62 &&& 0x80 != 0) = (word T.os2 62).testBit 7 := and_bit _ 7
      simp only [b0, b9, b7, weightOf_spec, stretchOf_spec, Bool.true_and, if_true]
      by_cases h4 : 96 ≤ T.os2.length ∧ word T.os2 0 ≥ 2
      · have h5 : Spec.os2V2 T = true := by simp only [Spec.os2V2, decide_eq_true_eq]; omega
        rw [if_pos h4, h5]
        have := h4.1
        simp (disch := omega) only [get_i16, ok_bind, if_true]
      · have h5 : Spec.os2V2 T = false := by simp only [Spec.os2V2, decide_eq_false_iff_not]; omega
        rw [if_neg h4, h5]
        simp

/-- `initOs2_ok`, field by field. -/
theorem initOs2_ok' {T : Tables} {f : Face} :
    initOs2 T f = .ok { f with
          weight := if Spec.os2 T then Spec.weight (word T.os2 4) else f.weight
          stretch := if Spec.os2 T then Spec.stretch (word T.os2 6) else f.stretch
          panose := if Spec.os2 T then ((T.os2.drop 32).take 10).map UInt8.toNat else f.panose
          hasPanose := f.hasPanose || Spec.os2 T && (((T.os2.drop 32).take 10).map UInt8.toNat).any (· != 0)
          coverage := if Spec.os2 T then [long T.os2 42, long T.os2 46, long T.os2 50, long T.os2 54] else f.coverage
          hasCoverage := f.hasCoverage || Spec.os2 T &&
            [long T.os2 42, long T.os2 46, long T.os2 50, long T.os2 54].any (· != 0)
          style := if Spec.selection T 0 then 2 else if Spec.selection T 9 then 1 else f.style
          typographic := f.typographic || Spec.typographic T
          dm := { f.dm with
            strikePosition := if Spec.os2 T then -(sword T.os2 28 + sword T.os2 26) else f.dm.strikePosition
            strikeThickness := if Spec.os2 T then sword T.os2 26 else f.dm.strikeThickness
            ascent := if Spec.os2Full T then sword T.os2 68 else f.dm.ascent
            descent := if Spec.os2Full T then |sword T.os2 70| else f.dm.descent
            lineGap := if Spec.os2Full T then sword T.os2 72 else f.dm.lineGap
            xHeight := if Spec.os2V2 T then sword T.os2 86 else f.dm.xHeight
            capHeight := if Spec.os2V2 T then sword T.os2 88 else f.dm.capHeight } } := by
  rw [initOs2_ok]
  cases h : Spec.os2 T with
  | true => simp
  | false =>
    have h' : T.os2.length < 68 := by simpa [Spec.os2] using h
    have h1 : Spec.os2Full T = false := by simp only [Spec.os2Full, decide_eq_false_iff_not]; omega
    have h2 : Spec.os2V2 T = false := by simp only [Spec.os2V2, decide_eq_false_iff_not]; omega
    simp [Spec.typographic, Spec.selection, h1, h2]

theorem initPost_ok {T : Tables} {f : Face} :
    initPost T f = .ok { f with dm := { f.dm with
      underlinePosition := if 32 ≤ T.post.length then -(sword T.post 8 + sword T.post 10) else f.dm.underlinePosition
      underlineThickness := if 32 ≤ T.post.length then sword T.post 10 else f.dm.underlineThickness } } := by
  unfold initPost
  by_cases h : T.post.length < 32
  · simp [if_pos h, show ¬ 32 ≤ T.post.length by omega]
  · rw [if_neg h]
    simp (disch := omega) only [get_i16, ok_bind]
    simp [show 32 ≤ T.post.length by omega]

theorem initH_ok {T : Tables} {f : Face} (hT : Spec.MetricsOk T T.hhea T.hmtx) (hg : f.glyphCount = Spec.glyphs T) (hn : T.hhea ≠ []) :
    initH T f = .ok { f with
      advances := true
      hTable := if T.hmtx ≠ [] then T.hmtx else f.hTable
      hCount := if T.hmtx ≠ [] then Spec.records T T.hhea else f.hCount
      dm := { f.dm with
        ascent := if f.typographic then f.dm.ascent else sword T.hhea 4
        descent := if f.typographic then f.dm.descent else |sword T.hhea 6|
        lineGap := if f.typographic then f.dm.lineGap else sword T.hhea 8
        hMinLsb := sword T.hhea 12
        hMinTsb := sword T.hhea 14
        hMaxAdvance := word T.hhea 10 } } := by
  obtain h | ⟨h, hm⟩ := hT
  · exact absurd h hn
  have hw := word_lt (l := T.hhea) (o := 34) (by omega)
  unfold initH
  rw [if_neg (by omega), if_neg (by omega)]
  simp (disch := omega) only [get_i16, get_u16, ok_bind]
  by_cases hx : T.hmtx = []
  · rw [if_neg (by rw [hx]; simp)]
    cases ht : f.typographic <;> simp [hx, ht]
  · rw [if_pos (by simpa using hx)]
    replace hm := hm.resolve_left hx
    unfold Spec.records at hm ⊢
    cases ht : f.typographic <;> simp only [Bool.false_eq_true, if_false, if_true, hg] <;>
      rw [if_neg (by omega), Nat.mod_eq_of_lt (by omega)] <;> simp [hx, ht]

theorem initH_bad {T : Tables} {f : Face} (hT : ¬Spec.MetricsOk T T.hhea T.hmtx) (hg : f.glyphCount = Spec.glyphs T) :
    ∃ e, e ≠ .ub ∧ initH T f = .error e := by
  unfold Spec.MetricsOk at hT
  unfold initH
  have hn : T.hhea ≠ [] := fun h => hT (.inl h)
  rw [if_neg (by simpa using hn)]
  split
  · exact ⟨_, by simp, rfl⟩
  · simp (disch := omega) only [get_i16, get_u16, ok_bind]
    have hx : T.hmtx ≠ [] := fun h => hT (.inr ⟨by omega, .inl h⟩)
    rw [if_pos (by simpa using hx)]
    have : ¬ 4 * min (word T.hhea 34) (Spec.glyphs T) ≤ T.hmtx.length := fun h => hT (.inr ⟨by omega, .inr h⟩)
    cases ht : f.typographic <;> simp only [Bool.false_eq_true, if_false, if_true, hg] <;>
      rw [if_pos (by omega)] <;> exact ⟨_, by simp, rfl⟩

theorem initV_ok {T : Tables} {f : Face} (hT : Spec.MetricsOk T T.vhea T.vmtx) (hg : f.glyphCount = Spec.glyphs T) (hn : T.vhea ≠ []) :
    initV T f = .ok { f with
      vTable := if T.vmtx ≠ [] then T.vmtx else f.vTable
      vCount := if T.vmtx ≠ [] then Spec.records T T.vhea else f.vCount
      dm := { f.dm with
        vAscent := sword T.vhea 4
        vDescent := sword T.vhea 6
        vMinLsb := sword T.vhea 12
        vMinTsb := sword T.vhea 14
        vMaxAdvance := word T.vhea 10 } } := by
  obtain h | ⟨h, hm⟩ := hT
  · exact absurd h hn
  have hw := word_lt (l := T.vhea) (o := 34) (by omega)
  unfold initV
  rw [if_neg (by omega), if_neg (by omega)]
  simp (disch := omega) only [get_i16, get_u16, ok_bind]
  by_cases hx : T.vmtx = []
  · rw [if_neg (by rw [hx]; simp)]
    simp [hx]
  · rw [if_pos (by simpa using hx)]
    replace hm := hm.resolve_left hx
    unfold Spec.records at hm ⊢
    simp only [hg]
    rw [if_neg (by omega), Nat.mod_eq_of_lt (by omega)]; simp [hx]

theorem initV_bad {T : Tables} {f : Face} (hT : ¬Spec.MetricsOk T T.vhea T.vmtx) (hg : f.glyphCount = Spec.glyphs T) :
    ∃ e, e ≠ .ub ∧ initV T f = .error e := by
  unfold Spec.MetricsOk at hT
  unfold initV
  have hn : T.vhea ≠ [] := fun h => hT (.inl h)
  rw [if_neg (by simpa using hn)]
  split
  · exact ⟨_, by simp, rfl⟩
  · simp (disch := omega) only [get_i16, get_u16, ok_bind]
    have hx : T.vmtx ≠ [] := fun h => hT (.inr ⟨by omega, .inl h⟩)
    rw [if_pos (by simpa using hx)]
    have : ¬ 4 * min (word T.vhea 34) (Spec.glyphs T) ≤ T.vmtx.length := fun h => hT (.inr ⟨by omega, .inr h⟩)
    simp only [hg]
    rw [if_pos (by omega)]; exact ⟨_, by simp, rfl⟩

/-- `initH_ok`, also without a table `hhea`. -/
theorem initH_ok' {T : Tables} {f : Face} (hT : Spec.MetricsOk T T.hhea T.hmtx) (hg : f.glyphCount = Spec.glyphs T) :
    initH T f = .ok { f with
      advances := f.advances || decide (T.hhea ≠ [])
      hTable := if T.hhea ≠ [] ∧ T.hmtx ≠ [] then T.hmtx else f.hTable
      hCount := if T.hhea ≠ [] ∧ T.hmtx ≠ [] then Spec.records T T.hhea else f.hCount
      dm := { f.dm with
        ascent := if T.hhea ≠ [] ∧ f.typographic = false then sword T.hhea 4 else f.dm.ascent
        descent := if T.hhea ≠ [] ∧ f.typographic = false then |sword T.hhea 6| else f.dm.descent
        lineGap := if T.hhea ≠ [] ∧ f.typographic = false then sword T.hhea 8 else f.dm.lineGap
        hMinLsb := if T.hhea ≠ [] then sword T.hhea 12 else f.dm.hMinLsb
        hMinTsb := if T.hhea ≠ [] then sword T.hhea 14 else f.dm.hMinTsb
        hMaxAdvance := if T.hhea ≠ [] then (word T.hhea 10 : Int) else f.dm.hMaxAdvance } } := by
  by_cases h : T.hhea = []
  · simp [initH, h]
  · rw [initH_ok hT hg h]
    cases ht : f.typographic <;> simp [h, ht]

/-- `initV_ok`, also without a table `vhea`. -/
theorem initV_ok' {T : Tables} {f : Face} (hT : Spec.MetricsOk T T.vhea T.vmtx) (hg : f.glyphCount = Spec.glyphs T) :
    initV T f = .ok { f with
      vTable := if T.vhea ≠ [] ∧ T.vmtx ≠ [] then T.vmtx else f.vTable
      vCount := if T.vhea ≠ [] ∧ T.vmtx ≠ [] then Spec.records T T.vhea else f.vCount
      dm := { f.dm with
        vAscent := if T.vhea ≠ [] then sword T.vhea 4 else f.dm.vAscent
        vDescent := if T.vhea ≠ [] then sword T.vhea 6 else f.dm.vDescent
        vMinLsb := if T.vhea ≠ [] then sword T.vhea 12 else f.dm.vMinLsb
        vMinTsb := if T.vhea ≠ [] then sword T.vhea 14 else f.dm.vMinTsb
        vMaxAdvance := if T.vhea ≠ [] then (word T.vhea 10 : Int) else f.dm.vMaxAdvance } } := by
  by_cases h : T.vhea = []
  · simp [initV, h]
  · rw [initV_ok hT hg h]
    simp [h]

end Blend2D.FaceMetrics
