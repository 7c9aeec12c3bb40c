import Verif.Deflate.Pre
import Verif.Deflate.Opt

/-!
# The state loop
-/

namespace Blend2D.Deflate
open Spec

variable {c : Cfg}

theorem inv_chunk (hI : Inv c) (hpc : c.pc = .main) (chunk : List UInt8) : Inv { c with src := chunk, pc := .main } := by
  refine ⟨hI.len, hI.room, hI.static, ?_⟩
  have hs := hI.stage
  rw [Stage] at hs ⊢
  cases hst : c.st <;> simp only [hst] at hs ⊢
  case huffmanBlock => exact ⟨hs.1, Or.inl trivial⟩
  case copyStored => exact ⟨trivial, hs.2⟩
  case zlibHeader => exact ⟨trivial, hs.2⟩
  case blockHeader => exact ⟨trivial, hs.2⟩
  case storedHeader => exact ⟨trivial, hs.2⟩
  case precodeLens =>
    have h3 : c.idx ≤ c.workCount := hs.2.2.1
    simp only [Cfg.idx, hpc] at h3
    exact ⟨hs.1, hs.2.1, h3, hs.2.2.2.1, hs.2.2.2.2.1, Or.inl trivial⟩
  case codeLens =>
    obtain ⟨h1, h2, h3, h4, h5, h6⟩ := hs
    simp only [Cfg.idx, hpc] at h3 h5
    exact ⟨h1, h2, h3, h4, h5, Or.inl trivial⟩

theorem main_eq (hpc : c.pc = .main) : { c with pc := .main } = c := by rw [← hpc]

/-- The input ends in a header. -/
theorem head_trunc (hI : Inv c) (hpc : c.pc = .main) (hsrc : c.src = [])
    (h : ∀ r, r ≠ .refused → Sim c [] r → r = .truncated) : StepOk c (notEnoughInput c) := by
  refine trunc_ok hsrc (inv_chunk hI hpc) (fun fut r hr hs => ⟨?_, fun hf => ?_⟩)
  · rw [main_eq hpc]; exact hs
  · rw [hf] at hs; exact h r hr hs

theorem zlib_ok (hI : Inv c) (hpc : c.pc = .main) (hfull : c.src = [] ∨ 56 ≤ c.bits.len) (hst : c.st = .zlibHeader) :
    StepOk c (mainBody c) := by
  have hsim : ∀ {fut r}, Sim c fut r → c.bits.Agree (c.src ++ fut) ∧ c.bits.Clean ∧
      r = (zlibHeader (c.S fut)).bind fun s => blocks plain false s c.out := by
    intro fut r hs
    rw [Sim, hst] at hs
    exact hs
  have h63 := hI.len
  have hstage := hI.stage
  rw [Stage, hst] at hstage
  rw [mainBody, hst]
  simp only []
  split
  · rename_i hl
    have hsrc : c.src = [] := by rcases hfull with h | h; exact h; omega
    refine head_trunc hI hpc hsrc (fun r _ hs => ?_)
    rw [(hsim hs).2.2, zlibHeader, Cfg.S, hsrc, List.append_nil]
    simp only [bind_eq]
    by_cases h8 : 8 ≤ c.bits.len
    · rw [bits_drop h8, bind_ok]
      simp only []
      rw [bits_short (by rw [stream_len, drop_len, List.length_nil]; omega)]
      rfl
    · rw [bits_short (by rw [stream_len, List.length_nil]; omega)]
      rfl
  · rename_i hl
    have hspec : ∀ fut, zlibHeader (c.S fut) = if (c.bits.extract 0 8 * 256 + c.bits.extract 8 8) % 31 = 0 ∧ c.bits.extract 0 8 % 16 = 8 ∧
        c.bits.extract 8 8 / 32 % 2 = 0 then .ok ((c.bits.drop 16).stream (c.src ++ fut)) else .invalid := by
      intro fut
      rw [zlibHeader, Cfg.S]
      simp only [bind_eq, pure_eq]
      rw [bits_drop (by omega), bind_ok]
      simp only []
      rw [bits_drop (by rw [drop_len]; omega), bind_ok, drop_drop, BitBuf.extract, BitBuf.extract, Nat.pow_zero, Nat.div_one]
      rfl
    have hinv : ¬ ((c.bits.extract 0 8 * 256 + c.bits.extract 8 8) % 31 = 0 ∧ c.bits.extract 0 8 % 16 = 8 ∧
        c.bits.extract 8 8 / 32 % 2 = 0) → ∀ c', StepOk c (errorInvalid c') := by
      intro hn c' fut r _ hs o
      rw [(hsim hs).2.2, hspec, if_neg hn]
      simp
    split
    · rename_i h1
      exact hinv (fun h => h1 h.1) c
    rename_i h1
    split
    · rename_i h2
      exact hinv (fun h => h2 h.2.1) c
    rename_i h2
    split
    · rename_i h3
      exact hinv (fun h => h3 h.2.2) c
    rename_i h3
    rw [consume_drop (by omega), Option.map_some]
    have hd := drop_len c.bits 16
    refine ⟨⟨by show (c.bits.drop 16).len ≤ 63; omega, hI.room, hI.static, hstage⟩, ⟨Nat.le_refl _, Or.inl ?_⟩, fun fut r _ hs => ?_⟩
    · show (c.bits.drop 16).len + 8 * c.src.length < c.bits.len + 8 * c.src.length
      omega
    · obtain ⟨g1, g2, g3⟩ := hsim hs
      refine ⟨drop_agree (by omega) g1, false, fun _ => drop_clean (by omega) g2, ?_⟩
      rw [g3, hspec, if_pos ⟨by omega, by omega, by omega⟩, bind_ok]
      rfl

theorem body_eq (seen : Bool) (out : List UInt8) (x : Result (List Nat × List Nat × Stream)) :
    (x.bind fun p => match p with
      | (litLen, offset, s) => if plain seen (.dynamic litLen offset) = true then huffman litLen offset s out else .refused) = x.bind (body out) := by
  cases x <;> rfl

theorem block_ok (hI : Inv c) (hpc : c.pc = .main) (hfull : c.src = [] ∨ 56 ≤ c.bits.len) (hst : c.st = .blockHeader) :
    StepOk c (mainBody c) := by
  have hsim : ∀ {fut r}, Sim c fut r → c.bits.Agree (c.src ++ fut) ∧
      ∃ seen, (seen = false → c.bits.Clean) ∧ r = blocks plain seen (c.S fut) c.out := by
    intro fut r hs
    rw [Sim, hst] at hs
    exact hs
  have h63 := hI.len
  have hstage := hI.stage
  rw [Stage, hst] at hstage
  rw [mainBody, hst]
  simp only []
  split
  · rename_i hl
    have hsrc : c.src = [] := by rcases hfull with h | h; exact h; omega
    refine head_trunc hI hpc hsrc (fun r _ hs => ?_)
    obtain ⟨_, seen, _, g⟩ := hsim hs
    rw [g, blocks_eq, Cfg.S, hsrc, List.append_nil]
    by_cases h8 : 1 ≤ c.bits.len
    · rw [bits_drop h8, bind_ok]
      simp only []
      rw [bits_short (by rw [stream_len, drop_len, List.length_nil]; omega), bind_truncated]
    · rw [bits_short (by rw [stream_len, List.length_nil]; omega), bind_truncated]
  · rename_i hl
    have hspec : ∀ fut seen, blocks plain seen (c.S fut) c.out = after (seen || c.bits.extract 1 2 != 0) (c.bits.extract 0 1 == 1)
        (block plain seen (c.bits.extract 1 2) ((c.bits.drop 3).stream (c.src ++ fut)) c.out) := by
      intro fut seen
      rw [blocks_eq, Cfg.S, bits_drop (by omega), bind_ok]
      simp only []
      rw [bits_drop (by rw [drop_len]; omega), bind_ok, drop_drop, after, BitBuf.extract, BitBuf.extract, Nat.pow_zero, Nat.div_one]
      simp only [beq_iff_eq]
      rfl
    have hty : c.bits.extract 1 2 < 4 := Nat.mod_lt _ (by decide)
    split
    · rename_i h3
      intro fut r _ hs o
      obtain ⟨_, seen, _, g⟩ := hsim hs
      rw [g, hspec, h3]
      exact after_not_ok (by simp [block]) o
    rename_i h3
    rw [consume_drop (by omega)]
    simp only []
    have hd := drop_len c.bits 3
    rw [hstage.2, Bool.false_or]
    split
    · rename_i h0
      rw [consume_drop (Nat.mod_le _ _), Option.map_some, drop_drop, hd]
      have hd2 := drop_len c.bits (3 + (c.bits.len - 3) % 8)
      have hle : 3 + (c.bits.len - 3) % 8 ≤ c.bits.len := by have := Nat.mod_le (c.bits.len - 3) 8; omega
      refine ⟨⟨by show (c.bits.drop (3 + (c.bits.len - 3) % 8)).len ≤ 63; omega, hI.room, hI.static, ⟨hpc, ?_⟩⟩, ⟨Nat.le_refl _, Or.inl ?_⟩, fun fut r hr hs => ?_⟩
      · show (c.bits.drop (3 + (c.bits.len - 3) % 8)).len % 8 = 0
        omega
      · show (c.bits.drop (3 + (c.bits.len - 3) % 8)).len + 8 * c.src.length < c.bits.len + 8 * c.src.length
        omega
      · obtain ⟨g1, seen, g2, g3⟩ := hsim hs
        rw [hspec, h0, block] at g3
        cases seen with
        | true => exact absurd g3 hr
        | false =>
          refine ⟨drop_agree hle g1, drop_clean hle (g2 rfl), ?_⟩
          rw [if_pos (by rfl)] at g3
          rw [g3]
          show after false _ _ = after false (c.bits.extract 0 1 == 1) (stored ((c.bits.drop (3 + (c.bits.len - 3) % 8)).stream (c.src ++ fut)) c.out)
          rw [← drop_drop, drop_stream (b := c.bits.drop 3) (by rw [hd]; exact Nat.mod_le _ _), stream_len, hd, Nat.add_mul_mod_self_left]
    rename_i h0
    split
    · rename_i h1
      refine ⟨⟨by show (c.bits.drop 3).len ≤ 63; omega, hI.room, hI.static, hpc⟩, ⟨Nat.le_refl _, Or.inl ?_⟩, fun fut r hr hs => ?_⟩
      · show (c.bits.drop 3).len + 8 * c.src.length < c.bits.len + 8 * c.src.length
        omega
      · obtain ⟨g1, seen, g2, g3⟩ := hsim hs
        refine ⟨drop_agree (by omega) g1, ?_⟩
        rw [g3, hspec, h1, block, if_pos (by rfl)]
        simp
        rfl
    · rename_i h1
      have h2 : c.bits.extract 1 2 = 2 := by omega
      refine ⟨⟨by show (c.bits.drop 3).len ≤ 63; omega, hI.room, hI.static, hpc⟩, ⟨Nat.le_refl _, Or.inl ?_⟩, fun fut r hr hs => ?_⟩
      · show (c.bits.drop 3).len + 8 * c.src.length < c.bits.len + 8 * c.src.length
        omega
      · obtain ⟨g1, seen, g2, g3⟩ := hsim hs
        refine ⟨drop_agree (by omega) g1, ?_⟩
        rw [g3, hspec, h2, block]
        simp only [bind_eq]
        rw [body_eq]
        simp
        rfl

theorem xor_sub {x : Nat} (h : x < 65536) : x ^^^ 65535 = 65535 - x := by
  apply Nat.eq_of_testBit_eq
  intro i
  have h1 := Nat.testBit_two_pow_sub_succ (n := 16) (x := x) (by simpa using h) i
  rw [show 2 ^ 16 - (x + 1) = 65535 - x by omega] at h1
  rw [h1, Nat.testBit_xor, show (65535 : Nat) = 2 ^ 16 - 1 from rfl, Nat.testBit_two_pow_sub_one]
  by_cases hi : i < 16
  · simp [hi]
  · have : x.testBit i = false := Nat.testBit_lt_two_pow (Nat.lt_of_lt_of_le h (by
      have := Nat.pow_le_pow_right (n := 2) (by decide) (show 16 ≤ i by omega); simpa using this))
    simp [hi, this]

theorem stored_ok (hI : Inv c) (hpc : c.pc = .main) (hfull : c.src = [] ∨ 56 ≤ c.bits.len) (hst : c.st = .storedHeader) :
    StepOk c (mainBody c) := by
  have hsim : ∀ {fut r}, Sim c fut r → c.bits.Agree (c.src ++ fut) ∧ c.bits.Clean ∧ r = after false c.finalBlock (stored (c.S fut) c.out) := by
    intro fut r hs
    rw [Sim, hst] at hs
    exact hs
  have h63 := hI.len
  have hstage := hI.stage
  rw [Stage, hst] at hstage
  rw [mainBody, hst]
  simp only []
  rw [if_neg (by omega)]
  split
  · rename_i hl
    have hsrc : c.src = [] := by rcases hfull with h | h; exact h; omega
    refine head_trunc hI hpc hsrc (fun r _ hs => ?_)
    rw [(hsim hs).2.2, stored, Cfg.S, hsrc, List.append_nil]
    simp only [bind_eq]
    by_cases h8 : 16 ≤ c.bits.len
    · rw [bits_drop h8, bind_ok]
      simp only []
      rw [bits_short (by rw [stream_len, drop_len, List.length_nil]; omega)]
      rfl
    · rw [bits_short (by rw [stream_len, List.length_nil]; omega)]
      rfl
  · rename_i hl
    have hn : c.bits.extract 0 16 < 65536 := Nat.mod_lt _ (by decide)
    have hm : c.bits.extract 16 16 < 65536 := Nat.mod_lt _ (by decide)
    have hspec : ∀ fut, stored (c.S fut) c.out = if c.bits.extract 0 16 + c.bits.extract 16 16 = 65535 then
        storedBytes (c.bits.extract 0 16) ((c.bits.drop 32).stream (c.src ++ fut)) c.out else .invalid := by
      intro fut
      rw [stored, Cfg.S]
      simp only [bind_eq]
      rw [bits_drop (by omega), bind_ok]
      simp only []
      rw [bits_drop (by rw [drop_len]; omega), bind_ok, drop_drop, BitBuf.extract, BitBuf.extract, Nat.pow_zero, Nat.div_one]
      rfl
    rw [xor_sub hm]
    split
    · rename_i hne
      intro fut r _ hs o
      rw [(hsim hs).2.2, hspec, if_neg (by omega)]
      exact after_not_ok (by simp) o
    rename_i hne
    have he : c.bits.extract 0 16 + c.bits.extract 16 16 = 65535 := by omega
    rw [consume_drop (by omega)]
    simp only []
    have hd := drop_len c.bits 32
    split
    · rename_i h0
      refine done_ok (by show (c.bits.drop 32).len ≤ 63; omega) hI.room hI.static (Nat.le_refl _) ?_ (fun fut r _ hs => ?_)
      · show (c.bits.drop 32).len + 8 * c.src.length < c.bits.len + 8 * c.src.length
        omega
      · obtain ⟨g1, g2, g3⟩ := hsim hs
        refine ⟨false, drop_agree (by omega) g1, fun _ => drop_clean (by omega) g2, ?_⟩
        rw [g3, hspec, if_pos he, h0, storedBytes, if_pos (by omega)]
        simp only [List.range_zero, List.map_nil, List.append_nil, Nat.mul_zero, skip_zero, pure_eq]
        rfl
    · rename_i h0
      refine stepOk_trans (c1 := { c with bits := c.bits.drop 32, copyRemaining := c.bits.extract 0 16, st := .copyStored }) ⟨Nat.le_refl _, Or.inl ?_⟩ (fun fut r _ hs => ?_)
        (copyStored_ok ⟨by show (c.bits.drop 32).len ≤ 63; omega, hI.room, hI.static, hpc, by show (c.bits.drop 32).len % 8 = 0; omega, h0⟩ rfl)
      · show (c.bits.drop 32).len + 8 * c.src.length < c.bits.len + 8 * c.src.length
        omega
      · obtain ⟨g1, g2, g3⟩ := hsim hs
        refine ⟨drop_agree (by omega) g1, drop_clean (by omega) g2, ?_⟩
        rw [g3, hspec, if_pos he]
        rfl

theorem static_lit (lens : Nat → Nat) : (List.range 288).map (staticLens lens) = fixedLitLen := by
  have h : (List.range 288).map (staticLens lens) = (List.range 288).map (staticLens fun _ => 0) := by
    apply List.map_congr_left
    intro i hi
    rw [List.mem_range] at hi
    simp only [staticLens]
    split <;> [rfl; (split <;> [rfl; (split <;> [rfl; rfl])])]
  rw [h]
  decide +kernel

theorem static_off (lens : Nat → Nat) : (List.range 32).map (fun i => staticLens lens (288 + i)) = fixedOffset := by
  have h : (List.range 32).map (fun i => staticLens lens (288 + i)) = (List.range 32).map (fun _ => 5) := by
    apply List.map_congr_left
    intro i hi
    rw [List.mem_range] at hi
    simp only [staticLens]
    rw [if_neg (by omega), if_neg (by omega), if_neg (by omega), if_neg (by omega), if_pos (by omega)]
  rw [h]
  decide +kernel

theorem fixed_complete : Complete fixedLitLen ∧ Complete fixedOffset ∧ (∀ l ∈ fixedLitLen, l ≤ 15) ∧ ∀ l ∈ fixedOffset, l ≤ 15 := by decide +kernel

theorem static_ok (hI : Inv c) (hpc : c.pc = .main) (hst : c.st = .staticHeader) : StepOk c (mainBody c) := by
  have hsim : ∀ {fut r}, Sim c fut r → c.bits.Agree (c.src ++ fut) ∧
      r = after true c.finalBlock (huffman fixedLitLen fixedOffset (c.S fut) c.out) := by
    intro fut r hs
    rw [Sim, hst] at hs
    exact hs
  rw [mainBody, hst]
  simp only []
  split
  · rename_i ha
    obtain ⟨h1, h2, h3⟩ := hI.static ha
    refine ⟨⟨hI.len, hI.room, hI.static, h1, Or.inl hpc⟩, ⟨Nat.le_refl _, Or.inr ⟨rfl, Or.inl ?_⟩⟩, fun fut r _ hs => ?_⟩
    · simp only [Cfg.rank, Cfg.low, Cfg.stageRank, hst, hpc]
      simp
    · obtain ⟨g1, g2⟩ := hsim hs
      refine ⟨g1, Or.inl h3, ?_⟩
      show r = after true c.finalBlock (huffman c.ll c.dl (c.S fut) c.out)
      rw [h2, h3]
      exact g2
  · have hll : ({ c with staticActive := true, litLenCount := 288, offsetCount := 32, lens := staticLens c.lens } : Cfg).ll = fixedLitLen :=
      static_lit c.lens
    have hdl : ({ c with staticActive := true, litLenCount := 288, offsetCount := 32, lens := staticLens c.lens } : Cfg).dl = fixedOffset :=
      static_off c.lens
    obtain ⟨f1, f2, f3, f4⟩ := fixed_complete
    have hb := build_cases (c := { c with staticActive := true, litLenCount := 288, offsetCount := 32, lens := staticLens c.lens })
      ⟨Nat.le_refl _, Nat.le_refl _⟩ (by rw [hll]; exact f3) (by rw [hdl]; exact f4)
    rw [hll, hdl] at hb
    rcases hb with ⟨_, i1, t1, i2, t2, he, hL, hO⟩ | ⟨hn, _⟩
    · rw [← hst, he]
      have hT : Tables { c with staticActive := true, litLenCount := 288, offsetCount := 32, lens := staticLens c.lens, offInfo := i1, offTab := t1, litInfo := i2, litTab := t2, st := .huffmanBlock, pc := .main } := by
        rw [Tables]
        refine ⟨?_, ?_⟩
        · rw [show ({ c with staticActive := true, litLenCount := 288, offsetCount := 32, lens := staticLens c.lens, offInfo := i1, offTab := t1, litInfo := i2, litTab := t2, st := .huffmanBlock, pc := .main } : Cfg).ll = fixedLitLen from hll]
          exact hL
        · rw [show ({ c with staticActive := true, litLenCount := 288, offsetCount := 32, lens := staticLens c.lens, offInfo := i1, offTab := t1, litInfo := i2, litTab := t2, st := .huffmanBlock, pc := .main } : Cfg).dl = fixedOffset from hdl]
          exact hO
      refine ⟨⟨hI.len, hI.room, fun _ => ⟨hT, hll, hdl⟩, hT, Or.inl rfl⟩, ⟨Nat.le_refl _, Or.inr ⟨rfl, Or.inl ?_⟩⟩, fun fut r _ hs => ?_⟩
      · simp only [Cfg.rank, Cfg.low, Cfg.stageRank, hst]
        simp
      · obtain ⟨g1, g2⟩ := hsim hs
        refine ⟨g1, Or.inl hdl, ?_⟩
        show r = after true c.finalBlock (huffman ({ c with staticActive := true, litLenCount := 288, offsetCount := 32, lens := staticLens c.lens } : Cfg).ll
          ({ c with staticActive := true, litLenCount := 288, offsetCount := 32, lens := staticLens c.lens } : Cfg).dl (c.S fut) c.out)
        rw [hll, hdl]
        exact g2
    · exact absurd ⟨Or.inl f2, Or.inl f1⟩ hn

theorem dynamic_ok (hI : Inv c) (hpc : c.pc = .main) (hfull : c.src = [] ∨ 56 ≤ c.bits.len) (hst : c.st = .dynamicHeader) :
    StepOk c (mainBody c) := by
  have hsim : ∀ {fut r}, Sim c fut r → c.bits.Agree (c.src ++ fut) ∧
      r = after true c.finalBlock ((dynamicCodes (c.S fut)).bind (body c.out)) := by
    intro fut r hs
    rw [Sim, hst] at hs
    exact hs
  have h63 := hI.len
  rw [mainBody, hst]
  simp only []
  split
  · rename_i hl
    have hsrc : c.src = [] := by rcases hfull with h | h; exact h; omega
    refine head_trunc hI hpc hsrc (fun r _ hs => ?_)
    rw [(hsim hs).2, dynamicCodes_eq, Cfg.S, hsrc, List.append_nil]
    by_cases h5 : 5 ≤ c.bits.len
    · rw [bits_drop h5, bind_ok]
      simp only []
      by_cases h10 : 10 ≤ c.bits.len
      · rw [bits_drop (by rw [drop_len]; omega), bind_ok]
        simp only []
        by_cases h14 : 14 ≤ c.bits.len
        · rw [bits_drop (by rw [drop_len, drop_len]; omega), bind_ok]
          simp only []
          rw [many_short _ _ (by rw [stream_len, drop_len, drop_len, drop_len, List.length_nil]; omega)]
          rfl
        · rw [bits_short (by rw [stream_len, drop_len, drop_len, List.length_nil]; omega)]
          rfl
      · rw [bits_short (by rw [stream_len, drop_len, List.length_nil]; omega)]
        rfl
    · rw [bits_short (by rw [stream_len, List.length_nil]; omega)]
      rfl
  · rename_i hl
    rw [setPrecode_some (by omega)]
    simp only []
    rw [setPrecode_some (by omega)]
    simp only []
    rw [setPrecode_some (by omega)]
    simp only []
    rw [setPrecode_some (by omega)]
    simp only []
    rw [consume_drop (by omega), Option.map_some]
    -- the state with no length stored yet
    let c0 : Cfg := { c with litLenCount := c.bits.extract 0 5 + 257, offsetCount := c.bits.extract 5 5 + 1, staticActive := false, workIndex := 4, workCount := c.bits.extract 10 4 + 4, precodeLens := fun i => if i < 19 then 0 else c.precodeLens i, bits := c.bits.drop 14, st := .precodeLens, pc := .precode 0 }
    have hw : c.bits.extract 10 4 < 16 := Nat.mod_lt _ (by decide)
    have hl5 : c.bits.extract 0 5 < 32 := Nat.mod_lt _ (by decide)
    have ho5 : c.bits.extract 5 5 < 32 := Nat.mod_lt _ (by decide)
    have hsim0 : ∀ fut r, Sim c fut r → Sim c0 fut r := by
      intro fut r hs
      obtain ⟨g1, g2⟩ := hsim hs
      refine (pre_sim (c := c0) rfl).2 ⟨drop_agree (by omega) g1, [], rfl, ?_, ?_⟩
      · intro s hs
        show (if s < 19 then 0 else c.precodeLens s) = _
        rw [if_pos hs]
        simp
      · rw [g2, dynamicCodes_eq, Cfg.S, bits_drop (by omega), bind_ok]
        simp only []
        rw [bits_drop (by rw [drop_len]; omega), bind_ok]
        simp only []
        rw [bits_drop (by rw [drop_len, drop_len]; omega), bind_ok, drop_drop, drop_drop]
        show _ = after true c.finalBlock (((many 3 (c.bits.extract 10 4 + 4 - 0) ((c.bits.drop 14).stream (c.src ++ fut))).bind fun p =>
          dynRest (c.bits.extract 0 5 + 257 - 257) (c.bits.extract 5 5 + 1 - 1) ([] ++ p.1) p.2).bind (body c.out))
        simp only [Nat.add_sub_cancel, Nat.sub_zero, List.nil_append]
        simp only [BitBuf.extract, Nat.pow_zero, Nat.div_one]
        rfl
    have hsim4 : ∀ fut r, Sim c fut r → Sim ((((c0.pre 0).pre 1).pre 2).pre 3) fut r := by
      intro fut r hs
      have hlen : c0.bits.len = c.bits.len - 14 := rfl
      have hwc : c0.workCount = c.bits.extract 10 4 + 4 := rfl
      have h1 := pre_adv (c := c0) rfl (i := 0) rfl (by omega) (by omega) (by omega) (hsim0 fut r hs)
      have h2 := pre_adv (c := c0.pre 0) rfl (i := 1) rfl (by show 1 < c0.workCount; omega) (by show c0.workCount ≤ 19; omega) (by show 3 ≤ c0.bits.len - 3; omega) h1
      have h3 := pre_adv (c := (c0.pre 0).pre 1) rfl (i := 2) rfl (by show 2 < c0.workCount; omega) (by show c0.workCount ≤ 19; omega) (by show 3 ≤ c0.bits.len - 3 - 3; omega) h2
      exact pre_adv (c := ((c0.pre 0).pre 1).pre 2) rfl (i := 3) rfl (by show 3 < c0.workCount; omega) (by show c0.workCount ≤ 19; omega) (by show 3 ≤ c0.bits.len - 3 - 3 - 3; omega) h3
    have h7 : ∀ j < 19, ((((c0.pre 0).pre 1).pre 2).pre 3).precodeLens j ≤ 7 := by
      refine update_le (update_le (update_le (update_le ?_ (Nat.mod_lt _ (by decide))) (Nat.mod_lt _ (by decide))) (Nat.mod_lt _ (by decide))) (Nat.mod_lt _ (by decide))
      intro j hj
      show (if j < 19 then 0 else c.precodeLens j) ≤ 7
      rw [if_pos hj]
      omega
    have hpre : ((((c0.pre 0).pre 1).pre 2).pre 3) = { c with
        litLenCount := c.bits.extract 0 5 + 257, offsetCount := c.bits.extract 5 5 + 1, staticActive := false,
        workIndex := 4, workCount := c.bits.extract 10 4 + 4,
        precodeLens := Function.update (Function.update (Function.update (Function.update (fun i => if i < 19 then 0 else c.precodeLens i)
          (precodeOrder.getD 0 0) (c.bits.extract 14 3)) (precodeOrder.getD 1 0) (c.bits.extract 17 3)) (precodeOrder.getD 2 0) (c.bits.extract 20 3))
          (precodeOrder.getD 3 0) (c.bits.extract 23 3),
        bits := c.bits.drop 26, st := .precodeLens, pc := .precode 4 } := by
      simp only [c0, Cfg.pre, drop_drop]
      rfl
    rw [hpre] at hsim4 h7
    simp only [] at h7
    revert hsim4 h7
    generalize Function.update (Function.update (Function.update (Function.update (fun i => if i < 19 then 0 else c.precodeLens i)
          (precodeOrder.getD 0 0) (c.bits.extract 14 3)) (precodeOrder.getD 1 0) (c.bits.extract 17 3)) (precodeOrder.getD 2 0) (c.bits.extract 20 3))
          (precodeOrder.getD 3 0) (c.bits.extract 23 3) = L
    intro hsim4 h7
    have hd := drop_len c.bits 26
    refine ⟨⟨by show (c.bits.drop 26).len ≤ 63; omega, hI.room, fun h => (nomatch h), ?_⟩, ⟨Nat.le_refl _, Or.inl ?_⟩, fun fut r _ hs => ?_⟩
    · refine ⟨rfl, ⟨?_, ?_, ?_, ?_⟩, ?_, ?_, h7, Or.inl hpc⟩
      · show 257 ≤ c.bits.extract 0 5 + 257; omega
      · show c.bits.extract 0 5 + 257 ≤ 288; omega
      · show 1 ≤ c.bits.extract 5 5 + 1; omega
      · show c.bits.extract 5 5 + 1 ≤ 32; omega
      · simp only [Cfg.idx, hpc]; omega
      · show c.bits.extract 10 4 + 4 ≤ 19; omega
    · show (c.bits.drop 26).len + 8 * c.src.length < c.bits.len + 8 * c.src.length
      omega
    · have := (pre_sim rfl).1 (hsim4 fut r hs)
      refine (pre_sim rfl).2 ?_
      simp only [Cfg.idx, hpc] at this ⊢
      exact this

theorem huffMain_ok (hI : Inv c) (hpc : c.pc = .main) (hst : c.st = .huffmanBlock) : StepOk c (mainBody c) := by
  have hT := huff_tables hI hst
  rw [mainBody, hst]
  simp only []
  rw [← hst]
  split
  · rename_i h
    exact h.1
  split
  · rename_i h
    rw [load64_some 8 _ h.1]
    simp only []
    obtain ⟨l1, l2, l3, l4⟩ := refillWord_len (w := ofBytes (c.src.take 8)) hI.len
    obtain ⟨e, he⟩ := litRead_some hT.1 (c.bits.refillWord (ofBytes (c.src.take 8))).1
    rw [show c.litTab.read 2342 ((c.bits.refillWord (ofBytes (c.src.take 8))).1.word % 2 ^ c.litInfo.tableBits) = some e from he, Option.map_some]
    refine ⟨inv_upd (b := (c.bits.refillWord (ofBytes (c.src.take 8))).1) (s := c.src.drop (c.bits.refillWord (ofBytes (c.src.take 8))).2) (o := c.out)
      (k := 0) (cap := c.cap) (p := .opt e) hI hst l3 hI.room (Or.inr (Or.inr ⟨e, rfl, l2, he⟩)), ⟨?_, Or.inr ⟨?_, Or.inl ?_⟩⟩, fun fut r _ hs => ?_⟩
    · rw [List.length_drop]; omega
    · show (c.bits.refillWord (ofBytes (c.src.take 8))).1.len + 8 * (c.src.drop _).length = c.bits.len + 8 * c.src.length
      rw [List.length_drop]; omega
    · simp only [Cfg.rank, Cfg.low, Cfg.stageRank, hst, hpc]
      simp
    · obtain ⟨h1, h2, h3⟩ := (sim_huff hst).1 hs
      obtain ⟨g1, g2⟩ := refillWord_stream hI.len h.1 h1
      exact (sim_upd (b := (c.bits.refillWord (ofBytes (c.src.take 8))).1) (s := c.src.drop (c.bits.refillWord (ofBytes (c.src.take 8))).2) (o := c.out)
        (k := 0) (cap := c.cap) (p := .opt e) hst).2 ⟨g2, h2, by rw [g1]; exact h3⟩
  · refine ⟨inv_upd (b := c.bits) (s := c.src) (o := c.out) (k := 0) (cap := c.cap) (p := .safe) hI hst hI.len hI.room (Or.inr (Or.inl rfl)),
      ⟨Nat.le_refl _, Or.inr ⟨rfl, Or.inl ?_⟩⟩, fun fut r _ hs => ?_⟩
    · simp only [Cfg.rank, Cfg.low, Cfg.stageRank, hst, hpc]
      simp
    · exact (sim_upd (b := c.bits) (s := c.src) (o := c.out) (k := 0) (cap := c.cap) (p := .safe) hst).2 ((sim_huff hst).1 hs)

theorem preMain_ok (hI : Inv c) (hpc : c.pc = .main) (hfull : c.src = [] ∨ 56 ≤ c.bits.len) (hst : c.st = .precodeLens) :
    StepOk c (mainBody c) := by
  obtain ⟨s1, s2, s3, s4, s5, s6⟩ := pre_stage hI hst
  have hidx : c.idx = c.workIndex := by simp only [Cfg.idx, hpc]
  rw [mainBody, hst]
  simp only []
  rw [← hst]
  refine ⟨⟨hI.len, hI.room, hI.static, ?_⟩, ⟨Nat.le_refl _, Or.inr ⟨rfl, Or.inl ?_⟩⟩, fun fut r _ hs => ?_⟩
  · rw [Stage]
    simp only [hst]
    refine ⟨s1, s2, by rw [hidx] at s3; exact s3, s4, s5, Or.inr ⟨⟨_, rfl⟩, ?_⟩⟩
    rcases hfull with h | h
    · exact Or.inl h
    · exact Or.inr (by show 56 ≤ c.bits.len + _; omega)
  · simp only [Cfg.rank, Cfg.low, Cfg.stageRank, hst, hpc]
    simp
  · have := (pre_sim hst).1 hs
    rw [hidx] at this
    exact (pre_sim (c := { c with pc := .precode c.workIndex }) hst).2 this

theorem codesMain_ok (hI : Inv c) (hpc : c.pc = .main) (hst : c.st = .codeLens) : StepOk c (mainBody c) := by
  obtain ⟨s1, s2, s3, s4, s5, s6⟩ := codes_stage hI hst
  have hidx : c.idx = c.workIndex := by simp only [Cfg.idx, hpc]
  rw [hidx] at s3 s5
  rw [mainBody, hst]
  simp only []
  rw [← hst]
  refine ⟨⟨hI.len, hI.room, hI.static, ?_⟩, ⟨Nat.le_refl _, Or.inr ⟨rfl, Or.inl ?_⟩⟩, fun fut r _ hs => ?_⟩
  · rw [Stage]
    simp only [hst]
    exact ⟨s1, s2, s3, s4, s5, Or.inr ⟨_, rfl⟩⟩
  · simp only [Cfg.rank, Cfg.low, Cfg.stageRank, hst, hpc]
    simp
  · have := (codes_sim hst).1 hs
    rw [hidx] at this
    exact (codes_sim (c := { c with pc := .codes c.workIndex }) hst).2 this

theorem mainBody_ok (hI : Inv c) (hpc : c.pc = .main) (hfull : c.src = [] ∨ 56 ≤ c.bits.len) : StepOk c (mainBody c) := by
  have hs := hI.stage
  cases hst : c.st with
  | zlibHeader => exact zlib_ok hI hpc hfull hst
  | blockHeader => exact block_ok hI hpc hfull hst
  | storedHeader => exact stored_ok hI hpc hfull hst
  | copyStored =>
    have : mainBody c = copyStored c := by rw [mainBody, hst]
    rw [this]
    exact copyStored_ok hI hst
  | staticHeader => exact static_ok hI hpc hst
  | dynamicHeader => exact dynamic_ok hI hpc hfull hst
  | precodeLens => exact preMain_ok hI hpc hfull hst
  | codeLens => exact codesMain_ok hI hpc hst
  | huffmanBlock => exact huffMain_ok hI hpc hst
  | done => rw [Stage, hst] at hs; exact hs.elim
  | invalid => rw [Stage, hst] at hs; exact hs.elim

end Blend2D.Deflate
