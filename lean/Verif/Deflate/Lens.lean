import Verif.Deflate.Stored

/-!
# The code lengths of a dynamic block
-/

namespace Blend2D.Deflate
open Spec

variable {c : Cfg}

/-! ## Tables -/

theorem build_cases (hc : c.litLenCount ≤ 288 ∧ c.offsetCount ≤ 32) (hl : ∀ l ∈ c.ll, l ≤ 15) (hd : ∀ l ∈ c.dl, l ≤ 15) :
    (((Complete c.dl ∨ Single c.dl ∨ Unused c.dl) ∧ (Complete c.ll ∨ Single c.ll)) ∧
      ∃ i1 t1 i2 t2, buildTables c = some (.next { c with offInfo := i1, offTab := t1, litInfo := i2, litTab := t2, st := .huffmanBlock, pc := .main }) ∧
        LitTable c.ll i2.tableBits t2 ∧ OffTable c.dl i1.tableBits t1) ∨
    (¬ ((Complete c.dl ∨ Single c.dl ∨ Unused c.dl) ∧ (Complete c.ll ∨ Single c.ll)) ∧ ∃ c', buildTables c = errorInvalid c') := by
  have l1 : c.ll.length ≤ 288 := by simp [Cfg.ll, hc.1]
  have l2 : c.dl.length ≤ 32 := by simp [Cfg.dl, hc.2]
  obtain ⟨o1, o2⟩ := offset_cases c.offTab c.garbage l2 hd
  obtain ⟨p1, p2⟩ := litlen_cases c.litTab c.garbage l1 hl
  rw [Cfg.dl] at o1 o2
  rw [Cfg.ll] at p1 p2
  simp only [buildTables]
  by_cases h1 : Complete c.dl ∨ Single c.dl ∨ Unused c.dl
  · obtain ⟨i1, t1, e1, b1⟩ := o1 h1
    rw [e1]
    simp only []
    by_cases h2 : Complete c.ll ∨ Single c.ll
    · obtain ⟨i2, t2, e2, b2⟩ := p1 h2
      rw [e2]
      exact Or.inl ⟨⟨h1, h2⟩, i1, t1, i2, t2, rfl, litTable l1 hl h2 b2, offTable l2 hd h1 b1⟩
    · rw [p2 h2]
      exact Or.inr ⟨fun h => h2 h.2, _, rfl⟩
  · rw [o2 h1]
    exact Or.inr ⟨fun h => h1 h.1, _, rfl⟩

/-! ## The loop over code lengths -/

theorem codes_sim (hst : c.st = .codeLens) {fut : List UInt8} {r : Result (List UInt8)} : Sim c fut r ↔
    c.bits.Agree (c.src ++ fut) ∧ r = after true c.finalBlock
      (((codeLengths c.pl (c.litLenCount + c.offsetCount) (c.bits.stream (c.src ++ fut)) ((List.range c.idx).map c.lens)).bind fun p =>
        twoCodes (c.litLenCount - 257) p.1 p.2).bind (body c.out)) := by
  rw [Sim, hst]
  rfl

theorem codes_stage (hI : Inv c) (hst : c.st = .codeLens) : c.staticActive = false ∧ CountsOk c ∧ c.idx < c.litLenCount + c.offsetCount ∧
      PreTable c.pl c.preInfo.tableBits c.preTab ∧ (∀ j < c.idx, c.lens j ≤ 15) ∧ (c.pc = .main ∨ ∃ i, c.pc = .codes i) := by
  have := hI.stage
  rw [Stage, hst] at this
  exact this

theorem after_bind_invalid {seen fin : Bool} {x : Result (List Nat × List Nat × Stream)} {out : List UInt8}
    (h : ∀ o, x ≠ .ok o) (o : List UInt8) : after seen fin (x.bind (body out)) ≠ .ok o := by
  cases x with
  | ok a => exact absurd rfl (h a)
  | _ => simp [after]

theorem offsetOk_of_plain {a dl : List Nat} (h : plain true (.dynamic a dl) = true) : OffsetOk dl := by
  refine Or.inr fun s hs => ?_
  simp only [plain, List.all_eq_true, beq_iff_eq] at h
  rw [List.getD_eq_getElem?_getD]
  cases he : dl[s]? with
  | none => rfl
  | some x =>
    refine h x (List.mem_of_getElem? (i := s - 30) ?_)
    rw [List.getElem?_drop, show 30 + (s - 30) = s by omega]
    exact he

/-- After an iteration: the lengths `l`, the buffer `b`. -/
theorem codesNext_ok (hI : Inv c) (hst : c.st = .codeLens) {i : Nat} (hpc : c.pc = .codes i) {l : Nat → Nat} {n i' : Nat}
    (hn : n ≤ c.bits.len) (hn1 : 1 ≤ n)
    (hl : ∀ j < i', l j ≤ 15)
    (h : ∀ fut, codeLengths c.pl (c.litLenCount + c.offsetCount) (c.bits.stream (c.src ++ fut)) ((List.range i).map c.lens) =
      codeLengths c.pl (c.litLenCount + c.offsetCount) ((c.bits.drop n).stream (c.src ++ fut)) ((List.range i').map l)) :
    StepOk c (codesNext { c with lens := l, bits := c.bits.drop n } i') := by
  obtain ⟨s1, s2, s3, s4, s5, s6⟩ := codes_stage hI hst
  have hidx : c.idx = i := by simp only [Cfg.idx, hpc]
  have h63 := hI.len
  obtain ⟨k1, k2, k3, k4⟩ := s2
  rw [codesNext]
  split
  · rename_i hi
    refine ⟨⟨by show c.bits.len - n ≤ 63; omega, hI.room, fun hs => ?_, ?_⟩, ⟨Nat.le_refl _, Or.inl ?_⟩, fun fut r _ hs => ?_⟩
    · exact absurd (s1.symm.trans hs) (by simp)
    · rw [Stage]
      simp only [hst]
      exact ⟨s1, ⟨k1, k2, k3, k4⟩, hi, s4, hl, Or.inr ⟨i', rfl⟩⟩
    · show c.bits.len - n + 8 * c.src.length < c.bits.len + 8 * c.src.length
      omega
    · obtain ⟨h1, h2⟩ := (codes_sim hst).1 hs
      refine (codes_sim (c := { c with lens := l, bits := c.bits.drop n, pc := .codes i' }) hst).2 ⟨drop_agree hn h1, ?_⟩
      rw [h2, hidx, h fut]
      rfl
  rename_i hi
  split
  · rename_i hne
    intro fut r _ hs
    obtain ⟨h1, h2⟩ := (codes_sim hst).1 hs
    rw [hidx, h fut] at h2
    rw [h2]
    simp only [] at hi hne
    refine after_bind_invalid ?_
    rw [codeLengths_eq]
    simp only [List.length_map, List.length_range]
    rw [if_pos (by omega), if_neg hne]
    simp
  · rename_i hne
    have hi' : i' = c.litLenCount + c.offsetCount := by simpa using hne
    have hll : ({ c with lens := l, bits := c.bits.drop n } : Cfg).ll = (List.range c.litLenCount).map l := rfl
    have hdl : ({ c with lens := l, bits := c.bits.drop n } : Cfg).dl = (List.range c.offsetCount).map fun i => l (c.litLenCount + i) := rfl
    have hsplit : (List.range i').map l = (List.range c.litLenCount).map l ++ (List.range c.offsetCount).map fun i => l (c.litLenCount + i) := by
      rw [hi', List.range_add, List.map_append, List.map_map]
      rfl
    have hspec : ∀ fut, (codeLengths c.pl (c.litLenCount + c.offsetCount) (c.bits.stream (c.src ++ fut)) ((List.range c.idx).map c.lens)).bind
        (fun p => twoCodes (c.litLenCount - 257) p.1 p.2) =
        if (Complete ({ c with lens := l, bits := c.bits.drop n } : Cfg).dl ∨ Single ({ c with lens := l, bits := c.bits.drop n } : Cfg).dl ∨
            Unused ({ c with lens := l, bits := c.bits.drop n } : Cfg).dl) ∧
          (Complete ({ c with lens := l, bits := c.bits.drop n } : Cfg).ll ∨ Single ({ c with lens := l, bits := c.bits.drop n } : Cfg).ll) then
          .ok (({ c with lens := l, bits := c.bits.drop n } : Cfg).ll, ({ c with lens := l, bits := c.bits.drop n } : Cfg).dl,
            (c.bits.drop n).stream (c.src ++ fut)) else .invalid := by
      intro fut
      rw [hidx, h fut, codeLengths_eq]
      simp only [List.length_map, List.length_range]
      rw [if_pos (by omega), if_pos hi', bind_ok, hll, hdl, hsplit, twoCodes]
      simp only [show c.litLenCount - 257 + 257 = c.litLenCount by omega, pure_eq]
      rw [List.take_left' (by simp), List.drop_left' (by simp)]
    have hb1 : ∀ x ∈ ({ c with lens := l, bits := c.bits.drop n } : Cfg).ll, x ≤ 15 := by
      intro x hx
      rw [hll, List.mem_map] at hx
      obtain ⟨j, hj, rfl⟩ := hx
      rw [List.mem_range] at hj
      exact hl j (by omega)
    have hb2 : ∀ x ∈ ({ c with lens := l, bits := c.bits.drop n } : Cfg).dl, x ≤ 15 := by
      intro x hx
      rw [hdl, List.mem_map] at hx
      obtain ⟨j, hj, rfl⟩ := hx
      rw [List.mem_range] at hj
      exact hl _ (by omega)
    rcases build_cases (c := { c with lens := l, bits := c.bits.drop n }) ⟨k2, k4⟩ hb1 hb2 with ⟨hv, i1, t1, i2, t2, he, hL, hO⟩ | ⟨hv, c', he⟩
    · rw [he]
      refine ⟨⟨by show c.bits.len - n ≤ 63; omega, hI.room, fun hs => ?_, ?_⟩, ⟨Nat.le_refl _, Or.inl ?_⟩, fun fut r hr hs => ?_⟩
      · exact absurd (s1.symm.trans hs) (by simp)
      · exact ⟨⟨hL, hO⟩, Or.inl rfl⟩
      · show c.bits.len - n + 8 * c.src.length < c.bits.len + 8 * c.src.length
        omega
      · obtain ⟨h1, h2⟩ := (codes_sim hst).1 hs
        rw [hspec fut, if_pos hv, bind_ok, body] at h2
        simp only [] at h2
        by_cases hp : plain true (.dynamic ({ c with lens := l, bits := c.bits.drop n } : Cfg).ll ({ c with lens := l, bits := c.bits.drop n } : Cfg).dl) = true
        · rw [if_pos hp] at h2
          exact ⟨drop_agree hn h1, offsetOk_of_plain hp, h2⟩
        · rw [if_neg hp] at h2
          exact absurd h2 hr
    · rw [he]
      intro fut r hr hs
      obtain ⟨h1, h2⟩ := (codes_sim hst).1 hs
      rw [h2]
      refine after_bind_invalid ?_
      rw [hspec fut, if_neg hv]
      simp

theorem pre_codes {pl : List Nat} {tb : Nat} {T : Tab} (h : PreTable pl tb T) (W : Nat) : ∃ s, Codes pl W s ∧ s < 19 ∧
    1 ≤ pl.getD s 0 ∧ pl.getD s 0 ≤ 7 := by
  have h15 : ∀ l ∈ pl, l ≤ 15 := fun l hl => Nat.le_trans (h.h7 l hl) (by omega)
  obtain ⟨s, hs⟩ := complete_codes h15 h.hcode W
  have := hs.1
  have := h.hlen
  exact ⟨s, hs, by omega, Nat.one_le_iff_ne_zero.2 hs.2.1, getD_le hs.1 h.h7⟩

theorem setLens_some {lens : Nat → Nat} {i n v : Nat} (h : i + n ≤ 457) :
    setLens lens i n v = some (fun j => if i ≤ j ∧ j < i + n then v else lens j) := by
  rw [setLens, if_pos h]

theorem range_set {lens : Nat → Nat} {i n m v : Nat} (h : n ≤ m) :
    (List.range (i + n)).map (fun j => if i ≤ j ∧ j < i + m then v else lens j) = (List.range i).map lens ++ List.replicate n v := by
  rw [List.range_add, List.map_append, List.map_map]
  congr 1
  · apply List.map_congr_left
    intro j hj
    rw [List.mem_range] at hj
    rw [if_neg (by omega)]
  · rw [List.eq_replicate_iff]
    refine ⟨by simp, ?_⟩
    intro x hx
    rw [List.mem_map] at hx
    obtain ⟨j, hj, rfl⟩ := hx
    rw [List.mem_range] at hj
    simp only [Function.comp]
    rw [if_pos (by omega)]

theorem last_lens {lens : Nat → Nat} {i : Nat} (h : i ≠ 0) : ((List.range i).map lens).getLastD 0 = lens (i - 1) := by
  obtain ⟨k, rfl⟩ : ∃ k, i = k + 1 := ⟨i - 1, by omega⟩
  rw [List.range_succ, List.map_append]
  simp

/-- Bits that remain in an iteration: not enough, or the symbol is handled. -/
theorem codesBody_ok (hI : Inv c) (hst : c.st = .codeLens) {i : Nat} (hpc : c.pc = .codes i) :
    (codesBody c i = some (.next { c with pc := .codes i }) ∧ c.src ≠ [] ∧ c.bits.len < 14) ∨ StepOk c (codesBody c i) := by
  obtain ⟨s1, s2, s3, s4, s5, s6⟩ := codes_stage hI hst
  have hidx : c.idx = i := by simp only [Cfg.idx, hpc]
  rw [hidx] at s3 s5
  obtain ⟨k1, k2, k3, k4⟩ := s2
  have h63 := hI.len
  obtain ⟨s, hc, hs19, hl1, hl7⟩ := pre_codes s4 c.bits.word
  obtain ⟨e, he, hm⟩ := s4.found _ _ hc
  simp only [meansPrecode, Bool.and_eq_true, beq_iff_eq] at hm
  obtain ⟨⟨⟨m1, m2⟩, m3⟩, m4⟩ := hm
  have h15 : ∀ l ∈ c.pl, l ≤ 15 := fun l hl => Nat.le_trans (s4.h7 l hl) (by omega)
  have hext : (precodeMeaning s).2 ≤ 7 := by
    simp only [precodeMeaning]; split <;> [simp; (split <;> [simp; (split <;> simp)])]
  have hrange : ((List.range i).map c.lens).length = i := by simp
  rw [codesBody, he]
  simp only []
  rw [m1, m3]
  by_cases hlen : c.bits.len < c.pl.getD s 0 + (precodeMeaning s).2
  · rw [if_pos hlen]
    by_cases hsrc : c.src = []
    · rw [if_pos hsrc]
      right
      refine trunc_ok (c2 := { c with workIndex := i }) hsrc (fun chunk => ⟨hI.len, hI.room, hI.static, ?_⟩) (fun fut r _ hs => ?_)
      · rw [Stage]
        simp only [hst]
        exact ⟨s1, ⟨k1, k2, k3, k4⟩, s3, s4, s5, Or.inl trivial⟩
      · obtain ⟨h1, h2⟩ := (codes_sim hst).1 hs
        rw [hidx] at h2
        refine ⟨(codes_sim (c := { c with workIndex := i, pc := .main }) hst).2 ⟨h1, h2⟩, fun hf => ?_⟩
        rw [hsrc, hf, List.append_nil] at h1 h2
        have ht : codeLengths c.pl (c.litLenCount + c.offsetCount) (c.bits.stream []) ((List.range i).map c.lens) = .truncated := by
          rw [codeLengths_eq, if_neg (by rw [hrange]; omega)]
          by_cases hb : c.bits.len < c.pl.getD s 0
          · rw [symbol_short h15 (Or.inl s4.hcode) h1 hc hb, bind_truncated]
          · rw [symbol_found h15 (Or.inl s4.hcode) hc (by omega), bind_ok]
            simp only []
            have h16 : ¬ s < 16 := by
              intro h16
              have : (precodeMeaning s).2 = 0 := by rw [precodeMeaning, if_pos h16]
              omega
            rw [if_neg h16, bits_short (by rw [stream_len, drop_len, List.length_nil]; omega), bind_truncated]
        rw [h2, ht]
        rfl
    · rw [if_neg hsrc]
      left
      refine ⟨?_, hsrc, by omega⟩
      rw [codesNext, if_pos s3]
  rw [if_neg hlen, consume_drop (by omega)]
  simp only []
  right
  by_cases h16 : s < 16
  · have hz : (precodeMeaning s).2 = 0 := by rw [precodeMeaning, if_pos h16]
    rw [if_pos h16, setLens_some (by omega), Option.bind_some, hz, Nat.add_zero]
    refine codesNext_ok hI hst hpc (by omega) (by omega) ?_ (fun fut => ?_)
    · intro j hj
      show (if _ then _ else _) ≤ 15
      split
      · omega
      · exact s5 j (by omega)
    · rw [range_set (Nat.le_refl _), codeLengths_eq, if_neg (by rw [hrange]; omega), symbol_found h15 (Or.inl s4.hcode) hc (by omega), bind_ok]
      simp only []
      rw [if_pos h16]
      rfl
  rw [if_neg h16]
  have hx : c.bits.extract 0 (c.pl.getD s 0 + (precodeMeaning s).2) / 2 ^ baseLength e = (c.bits.drop (c.pl.getD s 0)).word % 2 ^ (precodeMeaning s).2 := by
    rw [m2, BitBuf.extract, Nat.pow_zero, Nat.div_one, Nat.pow_add, Nat.mod_mul_right_div_self]
    rfl
  rw [hx, m4, Nat.add_comm _ (precodeMeaning s).1]
  have hv := Nat.mod_lt (c.bits.drop (c.pl.getD s 0)).word (Nat.two_pow_pos (precodeMeaning s).2)
  have hspec : ∀ fut, codeLengths c.pl (c.litLenCount + c.offsetCount) (c.bits.stream (c.src ++ fut)) ((List.range i).map c.lens) =
      if s = 16 ∧ (List.range i).map c.lens = [] then .invalid
      else codeLengths c.pl (c.litLenCount + c.offsetCount) ((c.bits.drop (c.pl.getD s 0 + (precodeMeaning s).2)).stream (c.src ++ fut))
        ((List.range i).map c.lens ++ List.replicate ((precodeMeaning s).1 + (c.bits.drop (c.pl.getD s 0)).word % 2 ^ (precodeMeaning s).2)
          (if s = 16 then ((List.range i).map c.lens).getLastD 0 else 0)) := by
    intro fut
    rw [codeLengths_eq, if_neg (by rw [hrange]; omega), symbol_found h15 (Or.inl s4.hcode) hc (by omega), bind_ok]
    simp only []
    rw [if_neg h16, bits_drop (by rw [drop_len]; omega), bind_ok, drop_drop]
  revert hv hspec
  generalize (c.bits.drop (c.pl.getD s 0)).word % 2 ^ (precodeMeaning s).2 = v
  intro hv hspec
  by_cases e16 : s = 16
  · rw [if_pos e16]
    have hp : precodeMeaning s = (3, 2) := by rw [e16]; rfl
    rw [hp] at hv hspec hlen ⊢
    simp only [] at hv hspec hlen ⊢
    by_cases hi0 : i = 0
    · rw [if_pos hi0]
      intro fut r _ hs
      obtain ⟨h1, h2⟩ := (codes_sim hst).1 hs
      rw [h2, hidx]
      refine after_bind_invalid ?_
      rw [hspec fut, if_pos ⟨e16, by rw [hi0]; rfl⟩]
      simp
    · rw [if_neg hi0, setLens_some (by omega), Option.bind_some]
      refine codesNext_ok hI hst hpc (by omega) (by omega) ?_ (fun fut => ?_)
      · intro j hj
        show (if _ then _ else _) ≤ 15
        split
        · exact s5 _ (by omega)
        · exact s5 j (by omega)
      · rw [range_set (show 3 + v ≤ 6 by omega), hspec fut, if_neg, if_pos e16, last_lens hi0]
        rintro ⟨_, h⟩
        rw [← List.length_eq_zero_iff, hrange] at h
        omega
  rw [if_neg e16]
  by_cases e17 : s = 17
  · rw [if_pos e17]
    have hp : precodeMeaning s = (3, 3) := by rw [e17]; rfl
    rw [hp] at hv hspec hlen ⊢
    simp only [] at hv hspec hlen ⊢
    rw [setLens_some (by omega), Option.bind_some]
    refine codesNext_ok hI hst hpc (by omega) (by omega) ?_ (fun fut => ?_)
    · intro j hj
      show (if _ then _ else _) ≤ 15
      split
      · omega
      · exact s5 j (by omega)
    · rw [range_set (show 3 + v ≤ 10 by omega), hspec fut, if_neg (by simp [e16]), if_neg e16]
  · rw [if_neg e17]
    have hp : precodeMeaning s = (11, 7) := by
      rw [precodeMeaning, if_neg h16, if_neg e16, if_neg e17]
    rw [hp] at hv hspec hlen ⊢
    simp only [] at hv hspec hlen ⊢
    rw [setLens_some (by omega), Option.bind_some]
    refine codesNext_ok hI hst hpc (by omega) (by omega) ?_ (fun fut => ?_)
    · intro j hj
      show (if _ then _ else _) ≤ 15
      split
      · omega
      · exact s5 j (by omega)
    · rw [range_set (Nat.le_refl _), hspec fut, if_neg (by simp [e16]), if_neg e16]

theorem codesStep_ok (hI : Inv c) (hst : c.st = .codeLens) {i : Nat} (hpc : c.pc = .codes i) : StepOk c (codesStep c i) := by
  rw [codesStep]
  by_cases hr : ∃ x xs, c.src = x :: xs ∧ c.bits.len < 56
  · obtain ⟨x, xs, hx, hl⟩ := hr
    have he : c.refillOne = { c with bits := c.bits.refillByte x, src := xs } := by
      rw [Cfg.refillOne, hx]; simp only []; rw [if_pos hl]
    have hlen : (c.bits.refillByte x).len = c.bits.len + 8 := rfl
    obtain ⟨s1, s2, s3, s4, s5, s6⟩ := codes_stage hI hst
    have hI1 : Inv c.refillOne := by
      rw [he]
      refine ⟨by show (c.bits.refillByte x).len ≤ 63; omega, hI.room, hI.static, ?_⟩
      rw [Stage]
      simp only [hst]
      exact ⟨s1, s2, s3, s4, s5, s6⟩
    have hless : Less c.refillOne c := by
      rw [he]
      refine ⟨by rw [hx]; simp, Or.inr ⟨?_, Or.inr ⟨rfl, by rw [hx]; simp⟩⟩⟩
      show (c.bits.refillByte x).len + 8 * xs.length = c.bits.len + 8 * c.src.length
      rw [hx, hlen, List.length_cons]; omega
    have hsim : ∀ fut r, r ≠ .refused → Sim c fut r → Sim c.refillOne fut r := by
      intro fut r _ hs
      obtain ⟨h1, h2⟩ := (codes_sim hst).1 hs
      have h1' : c.bits.Agree (x :: (xs ++ fut)) := by rw [hx] at h1; exact h1
      obtain ⟨g1, g2⟩ := refillByte_stream hl h1'
      rw [he]
      refine (codes_sim (c := { c with bits := c.bits.refillByte x, src := xs }) hst).2 ⟨g2, ?_⟩
      rw [h2, hx]
      simp only [List.cons_append]
      rw [g1]
      rfl
    rcases codesBody_ok (c := c.refillOne) (i := i) hI1 (by rw [he]; exact hst) (by rw [he]; exact hpc) with ⟨h1, h2, h3⟩ | h
    · rw [h1]
      have : ({ c.refillOne with pc := .codes i } : Cfg) = c.refillOne := by
        rw [he]; simp only [← hpc]
      rw [this]
      exact ⟨hI1, hless, hsim⟩
    · exact stepOk_trans hless hsim h
  · have he : c.refillOne = c := by
      rw [Cfg.refillOne]
      split
      · rename_i x xs hx
        rw [if_neg (fun h => hr ⟨x, xs, hx, h⟩)]
      · rfl
    rw [he]
    rcases codesBody_ok (c := c) (i := i) hI hst hpc with ⟨h1, h2, h3⟩ | h
    · exfalso
      cases hx : c.src with
      | nil => exact h2 hx
      | cons x xs => exact hr ⟨x, xs, hx, by omega⟩
    · exact h

end Blend2D.Deflate
