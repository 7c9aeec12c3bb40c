import Verif.Deflate.Lens

/-!
# The lengths of the precode
-/

namespace Blend2D.Deflate
open Spec

variable {c : Cfg}

theorem setPrecode_some {lens : Nat → Nat} {i v : Nat} (h : i < 19) :
    setPrecode lens i v = some (Function.update lens (precodeOrder.getD i 0) v) := by
  have : precodePermutation[i]? = some (precodeOrder.getD i 0) := by
    have key : ∀ i < 19, precodePermutation[i]? = some (precodeOrder.getD i 0) := by decide +kernel
    exact key i h
  rw [setPrecode, this]
  rfl

theorem order_idx : ∀ i < 19, ∀ s < 19, precodeOrder.idxOf s = i ↔ s = precodeOrder.getD i 0 := by decide +kernel
theorem order_lt : ∀ s < 19, precodeOrder.idxOf s < 19 := by decide +kernel

theorem update_le {lens : Nat → Nat} {p v : Nat} (h : ∀ j < 19, lens j ≤ 7) (hv : v < 8) :
    ∀ j < 19, Function.update lens p v j ≤ 7 := by
  intro j hj
  by_cases hp : j = p
  · subst hp; rw [Function.update_self]; omega
  · rw [Function.update_of_ne hp]; exact h j hj

theorem pre_sim (hst : c.st = .precodeLens) {fut : List UInt8} {r : Result (List UInt8)} : Sim c fut r ↔
    c.bits.Agree (c.src ++ fut) ∧
    ∃ xs : List Nat, xs.length = c.idx ∧ (∀ s < 19, c.precodeLens s = xs.getD (precodeOrder.idxOf s) 0) ∧
      r = after true c.finalBlock (((many 3 (c.workCount - c.idx) (c.bits.stream (c.src ++ fut))).bind fun p =>
        dynRest (c.litLenCount - 257) (c.offsetCount - 1) (xs ++ p.1) p.2).bind (body c.out)) := by
  rw [Sim, hst]
  rfl

/-- One more length. -/
def Cfg.pre (c : Cfg) (i : Nat) : Cfg :=
  { c with precodeLens := Function.update c.precodeLens (precodeOrder.getD i 0) (c.bits.word % 2 ^ 3), bits := c.bits.drop 3, pc := .precode (i + 1) }

theorem pre_adv (hst : c.st = .precodeLens) {i : Nat} (hi : c.idx = i) (hw : i < c.workCount) (hw19 : c.workCount ≤ 19)
    (hl : 3 ≤ c.bits.len) {fut : List UInt8} {r : Result (List UInt8)} (h : Sim c fut r) : Sim (c.pre i) fut r := by
  obtain ⟨ha, xs, h1, h2, h3⟩ := (pre_sim hst).1 h
  refine (pre_sim (c := c.pre i) hst).2 ⟨drop_agree hl ha, xs ++ [c.bits.word % 2 ^ 3], ?_, ?_, ?_⟩
  · rw [List.length_append, h1, hi]; rfl
  · intro s hs
    show Function.update c.precodeLens (precodeOrder.getD i 0) (c.bits.word % 2 ^ 3) s = _
    have hk := order_idx i (by omega) s hs
    by_cases he : s = precodeOrder.getD i 0
    · rw [hk.2 he, ← he, Function.update_self, List.getD_eq_getElem?_getD, List.getElem?_append_right (by omega), h1, hi]
      simp
    · rw [Function.update_of_ne he, h2 s hs]
      have hne : precodeOrder.idxOf s ≠ i := fun h => he (hk.1 h)
      rw [List.getD_eq_getElem?_getD, List.getD_eq_getElem?_getD]
      by_cases hlt : precodeOrder.idxOf s < i
      · rw [List.getElem?_append_left (by omega)]
      · rw [List.getElem?_eq_none (by omega), List.getElem?_eq_none (by rw [List.length_append, List.length_singleton]; omega)]
  · rw [h3, hi]
    show after true c.finalBlock _ = after true c.finalBlock (((many 3 (c.workCount - (i + 1)) ((c.bits.drop 3).stream (c.src ++ fut))).bind
      fun p => dynRest (c.litLenCount - 257) (c.offsetCount - 1) (xs ++ [c.bits.word % 2 ^ 3] ++ p.1) p.2).bind (body c.out))
    obtain ⟨k, hk⟩ : ∃ k, c.workCount - i = k + 1 := ⟨c.workCount - i - 1, by omega⟩
    rw [hk, show c.workCount - (i + 1) = k by omega, many_succ, bits_drop hl, bind_ok]
    simp only [bind_assoc, bind_ok, List.append_assoc, List.singleton_append]

theorem many_short {k : Nat} : ∀ (n : Nat) (S : Stream), S.len < n * k → many k n S = .truncated
  | 0, S, h => by simp at h
  | n + 1, S, h => by
    rw [many_succ]
    by_cases hk : k ≤ S.len
    · rw [bits_skip hk, bind_ok]
      simp only []
      rw [many_short n _ (by rw [skip_len]; rw [Nat.add_mul, Nat.one_mul] at h; omega), bind_truncated]
    · rw [bits_short (by omega), bind_truncated]

theorem precodeRest_ok : ∀ (n i : Nat) (b : BitBuf) (lens : Nat → Nat), 3 * n ≤ b.len → i + n ≤ 19 → (∀ j < 19, lens j ≤ 7) →
    ∃ lens', precodeRest n i b lens = some (b.drop (3 * n), lens') ∧ (∀ j < 19, lens' j ≤ 7) ∧
      ∀ (c : Cfg), c.st = .precodeLens → c.bits = b → c.precodeLens = lens → c.pc = .precode i → c.workCount = i + n →
        ∀ fut r, Sim c fut r → Sim { c with bits := b.drop (3 * n), precodeLens := lens', pc := .precode (i + n) } fut r
  | 0, i, b, lens, _, _, h7 => by
    have hb : b.drop (3 * 0) = b := by simp [BitBuf.drop]
    refine ⟨lens, by rw [precodeRest, hb], h7, ?_⟩
    rintro c hst rfl rfl hpc hw fut r h
    rw [hb]
    have : ({ c with bits := c.bits, precodeLens := c.precodeLens, pc := .precode (i + 0) } : Cfg) = c := by
      rw [Nat.add_zero, ← hpc]
    rw [this]
    exact h
  | n + 1, i, b, lens, hl, hi, h7 => by
    have h3 : 3 ≤ b.len := by omega
    obtain ⟨lens', e1, e2, e3⟩ := precodeRest_ok n (i + 1) (b.drop 3) (Function.update lens (precodeOrder.getD i 0) (b.word % 2 ^ 3))
      (by rw [drop_len]; omega) (by omega) (update_le h7 (Nat.mod_lt _ (by decide)))
    have hd : (b.drop 3).drop (3 * n) = b.drop (3 * (n + 1)) := by rw [drop_drop]; congr 1; omega
    rw [hd] at e1 e3
    refine ⟨lens', ?_, e2, ?_⟩
    · rw [precodeRest, consume_drop h3, setPrecode_some (by omega), BitBuf.extract, Nat.pow_zero, Nat.div_one]
      exact e1
    · rintro c hst rfl rfl hpc hw fut r h
      have hidx : c.idx = i := by simp only [Cfg.idx, hpc]
      have := e3 (c.pre i) hst rfl rfl rfl (by show c.workCount = _; omega) fut r (pre_adv hst hidx (by omega) (by omega) h3 h)
      rw [show i + 1 + n = i + (n + 1) by omega] at this
      exact this

theorem pre_stage (hI : Inv c) (hst : c.st = .precodeLens) : c.staticActive = false ∧ CountsOk c ∧ c.idx ≤ c.workCount ∧ c.workCount ≤ 19 ∧
    (∀ j < 19, c.precodeLens j ≤ 7) ∧ (c.pc = .main ∨ (∃ i, c.pc = .precode i) ∧ (c.src = [] ∨ 56 ≤ c.bits.len + c.idx)) := by
  have := hI.stage
  rw [Stage, hst] at this
  exact this

theorem precodeStep_ok (hI : Inv c) (hst : c.st = .precodeLens) {i : Nat} (hpc : c.pc = .precode i) : StepOk c (precodeStep c i) := by
  obtain ⟨s1, s2, s3, s4, s5, s6⟩ := pre_stage hI hst
  have hidx : c.idx = i := by simp only [Cfg.idx, hpc]
  rw [hidx] at s3 s6
  have s6' : c.src = [] ∨ 56 ≤ c.bits.len + i := by
    rcases s6 with h | h
    · rw [hpc] at h; cases h
    · exact h.2
  have h63 := hI.len
  rw [precodeStep]
  split
  · rename_i hc
    rw [setPrecode_some (by omega)]
    simp only []
    rw [setPrecode_some (by omega)]
    simp only []
    rw [setPrecode_some (by omega)]
    simp only []
    rw [consume_drop (by omega)]
    simp only []
    have hb : ∀ n, (c.bits.drop n).word % 2 ^ 3 < 8 := fun n => Nat.mod_lt _ (by decide)
    have hsim : ∀ fut r, Sim c fut r → Sim (((c.pre i).pre (i + 1)).pre (i + 2)) fut r := by
      intro fut r h
      have h1 := pre_adv hst hidx (by omega) s4 (by omega) h
      have h2 := pre_adv (c := c.pre i) hst (i := i + 1) rfl (by show i + 1 < c.workCount; omega) s4 (by show 3 ≤ c.bits.len - 3; omega) h1
      exact pre_adv (c := (c.pre i).pre (i + 1)) hst (i := i + 2) rfl (by show i + 2 < c.workCount; omega) s4 (by show 3 ≤ c.bits.len - 3 - 3; omega) h2
    have hpre : ((c.pre i).pre (i + 1)).pre (i + 2) = { c with
        precodeLens := Function.update (Function.update (Function.update c.precodeLens (precodeOrder.getD i 0) (c.bits.extract 0 3))
          (precodeOrder.getD (i + 1) 0) (c.bits.extract 3 3)) (precodeOrder.getD (i + 2) 0) (c.bits.extract 6 3),
        bits := c.bits.drop 9, pc := .precode (i + 3) } := by
      simp only [Cfg.pre, drop_drop, BitBuf.extract, Nat.pow_zero, Nat.div_one]
      rfl
    have h7 : ∀ j < 19, (((c.pre i).pre (i + 1)).pre (i + 2)).precodeLens j ≤ 7 :=
      update_le (update_le (update_le s5 (Nat.mod_lt _ (by decide))) (hb 3)) (Nat.mod_lt _ (by decide))
    rw [hpre] at hsim h7
    have hrest : StepOk c (match c.src with
            | [] => some (.next { c with
                precodeLens := Function.update (Function.update (Function.update c.precodeLens (precodeOrder.getD i 0) (c.bits.extract 0 3))
          (precodeOrder.getD (i + 1) 0) (c.bits.extract 3 3)) (precodeOrder.getD (i + 2) 0) (c.bits.extract 6 3), bits := c.bits.drop 9, pc := .precode (i + 3) })
            | x :: xs =>
              if (c.bits.drop 9).len < 56 then
                some (.next { c with precodeLens := Function.update (Function.update (Function.update c.precodeLens (precodeOrder.getD i 0) (c.bits.extract 0 3))
          (precodeOrder.getD (i + 1) 0) (c.bits.extract 3 3)) (precodeOrder.getD (i + 2) 0) (c.bits.extract 6 3), bits := (c.bits.drop 9).refillByte x, src := xs, pc := .precode (i + 3) })
              else none) := by
      revert hsim h7
      generalize Function.update (Function.update (Function.update c.precodeLens (precodeOrder.getD i 0) (c.bits.extract 0 3))
          (precodeOrder.getD (i + 1) 0) (c.bits.extract 3 3)) (precodeOrder.getD (i + 2) 0) (c.bits.extract 6 3) = L
      intro hsim h7
      have hd := drop_len c.bits 9
      split
      · rename_i hsrc
        refine ⟨⟨by show (c.bits.drop 9).len ≤ 63; omega, hI.room, fun hs => absurd (s1.symm.trans hs) (by simp), ?_⟩,
          ⟨Nat.le_refl _, Or.inl ?_⟩, fun fut r _ hs => hsim fut r hs⟩
        · rw [Stage]
          simp only [hst]
          exact ⟨s1, s2, by show i + 3 ≤ c.workCount; omega, s4, h7, Or.inr ⟨⟨i + 3, rfl⟩, Or.inl hsrc⟩⟩
        · show (c.bits.drop 9).len + 8 * c.src.length < c.bits.len + 8 * c.src.length
          omega
      · rename_i x xs hx
        rw [if_pos (by omega)]
        have hr : ((c.bits.drop 9).refillByte x).len = (c.bits.drop 9).len + 8 := rfl
        have s7 : 56 ≤ c.bits.len + i := by
          rcases s6' with h | h
          · rw [hx] at h; cases h
          · exact h
        refine ⟨⟨by show ((c.bits.drop 9).refillByte x).len ≤ 63; omega, hI.room, fun hs => absurd (s1.symm.trans hs) (by simp), ?_⟩,
          ⟨by rw [hx]; simp, Or.inl ?_⟩, fun fut r _ hs => ?_⟩
        · rw [Stage]
          simp only [hst]
          exact ⟨s1, s2, by show i + 3 ≤ c.workCount; omega, s4, h7, Or.inr ⟨⟨i + 3, rfl⟩, Or.inr
            (by show 56 ≤ ((c.bits.drop 9).refillByte x).len + (i + 3); omega)⟩⟩
        · show ((c.bits.drop 9).refillByte x).len + 8 * xs.length < c.bits.len + 8 * c.src.length
          rw [hx, List.length_cons]; omega
        · obtain ⟨ha, ys, g1, g2, g3⟩ := (pre_sim (c := { c with precodeLens := L, bits := c.bits.drop 9, pc := .precode (i + 3) }) hst).1 (hsim fut r hs)
          have ha' : (c.bits.drop 9).Agree (x :: (xs ++ fut)) := by
            have : (c.bits.drop 9).Agree (c.src ++ fut) := ha
            rw [hx] at this
            exact this
          obtain ⟨t1, t2⟩ := refillByte_stream (by omega) ha'
          refine (pre_sim (c := { c with precodeLens := L, bits := (c.bits.drop 9).refillByte x, src := xs, pc := .precode (i + 3) }) hst).2
            ⟨t2, ys, g1, g2, ?_⟩
          rw [g3]
          simp only []
          rw [hx, List.cons_append, t1]
          rfl
    exact hrest
  rename_i hc
  split
  · rename_i hlen
    have hsrc : c.src = [] := by
      rcases s6' with h | h
      · exact h
      · omega
    refine trunc_ok (c2 := { c with workIndex := i }) hsrc (fun chunk => ⟨hI.len, hI.room, hI.static, ?_⟩) (fun fut r _ hs => ?_)
    · rw [Stage]
      simp only [hst]
      exact ⟨s1, s2, s3, s4, s5, Or.inl trivial⟩
    · obtain ⟨ha, ys, g1, g2, g3⟩ := (pre_sim hst).1 hs
      rw [hidx] at g1 g3
      refine ⟨(pre_sim (c := { c with workIndex := i, pc := .main }) hst).2 ⟨ha, ys, g1, g2, g3⟩, fun hf => ?_⟩
      rw [g3, hf, hsrc, many_short _ _ (by rw [stream_len]; simpa using hlen)]
      rfl
  rename_i hlen
  obtain ⟨lens', e1, e2, e3⟩ := precodeRest_ok (c.workCount - i) i c.bits c.precodeLens (by omega) (by omega) s5
  rw [e1]
  simp only []
  have hmem : ∀ l ∈ (List.range 19).map lens', l ≤ 7 := by
    intro l hl
    rw [List.mem_map] at hl
    obtain ⟨j, hj, rfl⟩ := hl
    rw [List.mem_range] at hj
    exact e2 j hj
  have hspec : ∀ fut r, Sim c fut r → (c.bits.drop (3 * (c.workCount - i))).Agree (c.src ++ fut) ∧
      r = after true c.finalBlock ((if Complete ((List.range 19).map lens') then
        (codeLengths ((List.range 19).map lens') (c.litLenCount + c.offsetCount) ((c.bits.drop (3 * (c.workCount - i))).stream (c.src ++ fut)) []).bind
          fun p => twoCodes (c.litLenCount - 257) p.1 p.2 else .invalid).bind (body c.out)) := by
    intro fut r hs
    obtain ⟨ha, ys, g1, g2, g3⟩ := (pre_sim (c := { c with bits := c.bits.drop (3 * (c.workCount - i)), precodeLens := lens', pc := .precode (i + (c.workCount - i)) }) hst).1
      (e3 c hst rfl rfl hpc (by omega) fut r hs)
    refine ⟨ha, ?_⟩
    rw [g3]
    simp only [Cfg.idx]
    have hpl : precodeOf ys = (List.range 19).map lens' := by
      apply List.map_congr_left
      intro s hs
      rw [List.mem_range] at hs
      exact (g2 s hs).symm
    obtain ⟨k1, k2, k3, k4⟩ := s2
    rw [show c.workCount - (i + (c.workCount - i)) = 0 by omega, many, pure_eq, bind_ok, List.append_nil, dynRest, hpl,
      show c.litLenCount - 257 + 257 + (c.offsetCount - 1 + 1) = c.litLenCount + c.offsetCount by omega]
  obtain ⟨p1, p2⟩ := precode_cases (lens := (List.range 19).map lens') c.preTab c.garbage (by simp) hmem
  by_cases hC : Complete ((List.range 19).map lens')
  · obtain ⟨info, T, b1, b2⟩ := p1 hC
    rw [b1]
    simp only []
    have hd := drop_len c.bits (3 * (c.workCount - i))
    refine ⟨⟨by show (c.bits.drop (3 * (c.workCount - i))).len ≤ 63; omega, hI.room, fun hs => absurd (s1.symm.trans hs) (by simp), ?_⟩,
      ⟨Nat.le_refl _, ?_⟩, fun fut r _ hs => ?_⟩
    · exact ⟨s1, s2, by show 0 < c.litLenCount + c.offsetCount; have := s2.1; omega, preTable (by simp [Cfg.pl]) hmem hC b2,
        fun j hj => absurd hj (Nat.not_lt_zero j), Or.inl rfl⟩
    · rcases Nat.lt_or_ge i c.workCount with hlt | hge
      · left
        show (c.bits.drop (3 * (c.workCount - i))).len + 8 * c.src.length < c.bits.len + 8 * c.src.length
        omega
      · right
        refine ⟨?_, Or.inl ?_⟩
        · show (c.bits.drop (3 * (c.workCount - i))).len + 8 * c.src.length = c.bits.len + 8 * c.src.length
          omega
        · simp only [Cfg.rank, Cfg.low, Cfg.stageRank, hst, hpc]
          simp
    · obtain ⟨h1, h2⟩ := hspec fut r hs
      rw [if_pos hC] at h2
      refine (codes_sim (c := { c with bits := c.bits.drop (3 * (c.workCount - i)), precodeLens := lens', workIndex := 0, preInfo := info, preTab := T, st := .codeLens, pc := .main }) rfl).2 ⟨h1, ?_⟩
      rw [h2]
      rfl
  · rw [p2 hC]
    intro fut r _ hs
    obtain ⟨h1, h2⟩ := hspec fut r hs
    rw [h2, if_neg hC]
    exact after_bind_invalid (by simp)

end Blend2D.Deflate
