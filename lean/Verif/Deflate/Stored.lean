import Verif.Deflate.Huff

/-!
# Headers and stored blocks
-/

namespace Blend2D.Deflate
open Spec

variable {c : Cfg}

theorem less_trans {a b c : Cfg} (h1 : Less a b) (h2 : Less b c) : Less a c := by
  obtain ⟨h1, h3⟩ := h1
  obtain ⟨h2, h4⟩ := h2
  exact ⟨by omega, by omega⟩

theorem stepOk_trans {c1 : Cfg} {o : Option Step} (hl : Less c1 c) (hs : ∀ fut r, r ≠ .refused → Sim c fut r → Sim c1 fut r)
    (h : StepOk c1 o) : StepOk c o := by
  match o with
  | none => exact h
  | some (.next c') => exact ⟨h.1, less_trans h.2.1 hl, fun fut r hr hsim => h.2.2 fut r hr (hs fut r hr hsim)⟩
  | some (.output c') =>
    exact ⟨fun cap hcap => ⟨(h.1 cap hcap).1, less_trans (h.1 cap hcap).2 hl⟩, fun fut r hr hsim => h.2 fut r hr (hs fut r hr hsim)⟩
  | some (.success c') => exact fun fut r hr hsim => h fut r hr (hs fut r hr hsim)
  | some (.truncated c') => exact ⟨h.1, h.2.1, fun fut r hr hsim => h.2.2 fut r hr (hs fut r hr hsim)⟩
  | some (.invalid c') => exact fun fut r hr hsim => h fut r hr (hs fut r hr hsim)
  | some (.fast c') => exact Nat.le_trans h hl.1

/-- A block ends. -/
theorem done_ok {c2 : Cfg} (hlen : c2.bits.len ≤ 63) (hroom : c2.out.length ≤ c2.cap)
    (hstatic : c2.staticActive = true → Tables c2 ∧ c2.ll = fixedLitLen ∧ c2.dl = fixedOffset) (hsrc : c2.src.length ≤ c.src.length)
    (hlt : c2.total < c.total)
    (hs : ∀ fut r, r ≠ .refused → Sim c fut r → ∃ seen, c2.bits.Agree (c2.src ++ fut) ∧ (seen = false → c2.bits.Clean) ∧
      r = after seen c2.finalBlock (.ok (c2.out, c2.S fut))) : StepOk c (blockDone c2) := by
  rw [blockDone]
  split
  · rename_i hf
    intro fut r hr hsim
    obtain ⟨seen, _, _, h⟩ := hs fut r hr hsim
    rw [h, after, bind_ok, if_pos hf]
  · rename_i hf
    have hf' : c2.finalBlock = false := by simpa using hf
    refine ⟨⟨hlen, hroom, hstatic, ⟨rfl, hf'⟩⟩, ⟨hsrc, Or.inl hlt⟩, fun fut r hr hsim => ?_⟩
    obtain ⟨seen, h1, h2, h3⟩ := hs fut r hr hsim
    refine ⟨h1, seen, h2, ?_⟩
    rw [h3, after, bind_ok, if_neg hf]
    rfl

theorem trunc_ok {c2 : Cfg} (hsrc : c2.src = []) (hI : ∀ chunk, Inv { c2 with src := chunk, pc := .main })
    (hs : ∀ fut r, r ≠ .refused → Sim c fut r → Sim { c2 with pc := .main } fut r ∧ (fut = [] → r = .truncated)) :
    StepOk c (notEnoughInput c2) := by
  rw [notEnoughInput, if_pos hsrc]
  exact ⟨hsrc, hI, hs⟩

/-! ## Stored data -/

theorem storedBytes_split {n k : Nat} {S : Stream} {out : List UInt8} (h : 8 * n ≤ S.len) :
    storedBytes (n + k) S out = storedBytes k (S.skip (8 * n)) (out ++ (List.range n).map fun i => UInt8.ofNat (S.val / 256 ^ i % 256)) := by
  have hp : 2 ^ (8 * n) = 256 ^ n := by rw [Nat.pow_mul]
  rw [storedBytes, storedBytes, skip_len, skip_skip]
  by_cases hc : 8 * (n + k) ≤ S.len
  · rw [if_pos hc, if_pos (by omega), List.range_add, List.map_append, List.map_map, List.append_assoc, show 8 * n + 8 * k = 8 * (n + k) by omega]
    congr 4
    apply List.map_congr_left
    intro i _
    simp only [Function.comp, Stream.skip, hp, Nat.div_div_eq_div_mul, ← Nat.pow_add]
  · rw [if_neg hc, if_neg (by omega)]

theorem drain_eq : ∀ (n w : Nat), drain n w = ((List.range n).map (fun i => UInt8.ofNat (w / 256 ^ i % 256)), w / 256 ^ n)
  | 0, w => by simp [drain]
  | n + 1, w => by
    rw [drain, drain_eq n, List.range_succ_eq_map, List.map_cons, List.map_map]
    simp only [Nat.pow_zero, Nat.div_one, Nat.div_div_eq_div_mul, Prod.mk.injEq, List.cons.injEq, true_and]
    refine ⟨?_, by rw [Nat.pow_succ, Nat.mul_comm]⟩
    apply List.map_congr_left
    intro i _
    simp only [Function.comp, Nat.pow_succ, Nat.mul_comm]

theorem ofBytes_bytes : ∀ (xs rest : List UInt8),
    (List.range xs.length).map (fun i => UInt8.ofNat (ofBytes (xs ++ rest) / 256 ^ i % 256)) = xs
  | [], _ => rfl
  | x :: xs, rest => by
    have hx : x.toNat < 256 := x.toNat_lt
    rw [List.length_cons, List.range_succ_eq_map, List.map_cons, List.map_map, List.cons_append, ofBytes]
    congr 1
    · rw [Nat.pow_zero, Nat.div_one, Nat.add_mul_mod_self_left, Nat.mod_eq_of_lt hx]
      exact UInt8.ofNat_toNat
    · refine Eq.trans ?_ (ofBytes_bytes xs rest)
      apply List.map_congr_left
      intro i _
      simp only [Function.comp]
      rw [Nat.pow_succ', ← Nat.div_div_eq_div_mul]
      congr 3
      omega

theorem ofBytes_append_div : ∀ (xs rest : List UInt8), ofBytes (xs ++ rest) / 256 ^ xs.length = ofBytes rest
  | [], rest => by simp
  | x :: xs, rest => by
    have hx : x.toNat < 256 := x.toNat_lt
    rw [List.cons_append, ofBytes, List.length_cons, Nat.pow_succ', ← Nat.div_div_eq_div_mul,
      show (x.toNat + 256 * ofBytes (xs ++ rest)) / 256 = ofBytes (xs ++ rest) by omega]
    exact ofBytes_append_div xs rest

theorem copyStored_ok (hI : Inv c) (hst : c.st = .copyStored) : StepOk c (copyStored c) := by
  have hstage := hI.stage
  rw [Stage, hst] at hstage
  obtain ⟨hpc, h8, hne⟩ := hstage
  have h63 := hI.len
  have hroom := hI.room
  have hsim : ∀ {fut r}, Sim c fut r → c.bits.Agree (c.src ++ fut) ∧ c.bits.Clean ∧
      r = after false c.finalBlock (storedBytes c.copyRemaining (c.S fut) c.out) := by
    intro fut r hs
    rw [Sim, hst] at hs
    exact hs
  rw [copyStored, if_neg (by omega)]
  split
  · rename_i hlow
    refine ⟨fun cap hcap => ?_, fun fut r _ hs => ?_⟩
    · have hreq : c.out.length + c.copyRemaining ≤ required { c with pc := .main } := by
        simp only [required]
        split
        · exact Nat.le_refl _
        · omega
      have hcap' : required { c with pc := .main } ≤ cap := hcap
      have hstage' : Stage { c with pc := .main, cap := cap } := by
        have hs' : ({ c with pc := .main, cap := cap } : Cfg).st = .copyStored := hst
        rw [Stage, hs']
        exact ⟨rfl, h8, hne⟩
      refine ⟨⟨h63, ?_, hI.static, hstage'⟩, Nat.le_refl _, Or.inr ⟨rfl, Or.inl ?_⟩⟩
      · show c.out.length ≤ cap
        omega
      · have r1 : ({ c with pc := .main, cap := cap } : Cfg).rank = 0 := by
          simp only [Cfg.rank, Cfg.low, Cfg.stageRank, hst]
          rw [if_neg (by simp; omega)]
        have r2 : 16 ≤ c.rank := by
          simp only [Cfg.rank, Cfg.low, hst]
          rw [if_pos (by simpa using hlow)]
          omega
        show ({ c with pc := .main, cap := cap } : Cfg).rank < c.rank
        omega
    · obtain ⟨h1, h2, h3⟩ := hsim hs
      refine ⟨h1, ?_⟩
      have hs' : ({ c with pc := .main } : Cfg).st = .copyStored := hst
      rw [hs']
      exact ⟨h2, h3⟩
  rename_i hcap
  have hn : min c.copyRemaining (c.bits.len / 8) * 8 ≤ c.bits.len := by omega
  have hp : 2 ^ (8 * min c.copyRemaining (c.bits.len / 8)) = 256 ^ min c.copyRemaining (c.bits.len / 8) := by rw [Nat.pow_mul]
  have hbytes : ∀ fut, (List.range (min c.copyRemaining (c.bits.len / 8))).map (fun i => UInt8.ofNat (c.bits.word / 256 ^ i % 256)) =
      (List.range (min c.copyRemaining (c.bits.len / 8))).map (fun i => UInt8.ofNat ((c.S fut).val / 256 ^ i % 256)) := by
    intro fut
    apply List.map_congr_left
    intro i hi
    have hi := List.mem_range.1 hi
    have := stream_extract c.bits (c.src ++ fut) (o := 8 * i) (n := 8) (by omega)
    rw [BitBuf.extract, Nat.pow_mul] at this
    congr 1
    exact this.symm
  have hsplit : ∀ fut, storedBytes c.copyRemaining (c.S fut) c.out =
      storedBytes (c.copyRemaining - min c.copyRemaining (c.bits.len / 8))
        ((c.bits.drop (8 * min c.copyRemaining (c.bits.len / 8))).stream (c.src ++ fut))
        (c.out ++ (drain (min c.copyRemaining (c.bits.len / 8)) c.bits.word).1) := by
    intro fut
    rw [drop_stream (by omega), drain_eq, hbytes fut]
    conv_lhs => rw [show c.copyRemaining = min c.copyRemaining (c.bits.len / 8) + (c.copyRemaining - min c.copyRemaining (c.bits.len / 8)) by omega]
    exact storedBytes_split (by rw [Cfg.S, stream_len]; omega)
  have hword : (drain (min c.copyRemaining (c.bits.len / 8)) c.bits.word).2 =
      (c.bits.drop (8 * min c.copyRemaining (c.bits.len / 8))).word := by
    rw [drain_eq, BitBuf.drop, hp]
  have hdl : (drain (min c.copyRemaining (c.bits.len / 8)) c.bits.word).1.length = min c.copyRemaining (c.bits.len / 8) := by
    rw [drain_eq]; simp
  simp only []
  have hbits : (⟨(drain (min c.copyRemaining (c.bits.len / 8)) c.bits.word).2, c.bits.len - min c.copyRemaining (c.bits.len / 8) * 8⟩ : BitBuf) =
      c.bits.drop (8 * min c.copyRemaining (c.bits.len / 8)) := by
    rw [hword, Nat.mul_comm]; rfl
  rw [hbits]
  revert hsplit hdl
  generalize (drain (min c.copyRemaining (c.bits.len / 8)) c.bits.word).1 = d
  clear hbits hword hbytes hp
  generalize hmin : min c.copyRemaining (c.bits.len / 8) = n at *
  intro hsplit hdl
  split
  · rename_i h0
    refine done_ok (c2 := { c with copyRemaining := c.copyRemaining - n, bits := c.bits.drop (8 * n), out := c.out ++ d })
      (by show c.bits.len - 8 * n ≤ 63; omega) (by simp; omega) hI.static (Nat.le_refl _)
      (by show c.bits.len - 8 * n + 8 * c.src.length < c.bits.len + 8 * c.src.length; omega) (fun fut r _ hs => ?_)
    obtain ⟨h1, h2, h3⟩ := hsim hs
    refine ⟨false, drop_agree (by omega) h1, fun _ => drop_clean (by omega) h2, ?_⟩
    rw [h3, hsplit, h0, storedBytes, if_pos (by omega)]
    simp [skip_zero]
    rfl
  rename_i h0
  have hlen0 : n * 8 = c.bits.len := by omega
  split
  · rename_i hm
    have hsrc : c.src = [] := by
      rw [← List.length_eq_zero_iff]; omega
    refine trunc_ok hsrc (fun chunk => ⟨by show c.bits.len - 8 * n ≤ 63; omega, by simp; omega, hI.static, ?_⟩) (fun fut r _ hs => ?_)
    · rw [Stage]
      simp only [hst]
      refine ⟨trivial, by rw [drop_len]; omega, h0⟩
    · obtain ⟨h1, h2, h3⟩ := hsim hs
      refine ⟨⟨drop_agree (by omega) h1, ?_⟩, fun hf => ?_⟩
      · simp only [hst]
        refine ⟨drop_clean (by omega) h2, ?_⟩
        rw [h3, hsplit]
        rfl
      · rw [h3, storedBytes, if_neg (by rw [Cfg.S, stream_len, hf, hsrc]; simp; omega)]
        rfl
  rename_i hm
  generalize hmm : min (c.copyRemaining - n) c.src.length = m at *
  have hmsrc : m ≤ c.src.length := by omega
  have hsplit2 : ∀ fut, c.bits.Clean → storedBytes c.copyRemaining (c.S fut) c.out =
      storedBytes (c.copyRemaining - n - m) ((c.bits.drop (8 * n)).stream (c.src.drop m ++ fut)) (c.out ++ d ++ c.src.take m) := by
    intro fut hcl
    have hz : (c.bits.drop (8 * n)).len = 0 := by rw [drop_len]; omega
    have hst : ∀ l, (c.bits.drop (8 * n)).stream l = ⟨ofBytes l, 8 * l.length⟩ := by
      intro l
      rw [BitBuf.stream, hz]
      simp [Nat.mod_one]
    have hsr : c.src ++ fut = c.src.take m ++ (c.src.drop m ++ fut) := by rw [← List.append_assoc, List.take_append_drop]
    have hlt : (c.src.take m).length = m := by rw [List.length_take]; omega
    rw [hsplit fut, hst, hst]
    conv_lhs => rw [show c.copyRemaining - n = m + (c.copyRemaining - n - m) by omega]
    rw [storedBytes_split (by simp; omega)]
    have hb := ofBytes_bytes (c.src.take m) (c.src.drop m ++ fut)
    have hdv := ofBytes_append_div (c.src.take m) (c.src.drop m ++ fut)
    rw [hlt, ← hsr] at hb hdv
    rw [hb, Stream.skip]
    congr 2
    · rw [Nat.pow_mul]; exact hdv
    · simp; omega
  have hagree2 : ∀ fut, c.bits.Clean → (c.bits.drop (8 * n)).Agree (c.src.drop m ++ fut) := by
    intro fut hcl i hi
    have hw : (c.bits.drop (8 * n)).word = 0 := by
      have := drop_clean (n := 8 * n) (show 8 * n ≤ c.bits.len by omega) hcl
      rw [BitBuf.Clean, drop_len, show c.bits.len - 8 * n = 0 by omega] at this
      omega
    rw [hw] at hi
    simp at hi
  have htl : (c.src.take m).length = m := by rw [List.length_take]; omega
  split
  · rename_i h1
    refine done_ok (c2 := { c with copyRemaining := c.copyRemaining - n - m, bits := c.bits.drop (8 * n), out := c.out ++ d ++ c.src.take m, src := c.src.drop m, pc := .main })
      (by show c.bits.len - 8 * n ≤ 63; omega) (by simp only [List.length_append, htl]; omega) hI.static (by simp)
      (by show c.bits.len - 8 * n + 8 * (c.src.drop m).length < c.bits.len + 8 * c.src.length; rw [List.length_drop]; omega) (fun fut r _ hs => ?_)
    obtain ⟨g1, g2, g3⟩ := hsim hs
    refine ⟨false, hagree2 fut g2, fun _ => drop_clean (by omega) g2, ?_⟩
    rw [g3, hsplit2 fut g2, h1, storedBytes, if_pos (by omega)]
    simp [skip_zero]
    rfl
  · rename_i h1
    refine ⟨⟨by show c.bits.len - 8 * n ≤ 63; omega, by simp only [List.length_append, htl]; omega, hI.static, ?_⟩,
      ⟨by simp, Or.inl ?_⟩, fun fut r _ hs => ?_⟩
    · rw [Stage]
      simp only [hst]
      refine ⟨trivial, by rw [drop_len]; omega, h1⟩
    · show c.bits.len - 8 * n + 8 * (c.src.drop m).length < c.bits.len + 8 * c.src.length
      rw [List.length_drop]; omega
    · obtain ⟨g1, g2, g3⟩ := hsim hs
      refine ⟨hagree2 fut g2, ?_⟩
      simp only [hst]
      refine ⟨drop_clean (by omega) g2, ?_⟩
      rw [g3, hsplit2 fut g2]
      rfl

end Blend2D.Deflate
