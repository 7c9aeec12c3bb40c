import Verif.Deflate.Safe

/-!
# The optimized tail loop
-/

namespace Blend2D.Deflate
open Spec

variable {c : Cfg}

theorem litRead_some (hL : LitTable c.ll c.litInfo.tableBits c.litTab) (b : BitBuf) : ∃ e, litRead c b = some e := by
  by_cases h : ∃ s, Codes c.ll b.word s
  · obtain ⟨s, hs⟩ := h
    obtain ⟨e, he, _⟩ := hL.found _ _ hs
    exact ⟨e, he⟩
  · obtain ⟨e, he, _⟩ := hL.missing b.word (by simpa using h)
    exact ⟨e, he⟩

/-- A literal in the main table. -/
theorem lit_top (hL : LitTable c.ll c.litInfo.tableBits c.litTab) {b : BitBuf} {e : Entry} (he : litRead c b = some e)
    (hlit : isLiteral e = true) : ∃ s, Codes c.ll b.word s ∧ litLenMeaning s = .literal (payloadField e % 256) ∧
      c.ll.getD s 0 = baseLength e := by
  rcases litCase { c with bits := b } with ⟨s, x, hc, hm⟩ | ⟨s, hc, hm⟩ | ⟨s, base, extra, hc, hm⟩ | ⟨s, hc, hm⟩ | hn
  · have hsh := hL.found _ _ hc
    rw [hm] at hsh
    obtain ⟨e', he', h⟩ := shape_literal hsh
    obtain rfl := Option.some.inj (he'.symm.trans he)
    rcases h with ⟨h1, h2, h3⟩ | ⟨h1, h2⟩
    · exact ⟨s, hc, by rw [hm, h2], h3.symm⟩
    · rw [h1] at hlit; simp at hlit
  · have hsh := hL.found _ _ hc
    rw [hm] at hsh
    obtain ⟨e', he', h, _⟩ := shape_eob hsh
    obtain rfl := Option.some.inj (he'.symm.trans he)
    rw [h] at hlit; simp at hlit
  · have hsh := hL.found _ _ hc
    rw [hm] at hsh
    obtain ⟨e', he', h, _⟩ := shape_value hsh
    obtain rfl := Option.some.inj (he'.symm.trans he)
    rw [h] at hlit; simp at hlit
  · have hsh := hL.found _ _ hc
    rw [hm] at hsh
    obtain ⟨e', he', h, _⟩ := shape_invalid hsh
    obtain rfl := Option.some.inj (he'.symm.trans he)
    rw [h] at hlit; simp at hlit
  · obtain ⟨e', he', h, _⟩ := shape_invalid (hL.missing _ hn)
    obtain rfl := Option.some.inj (he'.symm.trans he)
    rw [h] at hlit; simp at hlit

/-- The end of an iteration. -/
theorem optNext_ok' (hI : Inv c) (hst : c.st = .huffmanBlock) (hsrc : 8 ≤ c.src.length) {n : Nat} (h56 : 56 ≤ c.bits.len)
    (hn : n ≤ 48) (hn1 : 1 ≤ n) {o : List UInt8} (ho : o.length ≤ c.cap) {e : Entry}
    (he : litRead c ((c.bits.drop n).refillWord (ofBytes (c.src.take 8))).1 = some e)
    (h : ∀ fut, huffman c.ll c.dl (c.bits.stream (c.src ++ fut)) c.out =
      huffman c.ll c.dl ((c.bits.drop n).stream (c.src ++ fut)) o) :
    StepOk c (optNext c (ofBytes (c.src.take 8)) (c.bits.drop n) o e) := by
  have h63 := hI.len
  have hb : (c.bits.drop n).len ≤ 63 := by rw [drop_len]; omega
  have hbl := drop_len c.bits n
  obtain ⟨l1, l2, l3, l4⟩ := refillWord_len (w := ofBytes (c.src.take 8)) hb
  refine ok_next hI hst l3 ho (Or.inr (Or.inr ⟨e, rfl, l2, he⟩)) (by rw [List.length_drop]; omega) ?_ (fun fut ha => ?_)
  · rw [List.length_drop]; omega
  · obtain ⟨h1, h2⟩ := refillWord_stream hb hsrc (drop_agree (show n ≤ c.bits.len by omega) ha)
    exact ⟨h2, by rw [h1]; exact h fut⟩

@[inherit_doc optNext_ok'] theorem optNext_ok (hI : Inv c) (hst : c.st = .huffmanBlock) (hsrc : 8 ≤ c.src.length) {n : Nat} (h56 : 56 ≤ c.bits.len)
    (hn : n ≤ 45) (hn1 : 1 ≤ n) {o : List UInt8} (ho : o.length ≤ c.cap) {e : Entry} (he : litRead c (c.bits.drop n) = some e)
    (h : ∀ fut, huffman c.ll c.dl (c.bits.stream (c.src ++ fut)) c.out =
      huffman c.ll c.dl ((c.bits.drop n).stream (c.src ++ fut)) o) :
    StepOk c (optNext c (ofBytes (c.src.take 8)) (c.bits.drop n) o e) := by
  obtain ⟨hL, hO⟩ := huff_tables hI hst
  have h63 := hI.len
  have := hL.htb
  refine optNext_ok' hI hst hsrc h56 (by omega) hn1 ho ?_ h
  rw [litRead, refillWord_mod (by rw [drop_len]; omega) (by rw [drop_len]; omega)]
  exact he

theorem optMatch_ok (hI : Inv c) (hst : c.st = .huffmanBlock) (hsrc : 8 ≤ c.src.length) (h56 : 56 ≤ c.bits.len)
    {s base extra : Nat} (hc : Codes c.ll c.bits.word s) (hm : litLenMeaning s = .value base extra) :
    StepOk c (optMatch c (ofBytes (c.src.take 8)) (c.bits.drop (c.ll.getD s 0 + extra))
      (base + c.bits.word % 2 ^ (c.ll.getD s 0 + extra) / 2 ^ c.ll.getD s 0)) := by
  obtain ⟨hL, hO⟩ := huff_tables hI hst
  have hv := lit_value hL hc hm
  have hl15 := lit_codes hL hc
  have hlen := match_len (W := c.bits.word) (l := c.ll.getD s 0) hv
  have hb63 := hI.len
  have hroom := hI.room
  have hfull1 : c.ll.getD s 0 + extra ≤ c.bits.len := by omega
  have hL20 : c.ll.getD s 0 + extra ≤ 20 := by omega
  have hspec : ∀ fut, huffman c.ll c.dl (c.bits.stream (c.src ++ fut)) c.out = _ := fun fut => spec_value hL hc hfull1 hm
  revert hspec hlen
  generalize base + c.bits.word % 2 ^ (c.ll.getD s 0 + extra) / 2 ^ c.ll.getD s 0 = n
  generalize hL1 : c.ll.getD s 0 + extra = L1 at *
  intro hlen hspec
  rw [optMatch]
  split
  · exact ok_output hI hst (by omega)
  rename_i hcap
  rcases off_cases hO (c.bits.drop L1).word with ⟨t, ob, oe, ht, hmt, ho1, ho2⟩ | ⟨hinv, l, hsh⟩
  · obtain ⟨ht1, ht2, ht3⟩ := off_codes hO ht
    have hsh := hO.found _ _ ht
    rw [hmt] at hsh
    have key : ∀ e : Entry, payloadField e = ob → baseLength e = c.dl.getD t 0 → fullLength e = c.dl.getD t 0 + oe →
        fullLength e = (e &&& 63).toNat → StepOk c
        (if c.out.length < payloadField e + extractExtra (c.bits.drop L1).word e then errorInvalid c
        else
          match (c.bits.drop L1).consume (e &&& 63).toNat with
          | none => none
          | some b =>
            match copyMatch c.cap c.out (payloadField e + extractExtra (c.bits.drop L1).word e) n,
              litRead c (b.refillWord (ofBytes (c.src.take 8))).1 with
            | some out, some e => optNext c (ofBytes (c.src.take 8)) b out e
            | _, _ => none) := by
      intro e e1 e2 e3 e4
      have hx : payloadField e + extractExtra (c.bits.drop L1).word e =
          ob + (c.bits.drop L1).word % 2 ^ (c.dl.getD t 0 + oe) / 2 ^ c.dl.getD t 0 := by
        rw [extractExtra, e1, e2, ← e4, e3]
      have hdl := drop_len c.bits L1
      have hoff : ∀ fut, huffman c.ll c.dl (c.bits.stream (c.src ++ fut)) c.out = _ := fun fut =>
        (hspec fut).trans (off_value hO ht (by omega) hmt)
      rw [hx, ← e4, e3]
      split
      · rename_i hfar
        exact ok_invalid hst (fun fut _ _ o => by rw [hoff fut, if_pos hfar]; simp)
      · rename_i hfar
        obtain ⟨e', he2⟩ := litRead_some hL ((c.bits.drop (L1 + (c.dl.getD t 0 + oe))).refillWord (ofBytes (c.src.take 8))).1
        rw [consume_drop (by omega), drop_drop]
        simp only []
        rw [copyMatch_some hlen.1 (by omega) (by omega) (by omega), he2]
        simp only []
        refine optNext_ok' hI hst hsrc h56 (by omega) (by omega) (by rw [List.length_append, copied_length]; omega) he2 (fun fut => ?_)
        rw [hoff fut, if_neg hfar, drop_drop]
    obtain ⟨e, he, h1, h2, h3⟩ := shape_value hsh
    rw [he]
    simp only []
    rcases h3 with ⟨h3, h4, h5, h6⟩ | ⟨h3, e2, h4, h5, h6, h7, h8, h9, h10, h11⟩
    · rw [if_pos h3]
      exact key e h4 h5 h6 h2
    · rw [if_neg (by simp [h3])]
      rw [show payloadField e + extractExtra (c.bits.drop L1).word e =
        payloadField e + (c.bits.drop L1).word % 2 ^ fullLength e / 2 ^ baseLength e by rw [extractExtra, h2], h4]
      simp only []
      rw [if_neg (by simp [h8])]
      exact key e2 h9 h10 h11 h5
  · obtain ⟨e, he, h1, h2, h3, e2, h4, h5, h6, h7, h8, h9, h10⟩ := shape_invalid hsh
    rw [he]
    simp only []
    rw [if_neg (by simp [h2])]
    rw [show payloadField e + extractExtra (c.bits.drop L1).word e =
      payloadField e + (c.bits.drop L1).word % 2 ^ fullLength e / 2 ^ baseLength e by rw [extractExtra, h3], h4]
    simp only []
    rw [if_pos h8]
    refine ok_invalid hst (fun fut ha hok o => ?_)
    rw [hspec fut]
    exact off_never (off_agree hok hO (drop_agree hfull1 ha) hinv) o

/-- The next literal, after the first `n` bits. -/
theorem spec_more (hL : LitTable c.ll c.litInfo.tableBits c.litTab) {n : Nat} {o rest : List UInt8} {e : Entry}
    (he : litRead c (c.bits.drop n) = some e) (hlit : isLiteral e = true) (hn : n + 15 ≤ c.bits.len) :
    1 ≤ baseLength e ∧ baseLength e ≤ 15 ∧
    huffman c.ll c.dl ((c.bits.drop n).stream rest) o =
      huffman c.ll c.dl ((c.bits.drop (n + baseLength e)).stream rest) (o ++ [UInt8.ofNat (payloadField e % 256)]) := by
  obtain ⟨s, h1, h2, h3⟩ := lit_top hL he hlit
  have hl := lit_codes hL h1
  rw [← h3]
  refine ⟨hl.2.1, hl.2.2, ?_⟩
  rw [spec_literal hL h1 (by rw [drop_len]; omega) h2, drop_drop]

theorem drop_zero (b : BitBuf) : b.drop 0 = b := by simp [BitBuf.drop]

theorem optStep_ok (hI : Inv c) (hst : c.st = .huffmanBlock) {e : Entry} (hpc : c.pc = .opt e) : StepOk c (optStep c e) := by
  obtain ⟨hL, hO⟩ := huff_tables hI hst
  have hroom := hI.room
  have hb63 := hI.len
  have hpre : 56 ≤ c.bits.len ∧ litRead c c.bits = some e := by
    have := hI.stage
    rw [Stage, hst] at this
    rcases this.2 with h | h | ⟨e', h, h1, h2⟩
    · rw [hpc] at h; simp at h
    · rw [hpc] at h; simp at h
    · rw [hpc] at h
      obtain rfl := Pc.opt.inj h
      exact ⟨h1, h2⟩
  obtain ⟨h56, hread⟩ := hpre
  rw [optStep]
  split
  swap
  · refine ⟨inv_upd (b := c.bits) (s := c.src) (o := c.out) (k := c.copyRemaining) (cap := c.cap) (p := .safe) hI hst hI.len hI.room
      (Or.inr (Or.inl rfl)), ⟨Nat.le_refl _, Or.inr ⟨rfl, Or.inl ?_⟩⟩, fun fut r _ hs => ?_⟩
    · have h1 : ({ c with pc := .safe } : Cfg).stageRank = 2 := by simp only [Cfg.stageRank, hst]
      have h2 : c.stageRank = 3 := by simp only [Cfg.stageRank, hst, hpc]
      have h3 : ({ c with pc := .safe } : Cfg).rank = (if c.low then 16 else 0) + ({ c with pc := .safe } : Cfg).stageRank := rfl
      have h4 : c.rank = (if c.low then 16 else 0) + c.stageRank := rfl
      rw [h3, h4, h1, h2]
      omega
    · exact (sim_upd (k := c.copyRemaining) (cap := c.cap) (p := .safe) hst).2 ((sim_huff hst).1 hs)
  rename_i hcond
  obtain ⟨hcap, hsrc⟩ := hcond
  rw [load64_some 8 c.src hsrc]
  simp only []
  by_cases hlit : isLiteral e = true
  · rw [if_pos hlit]
    have hread0 : litRead c (c.bits.drop 0) = some e := by rw [drop_zero]; exact hread
    have s1 := fun fut => spec_more (o := c.out) (rest := c.src ++ fut) hL hread0 hlit (by omega)
    have b1 := (s1 []).1
    have b1' := (s1 []).2.1
    have s1 := fun fut => (s1 fut).2.2
    simp only [Nat.zero_add, drop_zero] at s1
    rw [consume_drop (by omega)]
    simp only []
    obtain ⟨e1, he1⟩ := litRead_some hL (c.bits.drop (baseLength e))
    rw [he1, push_some (by omega)]
    simp only []
    generalize hn1 : baseLength e = n1 at *
    split
    swap
    · exact optNext_ok hI hst hsrc h56 (by omega) (by omega) (by simp; omega) he1 s1
    rename_i hlit1
    have s2 := fun fut => spec_more (o := c.out ++ [UInt8.ofNat (payloadField e % 256)]) (rest := c.src ++ fut) hL he1 hlit1 (by omega)
    have b2 := (s2 []).1
    have b2' := (s2 []).2.1
    have s2 := fun fut => (s1 fut).trans (s2 fut).2.2
    rw [consume_drop (by rw [drop_len]; omega)]
    simp only [drop_drop]
    obtain ⟨e2, he2⟩ := litRead_some hL (c.bits.drop (n1 + baseLength e1))
    rw [he2, push_some (by simp; omega)]
    simp only []
    generalize hn2 : baseLength e1 = n2 at *
    split
    swap
    · exact optNext_ok hI hst hsrc h56 (by omega) (by omega) (by simp; omega) he2 s2
    rename_i hlit2
    have s3 := fun fut => spec_more (o := c.out ++ [UInt8.ofNat (payloadField e % 256)] ++ [UInt8.ofNat (payloadField e1 % 256)])
      (rest := c.src ++ fut) hL he2 hlit2 (by omega)
    have b3 := (s3 []).1
    have b3' := (s3 []).2.1
    have s3 := fun fut => (s2 fut).trans (s3 fut).2.2
    rw [consume_drop (by rw [drop_len]; omega)]
    simp only [drop_drop]
    obtain ⟨e3, he3⟩ := litRead_some hL (c.bits.drop (n1 + n2 + baseLength e2))
    rw [he3, push_some (by simp; omega)]
    simp only []
    exact optNext_ok hI hst hsrc h56 (by omega) (by omega) (by simp; omega) he3 s3
  · rw [if_neg hlit]
    rcases litCase c with ⟨s, x, hc, hm⟩ | ⟨s, hc, hm⟩ | ⟨s, base, extra, hc, hm⟩ | ⟨s, hc, hm⟩ | hn
    · have hl := lit_codes hL hc
      have hsh := hL.found _ _ hc
      rw [hm] at hsh
      obtain ⟨e', he', h⟩ := shape_literal hsh
      obtain rfl := Option.some.inj (he'.symm.trans hread)
      rcases h with ⟨h1, _⟩ | ⟨h1, h2, h3, e2, h4, h5, h6, h7, h8⟩
      · exact absurd h1 hlit
      rw [if_neg (by simp [h2]), extractExtra, ← h3, h4]
      simp only []
      rw [← h5, h8, consume_drop (by omega)]
      simp only []
      obtain ⟨e1, he1⟩ := litRead_some hL (c.bits.drop (c.ll.getD s 0))
      rw [if_pos h6, push_some (by omega), he1, h7]
      exact optNext_ok hI hst hsrc h56 (by omega) (by omega) (by simp; omega) he1 (fun fut => spec_literal hL hc (by omega) hm)
    · have hl := lit_codes hL hc
      have hsh := hL.found _ _ hc
      rw [hm] at hsh
      obtain ⟨e', he', h1, h2, h3, e2, h4, h5, h6, h7, h8, h9, h10⟩ := shape_eob hsh
      obtain rfl := Option.some.inj (he'.symm.trans hread)
      rw [if_neg (by simp [h2]), extractExtra, ← h3, h4]
      simp only []
      rw [← h5, h10, consume_drop (by omega)]
      simp only []
      rw [if_neg (by simp [h6]), if_pos h8, if_neg (by simp [h9])]
      exact ok_done hI hst (by omega) hl.2.1 (fun fut ha => spec_eob hL hc (by omega) hm)
    · have hl := lit_codes hL hc
      have hv := lit_value hL hc hm
      have hsh := hL.found _ _ hc
      rw [hm] at hsh
      obtain ⟨e', he', h1, h2, h3⟩ := shape_value hsh
      obtain rfl := Option.some.inj (he'.symm.trans hread)
      have key := optMatch_ok hI hst hsrc h56 hc hm
      rw [extractExtra, ← h2]
      rcases h3 with ⟨h3, h4, h5, h6⟩ | ⟨h3, e2, h4, h5, h6, h7, h8, h9, h10, h11⟩
      · rw [if_pos h3, h4, h5, h6, consume_drop (by omega)]
        exact key
      · rw [if_neg (by simp [h3]), h4]
        simp only []
        rw [← h5, h11, consume_drop (by omega)]
        simp only []
        rw [if_neg (by simp [h6]), if_neg (by simp [h8]), extractExtra, h9, h10, ← h5, h11]
        exact key
    · have hl := lit_codes hL hc
      have hsh := hL.found _ _ hc
      rw [hm] at hsh
      obtain ⟨e', he', h1, h2, h3, e2, h4, h5, h6, h7, h8, h9, h10⟩ := shape_invalid hsh
      obtain rfl := Option.some.inj (he'.symm.trans hread)
      rw [if_neg (by simp [h2]), extractExtra, ← h3, h4]
      simp only []
      rw [← h5, h10, consume_drop (by omega)]
      simp only []
      rw [if_neg (by simp [h6]), if_pos h8, if_pos h9]
      exact ok_invalid hst (fun fut ha _ o => by rw [spec_invalid hL hc (by omega) hm]; simp)
    · obtain ⟨e', he', h1, h2, h3, e2, h4, h5, h6, h7, h8, h9, h10⟩ := shape_invalid (hL.missing _ hn)
      obtain rfl := Option.some.inj (he'.symm.trans hread)
      rw [if_neg (by simp [h2]), extractExtra, ← h3, h4]
      simp only []
      rw [← h5, h10, consume_drop (by omega)]
      simp only []
      rw [if_neg (by simp [h6]), if_pos h8, if_pos h9]
      exact ok_invalid hst (fun fut ha _ o => by rw [spec_missing hL hn (by omega)]; simp)

end Blend2D.Deflate
