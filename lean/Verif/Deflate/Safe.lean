import Verif.Deflate.Huff

/-!
# The safe tail loop
-/

namespace Blend2D.Deflate
open Spec

/-- A state that differs in what the loops over the data of a block change. -/
def Cfg.upd (c : Cfg) (b : BitBuf) (s o : List UInt8) (k cap : Nat) (p : Pc) : Cfg :=
  { c with bits := b, src := s, out := o, copyRemaining := k, cap := cap, pc := p }

variable {c : Cfg}

theorem huff_tables (hI : Inv c) (hst : c.st = .huffmanBlock) : Tables c := by
  have := hI.stage
  rw [Stage, hst] at this
  exact this.1

theorem inv_upd (hI : Inv c) (hst : c.st = .huffmanBlock) {b : BitBuf} {s o : List UInt8} {k cap : Nat} {p : Pc} (hb : b.len ≤ 63)
    (ho : o.length ≤ cap) (hp : p = .main ∨ p = .safe ∨ ∃ e, p = .opt e ∧ 56 ≤ b.len ∧ litRead c b = some e) :
    Inv (c.upd b s o k cap p) := by
  refine ⟨hb, ho, hI.static, ?_⟩
  have hs : (c.upd b s o k cap p).st = .huffmanBlock := hst
  rw [Stage, hs]
  have ht : Tables c := huff_tables hI hst
  exact ⟨ht, hp⟩

theorem sim_huff (hst : c.st = .huffmanBlock) {fut : List UInt8} {r : Result (List UInt8)} : Sim c fut r ↔
    c.bits.Agree (c.src ++ fut) ∧ OffsetOk c.dl ∧ r = after true c.finalBlock (huffman c.ll c.dl (c.bits.stream (c.src ++ fut)) c.out) := by
  rw [Sim, hst]
  rfl

theorem sim_upd (hst : c.st = .huffmanBlock) {b : BitBuf} {s o : List UInt8} {k cap : Nat} {p : Pc} {fut : List UInt8}
    {r : Result (List UInt8)} : Sim (c.upd b s o k cap p) fut r ↔
    b.Agree (s ++ fut) ∧ OffsetOk c.dl ∧ r = after true c.finalBlock (huffman c.ll c.dl (b.stream (s ++ fut)) o) :=
  sim_huff (c := c.upd b s o k cap p) hst

theorem after_not_ok {seen fin : Bool} {x : Result (List UInt8 × Stream)} (h : ∀ o, x ≠ .ok o) (o : List UInt8) :
    after seen fin x ≠ .ok o := by
  cases x with
  | ok a => exact absurd rfl (h a)
  | _ => simp [after]

theorem ok_output (hI : Inv c) (hst : c.st = .huffmanBlock) {k : Nat} (hlow : c.cap - c.out.length < 258) :
    StepOk c (notEnoughOutput { c with copyRemaining := k }) := by
  refine ⟨fun cap hcap => ?_, fun fut r _ hs => ?_⟩
  · have hreq : required { c with copyRemaining := k, pc := .main } = c.out.length + max (max c.out.length 4096 + 4096) k := by
      rw [required, if_neg (by rintro ⟨h, _⟩; exact absurd (hst.symm.trans h) (by decide))]
    have hcap' : required { c with copyRemaining := k, pc := .main } ≤ cap := hcap
    rw [hreq] at hcap'
    refine ⟨inv_upd (b := c.bits) (s := c.src) (o := c.out) (k := k) (cap := cap) (p := .main) hI hst hI.len (by omega) (Or.inl rfl), Nat.le_refl _, Or.inr ⟨rfl, Or.inl ?_⟩⟩
    have r1 : ({ c with copyRemaining := k, pc := .main, cap := cap } : Cfg).rank = 4 := by
      simp only [Cfg.rank, Cfg.low, Cfg.stageRank, hst]
      rw [if_neg (by simp; omega)]
    have r2 : 16 ≤ c.rank := by
      simp only [Cfg.rank, Cfg.low, hst]
      rw [if_pos (by simpa using hlow)]
      omega
    show ({ c with copyRemaining := k, pc := .main, cap := cap } : Cfg).rank < c.rank
    omega
  · exact (sim_upd (k := k) (cap := c.cap) (p := .main) hst).2 ((sim_huff hst).1 hs)

theorem ok_trunc (hI : Inv c) (hst : c.st = .huffmanBlock) {k : Nat} (hsrc : c.src = [])
    (h : c.bits.Agree [] → huffman c.ll c.dl (c.bits.stream []) c.out = .truncated) :
    StepOk c (notEnoughInput { c with copyRemaining := k }) := by
  rw [notEnoughInput, if_pos hsrc]
  refine ⟨hsrc, fun chunk => inv_upd (s := chunk) (k := k) (p := .main) hI hst hI.len hI.room (Or.inl rfl), fun fut r _ hs => ?_⟩
  have hs' := (sim_huff hst).1 hs
  refine ⟨(sim_upd (k := k) (cap := c.cap) (p := .main) hst).2 hs', fun hf => ?_⟩
  rw [hf, hsrc, List.append_nil] at hs'
  rw [hs'.2.2, h hs'.1]
  rfl

theorem ok_next (hI : Inv c) (hst : c.st = .huffmanBlock) {b : BitBuf} {s o : List UInt8} {p : Pc} (hb : b.len ≤ 63)
    (ho : o.length ≤ c.cap) (hp : p = .main ∨ p = .safe ∨ ∃ e, p = .opt e ∧ 56 ≤ b.len ∧ litRead c b = some e)
    (hsrc : s.length ≤ c.src.length) (hlt : b.len + 8 * s.length < c.bits.len + 8 * c.src.length)
    (h : ∀ fut, c.bits.Agree (c.src ++ fut) → b.Agree (s ++ fut) ∧
      huffman c.ll c.dl (c.bits.stream (c.src ++ fut)) c.out = huffman c.ll c.dl (b.stream (s ++ fut)) o) :
    StepOk c (some (.next { c with bits := b, src := s, out := o, pc := p })) := by
  refine ⟨inv_upd (k := c.copyRemaining) hI hst hb ho hp, ⟨hsrc, Or.inl hlt⟩, fun fut r _ hs => ?_⟩
  have hs' := (sim_huff hst).1 hs
  obtain ⟨h1, h2⟩ := h fut hs'.1
  exact (sim_upd (k := c.copyRemaining) (cap := c.cap) hst).2 ⟨h1, hs'.2.1, by rw [← h2]; exact hs'.2.2⟩

theorem ok_invalid (hst : c.st = .huffmanBlock) {c' : Cfg}
    (h : ∀ fut, c.bits.Agree (c.src ++ fut) → OffsetOk c.dl → ∀ o, huffman c.ll c.dl (c.bits.stream (c.src ++ fut)) c.out ≠ .ok o) :
    StepOk c (errorInvalid c') := by
  intro fut r _ hs o
  have hs' := (sim_huff hst).1 hs
  rw [hs'.2.2]
  exact after_not_ok (h fut hs'.1 hs'.2.1) o

theorem ok_done (hI : Inv c) (hst : c.st = .huffmanBlock) {n : Nat} (hn : n ≤ c.bits.len) (hn1 : 1 ≤ n)
    (h : ∀ fut, c.bits.Agree (c.src ++ fut) → 
      huffman c.ll c.dl (c.bits.stream (c.src ++ fut)) c.out = .ok (c.out, (c.bits.drop n).stream (c.src ++ fut))) :
    StepOk c (blockDone { c with bits := c.bits.drop n }) := by
  have hl := hI.len
  rw [blockDone]
  split
  · rename_i hf
    intro fut r _ hs
    have hs' := (sim_huff hst).1 hs
    rw [hs'.2.2, h fut hs'.1, after, bind_ok, if_pos hf]
  · rename_i hf
    have hf' : c.finalBlock = false := by simpa using hf
    refine ⟨⟨by show c.bits.len - n ≤ 63; omega, hI.room, hI.static, ⟨rfl, hf'⟩⟩, ⟨Nat.le_refl _, Or.inl ?_⟩, fun fut r _ hs => ?_⟩
    · show c.bits.len - n + 8 * c.src.length < c.bits.len + 8 * c.src.length
      omega
    · have hs' := (sim_huff hst).1 hs
      refine ⟨drop_agree hn hs'.1, true, by simp, ?_⟩
      rw [hs'.2.2, h fut hs'.1, after, bind_ok, if_neg hf]
      rfl

/-! ## Symbols -/

/-- What the bits that come next stand for. -/
inductive LitCase (c : Cfg) : Prop
  | literal (s x : Nat) (hc : Codes c.ll c.bits.word s) (hm : litLenMeaning s = .literal x)
  | eob (s : Nat) (hc : Codes c.ll c.bits.word s) (hm : litLenMeaning s = .endOfBlock)
  | value (s base extra : Nat) (hc : Codes c.ll c.bits.word s) (hm : litLenMeaning s = .value base extra)
  | invalid (s : Nat) (hc : Codes c.ll c.bits.word s) (hm : litLenMeaning s = .invalid)
  | missing (hn : ∀ s, ¬ Codes c.ll c.bits.word s)

theorem litCase (c : Cfg) : LitCase c := by
  by_cases h : ∃ s, Codes c.ll c.bits.word s
  · obtain ⟨s, hs⟩ := h
    cases hm : litLenMeaning s with
    | literal x => exact .literal s x hs hm
    | endOfBlock => exact .eob s hs hm
    | value b e => exact .value s b e hs hm
    | invalid => exact .invalid s hs hm
  · exact .missing (by simpa using h)

theorem lit_value {ll : List Nat} {tb : Nat} {T : Tab} (h : LitTable ll tb T) {W s base extra : Nat} (hc : Codes ll W s)
    (hm : litLenMeaning s = .value base extra) : 3 ≤ base ∧ extra ≤ 5 ∧ base + 2 ^ extra ≤ 259 := by
  have := litLen_bounds s (lit_codes h hc).1
  rw [hm] at this
  simpa [litBound] using this

theorem lit_byte {ll : List Nat} {tb : Nat} {T : Tab} (h : LitTable ll tb T) {W s x : Nat} (hc : Codes ll W s)
    (hm : litLenMeaning s = .literal x) : x < 256 := by
  have := litLen_bounds s (lit_codes h hc).1
  rw [hm] at this
  simpa [litBound] using this

theorem off_cases {dl : List Nat} {tb : Nat} {T : Tab} (h : OffTable dl tb T) (W : Nat) :
    (∃ s base extra, Codes dl W s ∧ offsetMeaning s = .value base extra ∧ 1 ≤ base ∧ extra ≤ 13) ∨
    (((∃ s, Codes dl W s ∧ offsetMeaning s = .invalid) ∨ ∀ s, ¬ Codes dl W s) ∧ ∃ l, Shape 594 T tb W l .invalid) := by
  by_cases hc : ∃ s, Codes dl W s
  · obtain ⟨s, hs⟩ := hc
    have hb := offset_bounds s (off_codes h hs).1
    cases hm : offsetMeaning s with
    | value base extra =>
      rw [hm] at hb
      simp only [offBound, decide_eq_true_eq] at hb
      exact Or.inl ⟨s, base, extra, hs, hm, hb⟩
    | invalid =>
      refine Or.inr ⟨Or.inl ⟨s, hs, hm⟩, dl.getD s 0, ?_⟩
      have := h.found W s hs
      rwa [hm] at this
    | literal x => rw [hm] at hb; simp [offBound] at hb
    | endOfBlock => rw [hm] at hb; simp [offBound] at hb
  · exact Or.inr ⟨Or.inr (by simpa using hc), 1, h.missing W (by simpa using hc)⟩

/-- The length of a match. -/
theorem match_len {W l extra base : Nat} (h : 3 ≤ base ∧ extra ≤ 5 ∧ base + 2 ^ extra ≤ 259) :
    3 ≤ base + W % 2 ^ (l + extra) / 2 ^ l ∧ base + W % 2 ^ (l + extra) / 2 ^ l ≤ 258 := by
  rw [Nat.pow_add, Nat.mod_mul_right_div_self]
  have := Nat.mod_lt (W / 2 ^ l) (Nat.two_pow_pos extra)
  omega

theorem copyMatch_some {cap : Nat} {out : List UInt8} {d n : Nat} (h1 : 3 ≤ n) (h2 : 1 ≤ d) (h3 : d ≤ out.length)
    (h4 : out.length + n ≤ cap) : copyMatch cap out d n = some (out ++ copied out d n) := by
  rw [copyMatch, if_neg (by omega), copyLoop_eq h2 n out h3]

/-- A match. -/
theorem safeMatch_ok (hI : Inv c) (hst : c.st = .huffmanBlock) (hpc : c.pc = .safe) (hfull : c.src = [] ∨ 56 ≤ c.bits.len)
    {s base extra : Nat} (hc : Codes c.ll c.bits.word s) (hm : litLenMeaning s = .value base extra) :
    StepOk c (safeMatch c (c.ll.getD s 0 + extra) (base + c.bits.word % 2 ^ (c.ll.getD s 0 + extra) / 2 ^ c.ll.getD s 0)) := by
  obtain ⟨hL, hO⟩ := huff_tables hI hst
  have hv := lit_value hL hc hm
  have hl15 := lit_codes hL hc
  have hlen := match_len (W := c.bits.word) (l := c.ll.getD s 0) hv
  have hb63 := hI.len
  have hroom := hI.room
  rw [safeMatch]
  split
  · rename_i hs
    exact ok_trunc (k := c.copyRemaining) hI hst (by rcases hfull with h | h; exact h; omega)
      (fun ha => spec_value_short hL ha hc hs hm)
  rename_i hs
  have hfull1 : c.ll.getD s 0 + extra ≤ c.bits.len := by omega
  have hspec : ∀ fut, huffman c.ll c.dl (c.bits.stream (c.src ++ fut)) c.out = _ := fun fut => spec_value hL hc hfull1 hm
  revert hspec hlen
  generalize base + c.bits.word % 2 ^ (c.ll.getD s 0 + extra) / 2 ^ c.ll.getD s 0 = n
  generalize hL1 : c.ll.getD s 0 + extra = L1 at *
  intro hlen hspec
  rw [consume_drop hfull1]
  simp only []
  split
  · exact ok_output hI hst (by omega)
  rename_i hcap
  rcases off_cases hO (c.bits.drop L1).word with ⟨t, ob, oe, ht, hmt, ho1, ho2⟩ | ⟨hinv, l, hsh⟩
  · obtain ⟨ht1, ht2, ht3⟩ := off_codes hO ht
    have hsh := hO.found _ _ ht
    rw [hmt] at hsh
    -- both kinds of entries lead to the same end
    have key : ∀ e : Entry, payloadField e = ob → baseLength e = c.dl.getD t 0 → fullLength e = c.dl.getD t 0 + oe →
        fullLength e = (e &&& 63).toNat → StepOk c
        (if (c.bits.drop L1).len < fullLength e then notEnoughInput { c with copyRemaining := n }
        else match (c.bits.drop L1).consume (fullLength e) with
          | none => none
          | some b =>
            if c.out.length < payloadField e + extractExtra (c.bits.drop L1).word e then errorInvalid { c with bits := b }
            else (copyMatch c.cap c.out (payloadField e + extractExtra (c.bits.drop L1).word e) n).map fun out =>
              Step.next { c with bits := b, out := out }) := by
      intro e e1 e2 e3 e4
      have hx : payloadField e + extractExtra (c.bits.drop L1).word e =
          ob + (c.bits.drop L1).word % 2 ^ (c.dl.getD t 0 + oe) / 2 ^ c.dl.getD t 0 := by
        rw [extractExtra, e1, e2, ← e4, e3]
      rw [hx, e3]
      split
      · rename_i hs2
        refine ok_trunc hI hst (by rcases hfull with h | h; exact h; rw [drop_len] at hs2; omega) (fun ha => ?_)
        have := hspec []
        rcases hfull with h | h
        · rw [h] at this
          rw [List.append_nil] at this
          rw [this]
          exact off_value_short hO (drop_agree hfull1 ha) ht hs2 hmt
        · rw [drop_len] at hs2; omega
      · rename_i hs2
        rw [consume_drop (by omega)]
        simp only []
        have hoff : ∀ fut, huffman c.ll c.dl (c.bits.stream (c.src ++ fut)) c.out = _ := fun fut =>
          (hspec fut).trans (off_value hO ht (by omega) hmt)
        split
        · rename_i hfar
          exact ok_invalid hst (fun fut _ _ o => by rw [hoff fut, if_pos hfar]; simp)
        · rename_i hfar
          rw [copyMatch_some hlen.1 (by omega) (by omega) (by omega), drop_drop, Option.map_some]
          rw [drop_len] at hs2
          refine ok_next (s := c.src) (p := c.pc) hI hst (by rw [drop_len]; omega) (by rw [List.length_append, copied_length]; omega)
            (Or.inr (Or.inl hpc)) (Nat.le_refl _) (by rw [drop_len]; omega) (fun fut ha => ⟨drop_agree (by omega) ha, ?_⟩)
          rw [hoff fut, if_neg hfar, drop_drop]
    obtain ⟨e, he, h1, h2, h3⟩ := shape_value hsh
    rw [he]
    simp only []
    rcases h3 with ⟨h3, h4, h5, h6⟩ | ⟨h3, e2, h4, h5, h6, h7, h8, h9, h10, h11⟩
    · rw [if_pos h3]
      exact key e h4 h5 h6 h2
    · rw [if_neg (by simp [h3])]
      rw [show payloadField e + extractExtra (c.bits.drop L1).word e =
        payloadField e + (c.bits.drop L1).word % 2 ^ fullLength e / 2 ^ baseLength e by rw [extractExtra, h2], h4]
      simp only []
      rw [if_neg (by simp [h8])]
      exact key e2 h9 h10 h11 h5
  · obtain ⟨e, he, h1, h2, h3, e2, h4, h5, h6, h7, h8, h9, h10⟩ := shape_invalid hsh
    rw [he]
    simp only []
    rw [if_neg (by simp [h2])]
    rw [show payloadField e + extractExtra (c.bits.drop L1).word e =
      payloadField e + (c.bits.drop L1).word % 2 ^ fullLength e / 2 ^ baseLength e by rw [extractExtra, h3], h4]
    simp only []
    rw [if_pos h8]
    refine ok_invalid hst (fun fut ha hok o => ?_)
    rw [hspec fut]
    exact off_never (off_agree hok hO (drop_agree hfull1 ha) hinv) o

theorem push_some {cap : Nat} {out : List UInt8} {x : Nat} (h : out.length < cap) : push cap out x = some (out ++ [UInt8.ofNat x]) := by
  rw [push, if_pos h]

theorem safeBody_ok (hI : Inv c) (hst : c.st = .huffmanBlock) (hpc : c.pc = .safe) (hfull : c.src = [] ∨ 56 ≤ c.bits.len) :
    StepOk c (safeBody c) := by
  obtain ⟨hL, hO⟩ := huff_tables hI hst
  have hroom := hI.room
  have hb63 := hI.len
  have hex : ∀ n, c.bits.extract 0 n = c.bits.word % 2 ^ n := fun n => by simp [BitBuf.extract]
  rcases litCase c with ⟨s, x, hc, hm⟩ | ⟨s, hc, hm⟩ | ⟨s, base, extra, hc, hm⟩ | ⟨s, hc, hm⟩ | hn
  · have hl := lit_codes hL hc
    have hsh := hL.found _ _ hc
    rw [hm] at hsh
    have nextOk : ¬ c.bits.len < c.ll.getD s 0 → c.out.length ≠ c.cap → StepOk c (some (.next { c with
        bits := c.bits.drop (c.ll.getD s 0), out := c.out ++ [UInt8.ofNat x] })) := fun h1 h2 =>
      ok_next (s := c.src) (p := c.pc) hI hst (by rw [drop_len]; omega) (by simp; omega) (Or.inr (Or.inl hpc)) (Nat.le_refl _)
        (by rw [drop_len]; omega) (fun fut ha => ⟨drop_agree (by omega) ha, spec_literal hL hc (by omega) hm⟩)
    have truncOk : c.bits.len < c.ll.getD s 0 → StepOk c (notEnoughInput c) := fun h =>
      ok_trunc (k := c.copyRemaining) hI hst (by rcases hfull with h | h; exact h; omega) (fun ha => spec_lit_short hL ha hc h)
    have outOk : c.out.length = c.cap → StepOk c (notEnoughOutput c) := fun h =>
      ok_output (k := c.copyRemaining) hI hst (by omega)
    obtain ⟨e, he, h⟩ := shape_literal hsh
    rw [safeBody, litRead, he]
    simp only []
    rcases h with ⟨h1, h2, h3⟩ | ⟨h1, h2, h3, e2, h4, h5, h6, h7, h8⟩
    · rw [if_pos h1, h3]
      split
      · rename_i hf; exact outOk hf
      split
      · rename_i _ hs; exact truncOk hs
      · rename_i hf hs
        rw [consume_drop (by omega), push_some (by omega), h2]
        exact nextOk hs hf
    · rw [if_neg (by simp [h1]), if_neg (by simp [h2]), hex, h4]
      simp only []
      rw [h8]
      split
      · rename_i hs; exact truncOk hs
      split
      · rename_i hf; exact outOk hf
      · rename_i hs hf
        rw [consume_drop (by omega), push_some (by omega), h7]
        exact nextOk hs hf
  · have hl := lit_codes hL hc
    have hsh := hL.found _ _ hc
    rw [hm] at hsh
    obtain ⟨e, he, h1, h2, h3, e2, h4, h5, h6, h7, h8, h9, h10⟩ := shape_eob hsh
    rw [safeBody, litRead, he]
    simp only []
    rw [if_neg (by simp [h1]), if_neg (by simp [h2]), hex, h4]
    simp only []
    rw [h10]
    split
    · rename_i hs
      exact ok_trunc (k := c.copyRemaining) hI hst (by rcases hfull with h | h; exact h; omega) (fun ha => spec_lit_short hL ha hc hs)
    · rename_i hs
      rw [if_neg (by simp [h6]), consume_drop (by omega)]
      simp only []
      rw [if_neg (by simp [h9])]
      exact ok_done hI hst (by omega) hl.2.1 (fun fut ha => spec_eob hL hc (by omega) hm)
  · have hsh := hL.found _ _ hc
    rw [hm] at hsh
    obtain ⟨e, he, h1, h2, h3⟩ := shape_value hsh
    have key := safeMatch_ok hI hst hpc hfull hc hm
    have hl := lit_codes hL hc
    rw [safeBody, litRead, he]
    simp only []
    rw [if_neg (by simp [h1]), hex]
    rcases h3 with ⟨h3, h4, h5, h6⟩ | ⟨h3, e2, h4, h5, h6, h7, h8, h9, h10, h11⟩
    · rw [if_pos h3, h4, h5, h6]
      exact key
    · rw [if_neg (by simp [h3]), h4]
      simp only []
      rw [h11]
      split
      · rename_i hs
        have := lit_value hL hc hm
        exact ok_trunc (k := c.copyRemaining) hI hst (by rcases hfull with h | h; exact h; omega)
          (fun ha => spec_value_short hL ha hc hs hm)
      · rw [if_neg (by simp [h6]), if_neg (by simp [h8]), extractExtra, h9, h10, ← h5, h11]
        exact key
  · have hl := lit_codes hL hc
    have hsh := hL.found _ _ hc
    rw [hm] at hsh
    obtain ⟨e, he, h1, h2, h3, e2, h4, h5, h6, h7, h8, h9, h10⟩ := shape_invalid hsh
    rw [safeBody, litRead, he]
    simp only []
    rw [if_neg (by simp [h1]), if_neg (by simp [h2]), hex, h4]
    simp only []
    rw [h10]
    split
    · rename_i hs
      exact ok_trunc (k := c.copyRemaining) hI hst (by rcases hfull with h | h; exact h; omega) (fun ha => spec_lit_short hL ha hc hs)
    · rename_i hs
      rw [if_neg (by simp [h6]), consume_drop (by omega)]
      simp only []
      exact ok_invalid hst (fun fut ha _ o => by rw [spec_invalid hL hc (by omega) hm]; simp)
  · obtain ⟨e, he, h1, h2, h3, e2, h4, h5, h6, h7, h8, h9, h10⟩ := shape_invalid (hL.missing _ hn)
    rw [safeBody, litRead, he]
    simp only []
    rw [if_neg (by simp [h1]), if_neg (by simp [h2]), hex, h4]
    simp only []
    rw [h10]
    split
    · rename_i hs
      exact ok_trunc (k := c.copyRemaining) hI hst (by rcases hfull with h | h; exact h; omega) (fun ha => spec_missing_short ha hn hs)
    · rename_i hs
      rw [if_neg (by simp [h6]), consume_drop (by omega)]
      simp only []
      exact ok_invalid hst (fun fut ha _ o => by rw [spec_missing hL hn (by omega)]; simp)

end Blend2D.Deflate
