import Verif.Deflate.SpecLemmas

/-!
# The invariant of the decoder, and what its state means
-/

namespace Blend2D.Deflate
open Spec

/-- The blocks the decoder is known to handle however the input is split: no stored block comes after a compressed block, and no
offset code of a dynamic block has a codeword for a symbol that stands for nothing. -/
def plain : Bool → Kind → Bool
  | compressed, .stored => !compressed
  | _, .fixed => true
  | _, .dynamic _ offset => (offset.drop 30).all (· == 0)

/-- What is left of the stream. -/
def Cfg.S (c : Cfg) (fut : List UInt8) : Stream := c.bits.stream (c.src ++ fut)

/-- The lengths of the codes that were read. -/
def Cfg.ll (c : Cfg) : List Nat := (List.range c.litLenCount).map c.lens
@[inherit_doc Cfg.ll] def Cfg.dl (c : Cfg) : List Nat := (List.range c.offsetCount).map fun i => c.lens (c.litLenCount + i)
@[inherit_doc Cfg.ll] def Cfg.pl (c : Cfg) : List Nat := (List.range 19).map c.precodeLens

/-- The index of the loop over lengths. -/
def Cfg.idx (c : Cfg) : Nat :=
  match c.pc with
  | .precode i => i
  | .codes i => i
  | _ => c.workIndex

def Tables (c : Cfg) : Prop := LitTable c.ll c.litInfo.tableBits c.litTab ∧ OffTable c.dl c.offInfo.tableBits c.offTab

def CountsOk (c : Cfg) : Prop := 257 ≤ c.litLenCount ∧ c.litLenCount ≤ 288 ∧ 1 ≤ c.offsetCount ∧ c.offsetCount ≤ 32

def Stage (c : Cfg) : Prop :=
  match c.st with
  | .zlibHeader => c.pc = .main ∧ c.finalBlock = false
  | .blockHeader => c.pc = .main ∧ c.finalBlock = false
  | .storedHeader => c.pc = .main ∧ c.bits.len % 8 = 0
  | .copyStored => c.pc = .main ∧ c.bits.len % 8 = 0 ∧ c.copyRemaining ≠ 0
  | .staticHeader => c.pc = .main
  | .dynamicHeader => c.pc = .main
  | .precodeLens => c.staticActive = false ∧ CountsOk c ∧ c.idx ≤ c.workCount ∧ c.workCount ≤ 19 ∧ (∀ j < 19, c.precodeLens j ≤ 7) ∧
      (c.pc = .main ∨ (∃ i, c.pc = .precode i) ∧ (c.src = [] ∨ 56 ≤ c.bits.len + c.idx))
  | .codeLens => c.staticActive = false ∧ CountsOk c ∧ c.idx < c.litLenCount + c.offsetCount ∧
      PreTable c.pl c.preInfo.tableBits c.preTab ∧ (∀ j < c.idx, c.lens j ≤ 15) ∧ (c.pc = .main ∨ ∃ i, c.pc = .codes i)
  | .huffmanBlock => Tables c ∧ (c.pc = .main ∨ c.pc = .safe ∨ ∃ e, c.pc = .opt e ∧ 56 ≤ c.bits.len ∧ litRead c c.bits = some e)
  | .done => False
  | .invalid => False

structure Inv (c : Cfg) : Prop where
  len : c.bits.len ≤ 63
  room : c.out.length ≤ c.cap
  static : c.staticActive = true → Tables c ∧ c.ll = fixedLitLen ∧ c.dl = fixedOffset
  stage : Stage c

def BitBuf.Clean (b : BitBuf) : Prop := b.word < 2 ^ b.len

/-- What follows a block. -/
def after (seen fin : Bool) (x : Result (List UInt8 × Stream)) : Result (List UInt8) :=
  x.bind fun p => if fin then .ok p.1 else blocks plain seen p.2 p.1

/-- The data of a dynamic block. -/
def body (out : List UInt8) (p : List Nat × List Nat × Stream) : Result (List UInt8 × Stream) :=
  if plain true (.dynamic p.1 p.2.1) then huffman p.1 p.2.1 p.2.2 out else .refused

def OffsetOk (dl : List Nat) : Prop := dl = fixedOffset ∨ ∀ s, 30 ≤ s → dl.getD s 0 = 0

/-- The state of the decoder, followed by the input `c.src ++ fut`, decodes to `r` according to the specification. -/
def Sim (c : Cfg) (fut : List UInt8) (r : Result (List UInt8)) : Prop :=
  c.bits.Agree (c.src ++ fut) ∧
  match c.st with
  | .zlibHeader => c.bits.Clean ∧ r = (zlibHeader (c.S fut)).bind fun s => blocks plain false s c.out
  | .blockHeader => ∃ seen, (seen = false → c.bits.Clean) ∧ r = blocks plain seen (c.S fut) c.out
  | .storedHeader => c.bits.Clean ∧ r = after false c.finalBlock (stored (c.S fut) c.out)
  | .copyStored => c.bits.Clean ∧ r = after false c.finalBlock (storedBytes c.copyRemaining (c.S fut) c.out)
  | .staticHeader => r = after true c.finalBlock (huffman fixedLitLen fixedOffset (c.S fut) c.out)
  | .dynamicHeader => r = after true c.finalBlock ((dynamicCodes (c.S fut)).bind (body c.out))
  | .precodeLens => ∃ xs : List Nat, xs.length = c.idx ∧ (∀ s < 19, c.precodeLens s = xs.getD (precodeOrder.idxOf s) 0) ∧
      r = after true c.finalBlock (((many 3 (c.workCount - c.idx) (c.S fut)).bind fun p =>
        dynRest (c.litLenCount - 257) (c.offsetCount - 1) (xs ++ p.1) p.2).bind (body c.out))
  | .codeLens => r = after true c.finalBlock
      (((codeLengths c.pl (c.litLenCount + c.offsetCount) (c.S fut) ((List.range c.idx).map c.lens)).bind fun p =>
        twoCodes (c.litLenCount - 257) p.1 p.2).bind (body c.out))
  | .huffmanBlock => OffsetOk c.dl ∧ r = after true c.finalBlock (huffman c.ll c.dl (c.S fut) c.out)
  | .done => False
  | .invalid => False

/-- Bits that are left. -/
def Cfg.total (c : Cfg) : Nat := c.bits.len + 8 * c.src.length

/-- The output has to grow. -/
def Cfg.low (c : Cfg) : Prop :=
  if c.st = .copyStored then c.cap - c.out.length < c.copyRemaining else c.cap - c.out.length < 258

instance (c : Cfg) : Decidable c.low := by unfold Cfg.low; infer_instance

def Cfg.stageRank (c : Cfg) : Nat :=
  match c.st, c.pc with
  | .staticHeader, _ => 5
  | .huffmanBlock, .main => 4
  | .huffmanBlock, .opt _ => 3
  | .huffmanBlock, _ => 2
  | .precodeLens, .main => 9
  | .precodeLens, _ => 8
  | .codeLens, .main => 7
  | .codeLens, _ => 6
  | _, _ => 0

def Cfg.rank (c : Cfg) : Nat := (if c.low then 16 else 0) + c.stageRank

/-- The decoder makes progress. -/
def Less (c' c : Cfg) : Prop :=
  c'.src.length ≤ c.src.length ∧
  (c'.total < c.total ∨ c'.total = c.total ∧ (c'.rank < c.rank ∨ c'.rank = c.rank ∧ c'.src.length < c.src.length))

/-- The outcome of a step that began in state `c` is right. -/
def StepOk (c : Cfg) : Option Step → Prop
  | none => False
  | some (.next c') => Inv c' ∧ Less c' c ∧ ∀ fut r, r ≠ .refused → Sim c fut r → Sim c' fut r
  | some (.output c') => (∀ cap, required c' ≤ cap → Inv { c' with cap := cap } ∧ Less { c' with cap := cap } c) ∧
      ∀ fut r, r ≠ .refused → Sim c fut r → Sim c' fut r
  | some (.success c') => ∀ fut r, r ≠ .refused → Sim c fut r → r = .ok c'.out
  | some (.truncated c') => c'.src = [] ∧ (∀ chunk, Inv { c' with src := chunk, pc := .main }) ∧
      ∀ fut r, r ≠ .refused → Sim c fut r → Sim { c' with pc := .main } fut r ∧ (fut = [] → r = .truncated)
  | some (.invalid _) => ∀ fut r, r ≠ .refused → Sim c fut r → ∀ o, r ≠ .ok o
  | some (.fast _) => 176 ≤ c.src.length

theorem or_clean {a b n : Nat} (ha : a < 2 ^ n) (hb : b < 2 ^ n) : a ||| b < 2 ^ n := Nat.or_lt_two_pow ha hb

theorem refillByte_clean {b : BitBuf} {x : UInt8} (h : b.Clean) : (b.refillByte x).Clean := by
  have hx : x.toNat < 2 ^ 8 := x.toNat_lt
  have hl : (b.refillByte x).len = b.len + 8 := rfl
  refine or_clean (Nat.lt_of_lt_of_le h (Nat.pow_le_pow_right (by omega) (by omega))) ?_
  refine Nat.lt_of_le_of_lt (Nat.mod_le _ _) ?_
  rw [hl, Nat.pow_add, Nat.mul_comm (2 ^ b.len)]
  exact Nat.mul_lt_mul_of_pos_right hx (Nat.two_pow_pos _)

theorem refillAll_clean : ∀ (src : List UInt8) (b : BitBuf), b.Clean → (refillAll b src).1.Clean
  | [], _, h => h
  | x :: xs, b, h => by
    rw [refillAll]
    split
    · exact refillAll_clean xs _ (refillByte_clean h)
    · exact h

theorem consume_clean {b : BitBuf} {n : Nat} (hn : n ≤ b.len) (h : b.Clean) : (BitBuf.mk (b.word / 2 ^ n) (b.len - n)).Clean := by
  show b.word / 2 ^ n < 2 ^ (b.len - n)
  rw [Nat.div_lt_iff_lt_mul (Nat.two_pow_pos _), ← Nat.pow_add, show b.len - n + n = b.len by omega]
  exact h

theorem refill_idx (c : Cfg) : c.refill.idx = c.idx := rfl
theorem refill_rank (c : Cfg) : c.refill.rank = c.rank := rfl

theorem refill_total {c : Cfg} (h : c.bits.len ≤ 63) : c.refill.total = c.total := (refillAll_len c.src c.bits h).2.2.2.symm

theorem refill_src {c : Cfg} (h : c.bits.len ≤ 63) : c.refill.src.length ≤ c.src.length := by
  obtain ⟨h1, h2, h3, h4⟩ := refillAll_len c.src c.bits h
  show (refillAll c.bits c.src).2.length ≤ _
  omega

theorem refill_S {c : Cfg} {fut : List UInt8} (ha : c.bits.Agree (c.src ++ fut)) : c.refill.S fut = c.S fut :=
  (refillAll_stream fut c.src c.bits ha).1

/-- Refilling the buffer changes nothing. -/
theorem refill_sim {c : Cfg} {fut : List UInt8} {r : Result (List UInt8)} (h : Sim c fut r) : Sim c.refill fut r := by
  obtain ⟨ha, h⟩ := h
  refine ⟨(refillAll_stream fut c.src c.bits ha).2, ?_⟩
  rw [show c.refill.st = c.st from rfl]
  cases hst : c.st <;> simp only [hst] at h ⊢
  case huffmanBlock => exact ⟨h.1, by rw [refill_S ha]; exact h.2⟩
  case copyStored => exact ⟨refillAll_clean _ _ h.1, by rw [refill_S ha]; exact h.2⟩
  case zlibHeader => exact ⟨refillAll_clean _ _ h.1, by rw [refill_S ha]; exact h.2⟩
  case blockHeader =>
    obtain ⟨seen, h1, h2⟩ := h
    exact ⟨seen, fun e => refillAll_clean _ _ (h1 e), by rw [refill_S ha]; exact h2⟩
  case storedHeader => exact ⟨refillAll_clean _ _ h.1, by rw [refill_S ha]; exact h.2⟩
  case staticHeader => rw [refill_S ha]; exact h
  case dynamicHeader => rw [refill_S ha]; exact h
  case precodeLens =>
    obtain ⟨xs, h1, h2, h3⟩ := h
    exact ⟨xs, h1, h2, by rw [refill_S ha]; exact h3⟩
  case codeLens => rw [refill_S ha]; exact h

theorem less_refill {c c' : Cfg} (hl : c.bits.len ≤ 63) (h : Less c' c.refill) : Less c' c := by
  obtain ⟨h1, h2⟩ := h
  rw [refill_total hl, refill_rank] at h2
  have := refill_src hl
  refine ⟨by omega, ?_⟩
  omega

theorem good_refill {c : Cfg} {o : Option Step} (hl : c.bits.len ≤ 63) (h : StepOk c.refill o) : StepOk c o := by
  match o with
  | none => exact h
  | some (.next c') => exact ⟨h.1, less_refill hl h.2.1, fun fut r hr hs => h.2.2 fut r hr (refill_sim hs)⟩
  | some (.output c') =>
    exact ⟨fun cap hcap => ⟨(h.1 cap hcap).1, less_refill hl (h.1 cap hcap).2⟩, fun fut r hr hs => h.2 fut r hr (refill_sim hs)⟩
  | some (.success c') => exact fun fut r hr hs => h fut r hr (refill_sim hs)
  | some (.truncated c') => exact ⟨h.1, h.2.1, fun fut r hr hs => h.2.2 fut r hr (refill_sim hs)⟩
  | some (.invalid c') => exact fun fut r hr hs => h fut r hr (refill_sim hs)
  | some (.fast c') => exact Nat.le_trans h (refill_src hl)

theorem refill_len {c : Cfg} (h : c.bits.len ≤ 63) :
    c.refill.bits.len ≤ 63 ∧ (c.refill.src = [] ∨ 56 ≤ c.refill.bits.len) ∧ c.refill.bits.len % 8 = c.bits.len % 8 := by
  obtain ⟨h1, h2, h3, h4⟩ := refillAll_len c.src c.bits h
  refine ⟨h1, h3, ?_⟩
  show (refillAll c.bits c.src).1.len % 8 = _
  omega

end Blend2D.Deflate
