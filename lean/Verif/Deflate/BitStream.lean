import Verif.Deflate.Decoder
import Verif.Deflate.InflateSpec

/-!
# The bit buffer and the stream it is a part of
-/

namespace Blend2D.Deflate
open Spec

/-- What is left of the stream: the bits of the buffer, followed by the bytes `rest`. -/
def BitBuf.stream (b : BitBuf) (rest : List UInt8) : Stream :=
  ⟨2 ^ b.len * ofBytes rest + b.word % 2 ^ b.len, b.len + 8 * rest.length⟩

/-- The bits of the word above the length are either bits of the stream or zero. -/
def BitBuf.Agree (b : BitBuf) (rest : List UInt8) : Prop := ∀ i, b.word.testBit i = true → (b.stream rest).val.testBit i = true

theorem stream_testBit (b : BitBuf) (rest : List UInt8) (i : Nat) :
    (b.stream rest).val.testBit i = if i < b.len then b.word.testBit i else (ofBytes rest).testBit (i - b.len) := by
  rw [BitBuf.stream, Nat.testBit_two_pow_mul_add _ (Nat.mod_lt _ (Nat.two_pow_pos _)), Nat.testBit_mod_two_pow]
  split
  · rename_i h; simp [h]
  · rfl

theorem stream_len (b : BitBuf) (rest : List UInt8) : (b.stream rest).len = b.len + 8 * rest.length := rfl

theorem stream_mod (b : BitBuf) (rest : List UInt8) {k : Nat} (h : k ≤ b.len) : (b.stream rest).val % 2 ^ k = b.word % 2 ^ k := by
  apply Nat.eq_of_testBit_eq
  intro i
  rw [Nat.testBit_mod_two_pow, Nat.testBit_mod_two_pow, stream_testBit]
  by_cases hi : i < k
  · simp [hi, show i < b.len by omega]
  · simp [hi]

theorem stream_extract (b : BitBuf) (rest : List UInt8) {o n : Nat} (h : o + n ≤ b.len) :
    (b.stream rest).val / 2 ^ o % 2 ^ n = b.extract o n := by
  apply Nat.eq_of_testBit_eq
  intro i
  rw [BitBuf.extract, Nat.testBit_mod_two_pow, Nat.testBit_mod_two_pow, Nat.testBit_div_two_pow, Nat.testBit_div_two_pow,
    stream_testBit]
  by_cases hi : i < n
  · simp [hi, show i + o < b.len by omega]
  · simp [hi]

theorem consume_some {b : BitBuf} {n : Nat} (h : n ≤ b.len) : b.consume n = some ⟨b.word / 2 ^ n, b.len - n⟩ := by
  rw [BitBuf.consume, if_pos h]

theorem consume_stream {b : BitBuf} {rest : List UInt8} {n : Nat} (h : n ≤ b.len) :
    (BitBuf.mk (b.word / 2 ^ n) (b.len - n)).stream rest = (b.stream rest).skip n := by
  rw [Stream.skip, BitBuf.stream]
  congr 1
  · apply Nat.eq_of_testBit_eq
    intro i
    have := stream_testBit (BitBuf.mk (b.word / 2 ^ n) (b.len - n)) rest i
    simp only [BitBuf.stream] at this
    rw [this, Nat.testBit_div_two_pow, Nat.testBit_div_two_pow, stream_testBit]
    by_cases hi : i < b.len - n
    · rw [if_pos hi, if_pos (by omega)]
    · rw [if_neg hi, if_neg (by omega), show i + n - b.len = i - (b.len - n) by omega]
  · rw [stream_len]; simp only []; omega

theorem consume_agree {b : BitBuf} {rest : List UInt8} {n : Nat} (h : n ≤ b.len) (ha : b.Agree rest) :
    (BitBuf.mk (b.word / 2 ^ n) (b.len - n)).Agree rest := by
  intro i hi
  rw [consume_stream h, Stream.skip]
  simp only [Nat.testBit_div_two_pow] at hi ⊢
  exact ha _ hi

theorem ofBytes_cons_testBit (x : UInt8) (xs : List UInt8) (i : Nat) :
    (ofBytes (x :: xs)).testBit i = if i < 8 then x.toNat.testBit i else (ofBytes xs).testBit (i - 8) := by
  have h : x.toNat < 2 ^ 8 := x.toNat_lt
  rw [ofBytes, Nat.add_comm, show 256 = 2 ^ 8 from rfl, Nat.testBit_two_pow_mul_add _ h]

theorem refillByte_testBit {b : BitBuf} {x : UInt8} (h : b.len < 56) (i : Nat) :
    (b.refillByte x).word.testBit i = (b.word.testBit i || (decide (b.len ≤ i ∧ i < b.len + 8) && x.toNat.testBit (i - b.len))) := by
  have hx : x.toNat < 2 ^ 8 := x.toNat_lt
  rw [BitBuf.refillByte]
  simp only [Nat.testBit_or, Nat.testBit_mod_two_pow, Nat.testBit_mul_two_pow]
  congr 1
  by_cases h1 : b.len ≤ i
  · by_cases h2 : i < b.len + 8
    · simp [h1, h2, show i < 64 by omega]
    · have : x.toNat.testBit (i - b.len) = false :=
        Nat.testBit_lt_two_pow (Nat.lt_of_lt_of_le hx (Nat.pow_le_pow_right (by omega) (by omega)))
      simp [h1, h2, this]
  · simp [h1]

theorem refillByte_stream {b : BitBuf} {x : UInt8} {xs : List UInt8} (h : b.len < 56) (ha : b.Agree (x :: xs)) :
    (b.refillByte x).stream xs = b.stream (x :: xs) ∧ (b.refillByte x).Agree xs := by
  have hl : (b.refillByte x).len = b.len + 8 := rfl
  have hbit : ∀ i, ((b.refillByte x).stream xs).val.testBit i = (b.stream (x :: xs)).val.testBit i := by
    intro i
    rw [stream_testBit, stream_testBit, ofBytes_cons_testBit, hl, refillByte_testBit h]
    by_cases h1 : i < b.len
    · rw [if_pos (by omega), if_pos h1]; simp [show ¬ b.len ≤ i by omega]
    · rw [if_neg h1]
      by_cases h2 : i < b.len + 8
      · rw [if_pos h2, if_pos (by omega)]
        have := ha i
        rw [stream_testBit, if_neg h1, ofBytes_cons_testBit, if_pos (by omega)] at this
        simp only [show b.len ≤ i by omega, h2, and_self, decide_true, Bool.true_and]
        cases hw : b.word.testBit i
        · simp
        · simp [this hw]
      · rw [if_neg h2, if_neg (by omega), show i - (b.len + 8) = i - b.len - 8 by omega]
  have hs : (b.refillByte x).stream xs = b.stream (x :: xs) := by
    have h1 := Nat.eq_of_testBit_eq hbit
    have h2 : ((b.refillByte x).stream xs).len = (b.stream (x :: xs)).len := by
      rw [stream_len, stream_len, hl, List.length_cons]; omega
    cases h3 : (b.refillByte x).stream xs
    cases h4 : b.stream (x :: xs)
    rw [h3, h4] at h1 h2
    simp_all
  refine ⟨hs, ?_⟩
  intro i hi
  rw [hbit]
  rw [refillByte_testBit h] at hi
  simp only [Bool.or_eq_true, Bool.and_eq_true, decide_eq_true_eq] at hi
  rcases hi with hi | ⟨h1, h2⟩
  · exact ha i hi
  · rw [stream_testBit, if_neg (by omega), ofBytes_cons_testBit, if_pos (by omega)]
    exact h2

/-- The loop that refills the buffer byte by byte. -/
theorem refillAll_stream (fut : List UInt8) : ∀ (src : List UInt8) (b : BitBuf), b.Agree (src ++ fut) →
    (refillAll b src).1.stream ((refillAll b src).2 ++ fut) = b.stream (src ++ fut) ∧
    (refillAll b src).1.Agree ((refillAll b src).2 ++ fut)
  | [], b, ha => ⟨rfl, ha⟩
  | x :: xs, b, ha => by
    rw [refillAll]
    split
    · rename_i h
      obtain ⟨h1, h2⟩ := refillByte_stream h ha
      obtain ⟨h3, h4⟩ := refillAll_stream fut xs _ h2
      exact ⟨h3.trans h1, h4⟩
    · exact ⟨rfl, ha⟩

theorem refillAll_len : ∀ (src : List UInt8) (b : BitBuf), b.len ≤ 63 →
    (refillAll b src).1.len ≤ 63 ∧ b.len ≤ (refillAll b src).1.len ∧
    ((refillAll b src).2 = [] ∨ 56 ≤ (refillAll b src).1.len) ∧
    b.len + 8 * src.length = (refillAll b src).1.len + 8 * (refillAll b src).2.length
  | [], b, h => ⟨h, Nat.le_refl _, Or.inl rfl, rfl⟩
  | x :: xs, b, h => by
    rw [refillAll]
    split
    · rename_i h1
      obtain ⟨h2, h3, h4, h5⟩ := refillAll_len xs (b.refillByte x) (by show b.len + 8 ≤ 63; omega)
      have hl : (b.refillByte x).len = b.len + 8 := rfl
      refine ⟨h2, by omega, h4, ?_⟩
      rw [← h5, hl, List.length_cons]; omega
    · rename_i h1
      exact ⟨h, Nat.le_refl _, Or.inr (by dsimp only; omega), rfl⟩

theorem load64_some : ∀ (n : Nat) (src : List UInt8), n ≤ src.length → load64 n src = some (ofBytes (src.take n))
  | 0, src, _ => by simp [load64, ofBytes]
  | n + 1, [], h => by simp at h
  | n + 1, x :: xs, h => by
    rw [load64, load64_some n xs (by simpa using h)]
    simp [ofBytes]

theorem ofBytes_take_testBit : ∀ (n : Nat) (l : List UInt8) (i : Nat), i < 8 * n →
    (ofBytes (l.take n)).testBit i = (ofBytes l).testBit i
  | 0, l, i, h => by omega
  | n + 1, [], i, h => by simp
  | n + 1, x :: xs, i, h => by
    rw [List.take_succ_cons, ofBytes_cons_testBit, ofBytes_cons_testBit]
    split
    · rfl
    · exact ofBytes_take_testBit n xs _ (by omega)

theorem ofBytes_take_high : ∀ (n : Nat) (l : List UInt8) (i : Nat), 8 * n ≤ i → (ofBytes (l.take n)).testBit i = false
  | 0, l, i, h => by simp [ofBytes]
  | n + 1, [], i, h => by simp [ofBytes]
  | n + 1, x :: xs, i, h => by
    rw [List.take_succ_cons, ofBytes_cons_testBit, if_neg (by omega)]
    exact ofBytes_take_high n xs _ (by omega)

theorem ofBytes_drop_testBit : ∀ (n : Nat) (l : List UInt8) (i : Nat), (ofBytes (l.drop n)).testBit i = (ofBytes l).testBit (i + 8 * n)
  | 0, l, i => by simp
  | n + 1, [], i => by simp [ofBytes]
  | n + 1, x :: xs, i => by
    rw [List.drop_succ_cons, ofBytes_drop_testBit n xs, ofBytes_cons_testBit, if_neg (by omega)]
    congr 1

theorem refillWord_len {b : BitBuf} {w : Nat} (h : b.len ≤ 63) :
    (b.refillWord w).1.len = b.len + 8 * (b.refillWord w).2 ∧ 56 ≤ (b.refillWord w).1.len ∧ (b.refillWord w).1.len ≤ 63 ∧
    (b.refillWord w).2 ≤ 7 := by
  have key : ∀ n < 64, (n ||| 56 = n + 8 * (7 - n / 8 % 8)) := by decide +kernel
  have := key b.len (by omega)
  simp only [BitBuf.refillWord]
  omega

theorem refillWord_low {b : BitBuf} {w : Nat} (h : b.len ≤ 63) {i : Nat} (hi : i < b.len) :
    (b.refillWord w).1.word.testBit i = b.word.testBit i := by
  simp only [BitBuf.refillWord, Nat.testBit_or, Nat.testBit_mod_two_pow, Nat.testBit_mul_two_pow, Nat.mod_eq_of_lt (show b.len < 64 by omega)]
  simp [show ¬ b.len ≤ i by omega]

theorem refillWord_mod {b : BitBuf} {w : Nat} (h : b.len ≤ 63) {k : Nat} (hk : k ≤ b.len) :
    (b.refillWord w).1.word % 2 ^ k = b.word % 2 ^ k := by
  apply Nat.eq_of_testBit_eq
  intro i
  rw [Nat.testBit_mod_two_pow, Nat.testBit_mod_two_pow]
  by_cases hi : i < k
  · rw [refillWord_low h (by omega)]
  · simp [hi]

theorem refillWord_stream {b : BitBuf} {src fut : List UInt8} (h : b.len ≤ 63) (hs : 8 ≤ src.length) (ha : b.Agree (src ++ fut)) :
    (b.refillWord (ofBytes (src.take 8))).1.stream (src.drop (b.refillWord (ofBytes (src.take 8))).2 ++ fut) = b.stream (src ++ fut) ∧
    (b.refillWord (ofBytes (src.take 8))).1.Agree (src.drop (b.refillWord (ofBytes (src.take 8))).2 ++ fut) := by
  obtain ⟨l1, l2, l3, l4⟩ := refillWord_len (w := ofBytes (src.take 8)) h
  have ht : src.take 8 = (src ++ fut).take 8 := by rw [List.take_append_of_le_length hs]
  have hd : src.drop (b.refillWord (ofBytes (src.take 8))).2 ++ fut = (src ++ fut).drop (b.refillWord (ofBytes (src.take 8))).2 := by
    rw [List.drop_append_of_le_length (by omega)]
  have hword : ∀ i, (b.refillWord (ofBytes (src.take 8))).1.word.testBit i =
      (b.word.testBit i || (decide (i < 64 ∧ b.len ≤ i) && (ofBytes (src ++ fut)).testBit (i - b.len))) := by
    intro i
    simp only [BitBuf.refillWord, Nat.testBit_or, Nat.testBit_mod_two_pow, Nat.testBit_mul_two_pow, Nat.mod_eq_of_lt (show b.len < 64 by omega)]
    congr 1
    by_cases h1 : i < 64
    · rw [ht, ofBytes_take_testBit 8 _ _ (by omega)]
      by_cases h2 : b.len ≤ i <;> simp [h1, h2]
    · simp [h1]
  have hbit : ∀ i, ((b.refillWord (ofBytes (src.take 8))).1.stream (src.drop (b.refillWord (ofBytes (src.take 8))).2 ++ fut)).val.testBit i =
      (b.stream (src ++ fut)).val.testBit i := by
    intro i
    rw [stream_testBit, stream_testBit, hword, hd, ofBytes_drop_testBit]
    by_cases h1 : i < b.len
    · rw [if_pos (by omega), if_pos h1]; simp [show ¬ b.len ≤ i by omega]
    · rw [if_neg h1]
      by_cases h2 : i < (b.refillWord (ofBytes (src.take 8))).1.len
      · rw [if_pos h2]
        have := ha i
        rw [stream_testBit, if_neg h1] at this
        simp only [show b.len ≤ i by omega, show i < 64 by omega, and_self, decide_true, Bool.true_and]
        cases hw : b.word.testBit i
        · simp
        · simp [this hw]
      · rw [if_neg h2]; congr 1; omega
  have hst : (b.refillWord (ofBytes (src.take 8))).1.stream (src.drop (b.refillWord (ofBytes (src.take 8))).2 ++ fut) = b.stream (src ++ fut) := by
    have h1 := Nat.eq_of_testBit_eq hbit
    have h2 : ((b.refillWord (ofBytes (src.take 8))).1.stream (src.drop (b.refillWord (ofBytes (src.take 8))).2 ++ fut)).len =
        (b.stream (src ++ fut)).len := by
      rw [stream_len, stream_len, l1, List.length_append, List.length_append, List.length_drop]; omega
    cases h3 : (b.refillWord (ofBytes (src.take 8))).1.stream (src.drop (b.refillWord (ofBytes (src.take 8))).2 ++ fut)
    cases h4 : b.stream (src ++ fut)
    rw [h3, h4] at h1 h2
    simp_all
  refine ⟨hst, ?_⟩
  intro i hi
  rw [hbit]
  rw [hword] at hi
  simp only [Bool.or_eq_true, Bool.and_eq_true, decide_eq_true_eq] at hi
  rcases hi with hi | ⟨⟨h1, h3⟩, h2⟩
  · exact ha i hi
  · rw [stream_testBit, if_neg (by omega)]
    exact h2

/-- At the end of the stream the buffer is all there is. -/
theorem agree_nil {b : BitBuf} (ha : b.Agree []) : (b.stream []).val = b.word := by
  apply Nat.eq_of_testBit_eq
  intro i
  rw [stream_testBit]
  split
  · rfl
  · rename_i h
    have := ha i
    rw [stream_testBit, if_neg h] at this
    simp only [ofBytes, Nat.zero_testBit] at this ⊢
    cases hw : b.word.testBit i
    · rfl
    · exact absurd (this hw) (by simp)

/-- `bits` of the specification and `extract` of the code. -/
theorem bits_ok {b : BitBuf} {rest : List UInt8} {n : Nat} (h : n ≤ b.len) :
    bits n (b.stream rest) = .ok (b.extract 0 n, (BitBuf.mk (b.word / 2 ^ n) (b.len - n)).stream rest) := by
  rw [bits, if_pos (by rw [stream_len]; omega), consume_stream h, ← stream_extract b rest (show 0 + n ≤ b.len by omega)]
  simp

theorem bits_skip {s : Stream} {n : Nat} (h : n ≤ s.len) : bits n s = .ok (s.val % 2 ^ n, s.skip n) := by rw [bits, if_pos h]

theorem bits_short {s : Stream} {n : Nat} (h : s.len < n) : bits n s = .truncated := by rw [bits, if_neg (by omega)]

theorem skip_skip (s : Stream) (a b : Nat) : (s.skip a).skip b = s.skip (a + b) := by
  simp only [Stream.skip, Nat.div_div_eq_div_mul, ← Nat.pow_add, Nat.sub_sub]

theorem skip_len (s : Stream) (a : Nat) : (s.skip a).len = s.len - a := rfl

theorem skip_zero (s : Stream) : s.skip 0 = s := by simp [Stream.skip]

/-! ## Symbols -/

theorem startsWith_congr {N N' l c : Nat} (h : ∀ i < l, N.testBit i = N'.testBit i) : StartsWith N l c ↔ StartsWith N' l c := by
  constructor <;> intro hs i hi
  · rw [← h i hi]; exact hs i hi
  · rw [h i hi]; exact hs i hi

theorem codes_congr {lens : List Nat} {N N' s : Nat} (h : ∀ i < lens.getD s 0, N.testBit i = N'.testBit i) :
    Codes lens N s ↔ Codes lens N' s := by
  rw [Codes, Codes, startsWith_congr h]

/-- A codeword that is in the buffer is in the stream. -/
theorem codes_stream {lens : List Nat} {b : BitBuf} {rest : List UInt8} {s : Nat} (h : lens.getD s 0 ≤ b.len) :
    Codes lens (b.stream rest).val s ↔ Codes lens b.word s :=
  codes_congr fun i hi => by rw [stream_testBit, if_pos (by omega)]

theorem find_unique {n s : Nat} {p : Nat → Bool} (hs : s < n) (hp : p s = true) (hu : ∀ t, p t = true → t = s) :
    (List.range n).find? p = some s := by
  cases h : (List.range n).find? p with
  | none =>
    rw [List.find?_eq_none] at h
    exact absurd hp (h s (List.mem_range.2 hs))
  | some t =>
    rw [hu t (List.find?_some h)]

end Blend2D.Deflate
