import Verif.Deflate.CodeSpec

/-!
# Specification: the data a deflate or zlib stream stands for (RFC 1951 and RFC 1950)

Nothing here refers to the model of the decoder.  The recursive calls are guarded by a test that the rest of the stream became
shorter, which is always true (it is there to show that the functions terminate).
-/

namespace Blend2D.Deflate.Spec

/-- The rest of a stream of bits: the next bit is the lowest bit of `val`, and `len` bits are left. -/
structure Stream where
  val : Nat
  len : Nat
deriving DecidableEq, Repr

/-- The number with the given bytes, the least significant one first. -/
def ofBytes : List UInt8 → Nat
  | [] => 0
  | x :: xs => x.toNat + 256 * ofBytes xs

/-- The stream with the bits of the given bytes; the first bit of each byte is its least significant one. -/
def Stream.of (bytes : List UInt8) : Stream := ⟨ofBytes bytes, 8 * bytes.length⟩

/-- The stream without its first `n` bits. -/
def Stream.skip (s : Stream) (n : Nat) : Stream := ⟨s.val / 2 ^ n, s.len - n⟩

/-- Result of decoding. -/
inductive Result (α : Type) where
  | ok (a : α)
  /-- The stream violates the format. -/
  | invalid
  /-- The stream is a proper prefix of something that could be valid. -/
  | truncated
  /-- The stream has a block of a kind that is excluded, see `blocks`. -/
  | refused
deriving DecidableEq, Repr

@[inherit_doc Result] def Result.bind {α β : Type} : Result α → (α → Result β) → Result β
  | .ok a, f => f a
  | .invalid, _ => .invalid
  | .truncated, _ => .truncated
  | .refused, _ => .refused

instance : Monad Result where
  pure := .ok
  bind := Result.bind

/-- The next `n` bits as a number. -/
def bits (n : Nat) (s : Stream) : Result (Nat × Stream) :=
  if n ≤ s.len then .ok (s.val % 2 ^ n, s.skip n) else .truncated

/-- The next symbol of a Huffman code.  If no codeword is found the stream is too short, or the code is incomplete. -/
def symbol (lens : List Nat) (s : Stream) : Result (Nat × Stream) :=
  match (List.range lens.length).find? (fun sym => decide (Codes lens s.val sym ∧ lens.getD sym 0 ≤ s.len)) with
  | some sym => .ok (sym, s.skip (lens.getD sym 0))
  | none => if s.len = 0 ∨ Complete lens then .truncated else .invalid

/-- A copy of `n` bytes that begins `offset` bytes before the end; the copy repeats if `offset` is less than `n`. -/
def copied (out : List UInt8) (offset n : Nat) : List UInt8 :=
  (List.range n).map fun i => out.getD (out.length - offset + i % offset) 0

/-- The compressed data of a block (RFC 1951, section 3.2.3), after `out`. -/
def huffman (litLen offset : List Nat) (s : Stream) (out : List UInt8) : Result (List UInt8 × Stream) := do
  let (sym, s1) ← symbol litLen s
  match litLenMeaning sym with
  | .literal x => if s1.len < s.len then huffman litLen offset s1 (out ++ [UInt8.ofNat x]) else .invalid
  | .endOfBlock => pure (out, s1)
  | .invalid => .invalid
  | .value base extra =>
    let (v, s2) ← bits extra s1
    let (d, s3) ← symbol offset s2
    match offsetMeaning d with
    | .value obase oextra =>
      let (w, s4) ← bits oextra s3
      if out.length < obase + w then .invalid
      else if s4.len < s.len then huffman litLen offset s4 (out ++ copied out (obase + w) (base + v)) else .invalid
    | _ => .invalid
termination_by s.len

/-- `k` numbers of `n` bits each. -/
def many (n : Nat) : Nat → Stream → Result (List Nat × Stream)
  | 0, s => pure ([], s)
  | k + 1, s => do
    let (x, s) ← bits n s
    let (xs, s) ← many n k s
    pure (x :: xs, s)

/-- The code lengths for the two alphabets, `n` in total (RFC 1951, section 3.2.7), after `acc`. -/
def codeLengths (precode : List Nat) (n : Nat) (s : Stream) (acc : List Nat) : Result (List Nat × Stream) := do
  if n ≤ acc.length then
    if acc.length = n then pure (acc, s) else .invalid
  else
    let (sym, s1) ← symbol precode s
    if sym < 16 then
      if s1.len < s.len then codeLengths precode n s1 (acc ++ [sym]) else .invalid
    else
      let (v, s2) ← bits (precodeMeaning sym).2 s1
      if sym = 16 ∧ acc = [] then .invalid
      else
        let x := if sym = 16 then acc.getLastD 0 else 0
        if s2.len < s.len then codeLengths precode n s2 (acc ++ List.replicate ((precodeMeaning sym).1 + v) x) else .invalid
termination_by s.len

/-- The order in which the lengths of the precode are stored (RFC 1951, section 3.2.7). -/
def precodeOrder : List Nat := [16, 17, 18, 0, 8, 7, 9, 6, 10, 5, 11, 4, 12, 3, 13, 2, 14, 1, 15]

/-- The lengths of the precode when the first ones in that order are given; the others are zero. -/
def precodeOf (stored : List Nat) : List Nat := (List.range 19).map fun sym => stored.getD (precodeOrder.idxOf sym) 0

/-- Splits the lengths of the two codes and checks them: the literal/length code needs to be complete, or have just one codeword
of one bit; so does the offset code unless it has no codeword. -/
def twoCodes (hlit : Nat) (lens : List Nat) (s : Stream) : Result (List Nat × List Nat × Stream) :=
  let litLen := lens.take (hlit + 257)
  let offset := lens.drop (hlit + 257)
  if (Complete offset ∨ Single offset ∨ Unused offset) ∧ (Complete litLen ∨ Single litLen) then pure (litLen, offset, s)
  else .invalid

/-- The header of a block with dynamic codes (RFC 1951, section 3.2.7). -/
def dynamicCodes (s : Stream) : Result (List Nat × List Nat × Stream) := do
  let (hlit, s) ← bits 5 s
  let (hdist, s) ← bits 5 s
  let (hclen, s) ← bits 4 s
  let (stored, s) ← many 3 (hclen + 4) s
  if Complete (precodeOf stored) then
    let (lens, s) ← codeLengths (precodeOf stored) (hlit + 257 + (hdist + 1)) s []
    twoCodes hlit lens s
  else .invalid

/-- The lengths of the fixed codes (RFC 1951, section 3.2.6). -/
def fixedLitLen : List Nat := List.replicate 144 8 ++ List.replicate 112 9 ++ List.replicate 24 7 ++ List.replicate 8 8
@[inherit_doc fixedLitLen] def fixedOffset : List Nat := List.replicate 32 5

/-- The next `n` bytes are copied; the stream is at a byte boundary. -/
def storedBytes (n : Nat) (s : Stream) (out : List UInt8) : Result (List UInt8 × Stream) :=
  if 8 * n ≤ s.len then pure (out ++ (List.range n).map (fun i => UInt8.ofNat (s.val / 256 ^ i % 256)), s.skip (8 * n))
  else .truncated

/-- A stored block at a byte boundary (RFC 1951, section 3.2.4): the length, its complement, and the data. -/
def stored (s : Stream) (out : List UInt8) : Result (List UInt8 × Stream) := do
  let (n, s) ← bits 16 s
  let (nlen, s) ← bits 16 s
  if n + nlen = 65535 then storedBytes n s out else .invalid

/-- The kinds of blocks. -/
inductive Kind where
  | stored
  | fixed
  | dynamic (litLen offset : List Nat)

/-- The data of one block, after `out`; `ty` is its type.  `allow` says which kinds of blocks may occur.  Its first argument is
whether there was a compressed block before; `fun _ _ => true` allows everything. -/
def block (allow : Bool → Kind → Bool) (compressed : Bool) (ty : Nat) (s : Stream) (out : List UInt8) :
    Result (List UInt8 × Stream) :=
  match ty with
  | 0 => if allow compressed .stored then stored (s.skip (s.len % 8)) out else .refused
  | 1 => if allow compressed .fixed then huffman fixedLitLen fixedOffset s out else .refused
  | 2 => do
    let (litLen, offset, s) ← dynamicCodes s
    if allow compressed (.dynamic litLen offset) then huffman litLen offset s out else .refused
  | _ => .invalid

/-- The data of all blocks, after `out`.  What follows the final block is ignored. -/
def blocks (allow : Bool → Kind → Bool) (compressed : Bool) (s : Stream) (out : List UInt8) : Result (List UInt8) := do
  let (last, s1) ← bits 1 s
  let (ty, s2) ← bits 2 s1
  let (out, s3) ← block allow compressed ty s2 out
  if last = 1 then pure out
  else if s3.len < s.len then blocks allow (compressed || ty != 0) s3 out
  else .invalid
termination_by s.len

/-- The header of a zlib stream (RFC 1950, section 2.2): the method is 8, there is no preset dictionary, and the check bits are
right.  The window size is ignored. -/
def zlibHeader (s : Stream) : Result Stream := do
  let (cmf, s) ← bits 8 s
  let (flg, s) ← bits 8 s
  if (cmf * 256 + flg) % 31 = 0 ∧ cmf % 16 = 8 ∧ flg / 32 % 2 = 0 then pure s else .invalid

/-- The format of the input. -/
inductive Format where
  | raw
  | zlib
deriving DecidableEq, Repr

/-- The data of a stream, appended to `out`.  The Adler-32 checksum of a zlib stream comes after the final block and is ignored. -/
def inflate (allow : Bool → Kind → Bool) (format : Format) (input out : List UInt8) : Result (List UInt8) :=
  match format with
  | .raw => blocks allow false (Stream.of input) out
  | .zlib => do blocks allow false (← zlibHeader (Stream.of input)) out

end Blend2D.Deflate.Spec
