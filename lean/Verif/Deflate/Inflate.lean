import Verif.Deflate.Run

/-!
# C35: the deflate decoder

The input is given to the decoder in chunks: `decodeAll` calls `decode` with one after another for as long as it asks for more.
`d` is the memory of the decoder before `init`, which is arbitrary, together with the output array.  `grow` stands for
`BLArray::reserve`: it fails, or gives at least the capacity that was asked for.  A run that has no result (`none`) has made an
access outside an array or failed an assertion, see `Verif/Deflate/Decoder.lean`.  The specification is
`Verif/Deflate/InflateSpec.lean`.
-/

namespace Blend2D.Deflate
open Spec

/-- The capacity that is reserved is at least what was asked for. -/
def Reserves (grow : Cfg → Option Nat) : Prop := ∀ c cap, grow c = some cap → required c ≤ cap

/-- Any valid stream may be given. -/
def anything : Bool → Kind → Bool := fun _ _ => true

/-- A decoder with all of its memory zero, and an empty output. -/
def blank : Cfg :=
  ⟨.blockHeader, false, false, ⟨0, 0⟩, 0, 0, 0, 0, 0, fun _ => 0, fun _ => 0, ⟨0, 0, 0⟩, fun _ => 0, ⟨0, 0, 0⟩, fun _ => 0,
    ⟨0, 0, 0⟩, fun _ => 0, fun _ => 0, [], [], 0, .main⟩

/-- Decodes with the least capacities. -/
def decoded (zlib : Bool) (chunks : List (List UInt8)) : Option (Ret × List UInt8) :=
  (decodeAll (fun c => some (required c)) 1000 (init zlib blank) chunks).map fun p => (p.1, p.2.out)

/-- Whatever the input is and however it is split, the decoder accesses nothing outside its arrays, the input and the capacity of
the output. -/
theorem C35_decoder_safe (zlib : Bool) (d : Cfg) (h : d.out.length ≤ d.cap) (grow : Cfg → Option Nat) (hg : Reserves grow)
    (chunks : List (List UInt8)) (n : Nat) : ∃ ret c, decodeAll grow n (init zlib d) chunks = some (ret, c) := by
  obtain ⟨x, hx, _⟩ := decodeAll_ok hg n chunks (init zlib d) (inv_init zlib h)
  exact ⟨x.1, x.2, hx⟩

/-- The decoder always stops. -/
theorem C35_decoder_terminates (zlib : Bool) (d : Cfg) (h : d.out.length ≤ d.cap) (grow : Cfg → Option Nat) (hg : Reserves grow)
    (chunks : List (List UInt8)) (m n : Nat) (hm : ∀ l ∈ chunks, l.length ≤ m)
    (hn : ((63 + 8 * m) * 26 + 25) * (m + 1) + m < n) (c : Cfg) : decodeAll grow n (init zlib d) chunks ≠ some (.running, c) :=
  decodeAll_stops hg hn chunks (init zlib d) (inv_init zlib h) hm c

/-- If the decoder succeeds the output is what the input stands for; if it reports invalid data, the input stands for nothing; if
it asks for more input, the input is a proper prefix. -/
theorem C35_decoder_sound_partial (zlib : Bool) (d : Cfg) (h : d.out.length ≤ d.cap) (grow : Cfg → Option Nat) (hg : Reserves grow)
    (chunks : List (List UInt8)) (n : Nat) (hp : inflate plain (formatOf zlib) chunks.flatten d.out ≠ .refused) (ret : Ret) (c : Cfg)
    (hr : decodeAll grow n (init zlib d) chunks = some (ret, c)) :
    (ret = .success → inflate anything (formatOf zlib) chunks.flatten d.out = .ok c.out) ∧
    (ret = .truncated → inflate anything (formatOf zlib) chunks.flatten d.out = .truncated) ∧
    (ret = .invalid → ∀ o, inflate anything (formatOf zlib) chunks.flatten d.out ≠ .ok o) := by
  obtain ⟨x, hx, _, ha⟩ := decodeAll_ok hg n chunks (init zlib d) (inv_init zlib h)
  obtain rfl := Option.some.inj (hx.symm.trans hr)
  have := ha _ hp (sim_init zlib d chunks.flatten) (fun he => by rw [he]; exact inflate_nil _ _ _)
  rw [inflate_allow hp] at this
  refine ⟨?_, ?_, ?_⟩ <;> rintro rfl <;> exact this

/-- Every valid stream is decoded, however it is split into chunks of less than 176 bytes: `plain` demands that no stored block
follows a compressed one, and that no dynamic offset code has a codeword for one of the two symbols that stand for nothing.
Chunks are short so that the fast loop, which is not modelled, is not entered. -/
theorem C35_decoder_complete_partial (zlib : Bool) (d : Cfg) (h : d.out.length ≤ d.cap) (grow : Cfg → Option Nat) (hg : Reserves grow)
    (hm : ∀ c, grow c ≠ none) (chunks : List (List UInt8)) (hs : ∀ l ∈ chunks, l.length < 176)
    (hp : inflate plain (formatOf zlib) chunks.flatten d.out ≠ .refused) (n : Nat) (hn : 7000000 ≤ n) :
    ∃ ret c, decodeAll grow n (init zlib d) chunks = some (ret, c) ∧
      match inflate anything (formatOf zlib) chunks.flatten d.out with
      | .ok o => ret = .success ∧ c.out = o
      | .invalid => ret = .invalid
      | .truncated => ret = .truncated ∨ ret = .invalid
      | .refused => False := by
  obtain ⟨⟨ret, c⟩, hx, hf, ha⟩ := decodeAll_ok hg n chunks (init zlib d) (inv_init zlib h)
  have := ha _ hp (sim_init zlib d chunks.flatten) (fun he => by rw [he]; exact inflate_nil _ _ _)
  have hf' := hf hs
  have hstop := decodeAll_stops hg (n := n) (K := 175) (by omega) chunks (init zlib d) (inv_init zlib h)
    (fun l hl => Nat.le_of_lt_succ (hs l hl)) c
  have hmem := decodeAll_memory hm n chunks (init zlib d) c
  have hne : inflate anything (formatOf zlib) chunks.flatten d.out ≠ .refused := by
    have e : inflate plain (formatOf zlib) chunks.flatten d.out = inflate anything (formatOf zlib) chunks.flatten d.out := inflate_allow hp
    rw [← e]
    exact hp
  rw [inflate_allow hp] at this
  refine ⟨ret, c, hx, ?_⟩
  change AllOk (inflate anything (formatOf zlib) chunks.flatten d.out) (ret, c) at this
  rw [hx] at hstop hmem
  revert this hne
  generalize inflate anything (formatOf zlib) chunks.flatten d.out = r
  intro hne this
  cases ret with
  | success =>
    have e : r = .ok c.out := this
    subst e
    exact ⟨rfl, rfl⟩
  | truncated =>
    have e : r = .truncated := this
    subst e
    exact Or.inl rfl
  | invalid =>
    cases r with
    | ok o => exact absurd rfl (this o)
    | invalid => rfl
    | truncated => exact Or.inr rfl
    | refused => exact hne rfl
  | outOfMemory => exact absurd rfl hmem
  | fast => exact absurd rfl hf'
  | running => exact absurd rfl hstop

/-! ## Examples -/

/-- Ten times "a": a fixed block with a literal and a copy, in three chunks. -/
def exampleFixed : List (List UInt8) := [[75], [76, 132, 1], [0]]

/-- A zlib stream with "hello" four times. -/
def exampleZlib : List (List UInt8) := [[120, 156, 203, 72, 205, 201, 201, 87], [200, 64, 39, 1, 104, 3, 8, 177]]

example : inflate anything .raw exampleFixed.flatten [] = .ok (List.replicate 10 97) ∧
    inflate plain .raw exampleFixed.flatten [] ≠ .refused ∧ ∀ l ∈ exampleFixed, l.length < 176 := by decide +kernel

example : inflate anything .zlib exampleZlib.flatten [] = .ok
      [104, 101, 108, 108, 111, 32, 104, 101, 108, 108, 111, 32, 104, 101, 108, 108, 111, 32, 104, 101, 108, 108, 111] ∧
    inflate plain .zlib exampleZlib.flatten [] ≠ .refused := by decide +kernel

/-- Wrong check bits, and a stream that ends too early. -/
example : inflate anything .zlib [120, 157, 3, 0] [] = .invalid ∧ inflate anything .raw [75, 76, 132] [] = .truncated := by
  decide +kernel

example : Reserves (fun c => some (required c)) ∧ blank.out.length ≤ blank.cap :=
  ⟨fun c cap h => by simp only [Option.some.injEq] at h; omega, Nat.le_refl _⟩

/-! ## What goes wrong -/

/-- A dynamic block with "aaaaa", a stored block with twelve bytes 255, and a stored block with the bytes 1, 2 and 3. -/
def staleInput : List UInt8 :=
  [4, 192, 129, 8, 0, 0, 0, 0, 32, 214, 253, 37, 14, 4, 12, 0, 243, 255, 255, 255, 255, 255, 255, 255, 255, 255, 255, 255, 255, 255,
    1, 3, 0, 252, 255, 1, 2, 3]

/-- The decoder succeeds with wrong data: after the word-wise refill of the optimized tail loop there are bits above the length
of the bit buffer.  When a stored block is copied from the input these bits stay, and they are mixed with the next header. -/
theorem C35_stored_after_compressed_counterexample :
    inflate anything .raw staleInput [] = .ok (List.replicate 5 97 ++ List.replicate 12 255 ++ [1, 2, 3]) ∧
    decoded false [staleInput] ≠ some (.success, List.replicate 5 97 ++ List.replicate 12 255 ++ [1, 2, 3]) ∧
    (decoded false [staleInput]).map Prod.fst = some .success := by
  decide +kernel

/-- A dynamic block with "aa" and a copy of three bytes; the offset code has a codeword of one bit for the symbol 30. -/
def splitInput : List UInt8 := [13, 222, 129, 0, 0, 0, 0, 128, 32, 214, 253, 37, 238, 69, 42, 13]

/-- The outcome depends on how the input is split: the safe tail loop looks up the offset before it knows that there are enough
bits, and rejects the stream if the bits that are missing stand for the symbol 30 or 31 when they are taken to be zero. -/
theorem C35_split_counterexample :
    inflate anything .raw splitInput [] = .ok (List.replicate 5 97) ∧
    decoded false [splitInput] = some (.success, List.replicate 5 97) ∧
    (decoded false [splitInput.take 15, splitInput.drop 15]).map Prod.fst = some .invalid := by
  decide +kernel

end Blend2D.Deflate
