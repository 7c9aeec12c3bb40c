import Mathlib.Logic.Function.Basic

/-!
# Huffman decode tables (`blend2d/compression/deflatedecoder.cpp`, `deflatedecoder_p.h`, `deflatedecoderutils_p.h`)

Entries are 32-bit words as in the code.  Code lengths, counts, indexes and codewords are natural numbers: the code keeps
them in `uint32_t`, where they never wrap (lengths are at most 15 and there are at most 288 symbols).

A table is a function from indexes to entries together with a capacity.  The function is arbitrary in the beginning, which
stands for uninitialised memory, and every write is checked against the capacity.  A function of the model has no result
(`none`) where the code would access an array outside its bounds.
-/

namespace Blend2D.Deflate

/-- `DecodeEntry`, `deflatedecoder_p.h:210-257`. -/
abbrev Entry := UInt32

/-- The flags, `deflatedecoder_p.h:227-231`. -/
def kEobInvalid : Entry := 0x00800000
@[inherit_doc kEobInvalid] def kEob : Entry := 0x01000000
@[inherit_doc kEobInvalid] def kOffOrLen : Entry := 0x02000000
@[inherit_doc kEobInvalid] def kLiteral : Entry := 0x08000000

/-- `is_literal`, `is_off_or_len`, `is_end_of_block`, `is_end_of_block_invalid`, `deflatedecoderutils_p.h:48-52`. -/
def isLiteral (e : Entry) : Bool := e &&& kLiteral != 0
@[inherit_doc isLiteral] def isOffOrLen (e : Entry) : Bool := e &&& kOffOrLen != 0
@[inherit_doc isLiteral] def isEob (e : Entry) : Bool := e &&& kEob != 0
@[inherit_doc isLiteral] def isEobInvalid (e : Entry) : Bool := e &&& kEobInvalid != 0

/-- `base_length`, `full_length`, `raw_payload`, `payload_field`, `deflatedecoderutils_p.h:58-62`. -/
def baseLength (e : Entry) : Nat := ((e >>> 28) &&& 15).toNat
@[inherit_doc baseLength] def fullLength (e : Entry) : Nat := (e &&& 255).toNat
@[inherit_doc baseLength] def rawPayload (e : Entry) : Nat := ((e >>> 8) &&& 0xFFFF).toNat
@[inherit_doc baseLength] def payloadField (e : Entry) : Nat := ((e >>> 8) &&& 0x7FFF).toNat

/-- `precode_value`, `precode_repeat`, `deflatedecoderutils_p.h:64-65`. -/
def precodeValue (e : Entry) : Nat := ((e >>> 8) &&& 255).toNat
@[inherit_doc precodeValue] def precodeRepeat (e : Entry) : Nat := ((e >>> 16) &&& 255).toNat

/-- `make_top_entry`, `deflatedecoder.cpp:187-197`. -/
def makeTop (e : Entry) (len : Nat) : Entry :=
  let base : UInt32 := if isEob e then 0 else UInt32.ofNat len <<< (28 : UInt32)
  e + (UInt32.ofNat len ||| base)

/-- `make_sub_link`, `deflatedecoder.cpp:199-205`. -/
def makeSubLink (start baseLen fullLen : Nat) : Entry :=
  (UInt32.ofNat baseLen <<< (28 : UInt32)) ||| UInt32.ofNat fullLen ||| (UInt32.ofNat start <<< (8 : UInt32))

/-- `make_sub_entry`, `deflatedecoder.cpp:207-213`. -/
def makeSub (e : Entry) (len : Nat) : Entry :=
  (e &&& (0xFFFFFF3F : UInt32)) + UInt32.ofNat len + (UInt32.ofNat len <<< (28 : UInt32))

/-- `DecodeTableType`, `deflatedecoder.cpp:216-220`. -/
inductive TableType where
  | precode
  | litLen
  | offset
deriving DecidableEq, Repr

/-- `DecodeTableInfo`, `deflatedecoder_p.h:294-301`. -/
structure Info where
  tableBits : Nat
  maxCodeLen : Nat
  literalMask : Nat
deriving DecidableEq, Repr

/-- A table: arbitrary until written. -/
abbrev Tab := Nat → Entry

/-- A write to a table with `cap` entries. -/
def Tab.write (cap : Nat) (t : Tab) (i : Nat) (e : Entry) : Option Tab :=
  if i < cap then some (Function.update t i e) else none

/-- `memcpy(&decode_table[n], decode_table, n * sizeof(DecodeEntry))`, `deflatedecoder.cpp:406` and `:427`. -/
def Tab.double (cap : Nat) (t : Tab) (n : Nat) : Option Tab :=
  if n + n ≤ cap then some (fun i => if n ≤ i ∧ i < n + n then t (i - n) else t i) else none

/-- `len_counts`, `deflatedecoder.cpp:263-265`. -/
def lenCount (lens : List Nat) (l : Nat) : Nat := lens.count l

/-- `len_mask` and `literal_mask`, `deflatedecoder.cpp:260-273`. -/
def lenMask (lens : List Nat) : Nat := lens.foldl (fun m l => m ||| 2 ^ l) 0
@[inherit_doc lenMask] def literalMask (lens : List Nat) : Nat := lenMask (lens.take 256) / 2 * 2

/-- `31 - clz(x)` for a number different from zero (`intops_p.h:333-384`). -/
def topBit (x : Nat) : Nat := Nat.log2 x

/-- The length in use, `deflatedecoder.cpp:276`: `32 - clz(m)` is one more than the index of the highest bit. -/
def usedMaxLen (lens : List Nat) (maxCodewordLen : Nat) : Nat := min maxCodewordLen (topBit (lenMask lens ||| 1) + 1)

/-- `table_bits`, `deflatedecoder.cpp:277`. -/
def tableBitsOf (maxTableBits maxLen : Nat) : Nat := max (min maxTableBits maxLen) 1

/-- `codespace_used`, `deflatedecoder.cpp:290-301`: `n` lengths, beginning with `len`. -/
def codespace (cnt : Nat → Nat) : Nat → Nat → Nat → Nat
  | 0, _, used => used
  | n + 1, len, used => codespace cnt n (len + 1) (used * 2 + cnt len)

/-- `offsets`, `deflatedecoder.cpp:285-298`: the place of the first symbol of each length. -/
def offsetOf (cnt : Nat → Nat) : Nat → Nat
  | 0 => 0
  | l + 1 => offsetOf cnt l + cnt l

/-- The sorting loop, `deflatedecoder.cpp:303-307`.  `sorted_syms_data` has `cap` elements and `offsets` has been written up to
`maxLen`; reading it beyond has no result. -/
def sortLoop (cap maxLen : Nat) : List Nat → Nat → (Nat → Nat) → (Nat → Nat) → Option ((Nat → Nat) × (Nat → Nat))
  | [], _, off, data => some (off, data)
  | len :: lens, sym, off, data =>
    if len ≤ maxLen ∧ off len < cap then
      sortLoop cap maxLen lens (sym + 1) (Function.update off len (off len + 1)) (Function.update data (off len) sym)
    else none

/-- The symbols in use in the order of their codewords, `deflatedecoder.cpp:303-310`.  The symbols that are not in use come
first and are skipped; `garbage` is the content of the array in the beginning. -/
def sortedSyms (lens : List Nat) (maxLen : Nat) (garbage : Nat → Nat) : Option (List Nat) :=
  match sortLoop 288 maxLen lens 0 (offsetOf (lenCount lens)) garbage with
  | none => none
  | some (off, data) => some ((List.range (lens.length - off 0)).map fun i => data (off 0 + i))

/-- The next codeword of the same length, bit-reversed, `deflatedecoder.cpp:419-421` and `:482-484`. -/
def nextCodeword (codeword mask : Nat) : Nat :=
  let bit := 2 ^ topBit (codeword ^^^ mask)
  (codeword &&& (bit - 1)) ||| bit

/-- `deflatedecoder.cpp:389-391`: the first length in use.  `len_counts` has 16 elements. -/
def firstLen (cnt : Nat → Nat) : Nat → Nat → Option Nat
  | 0, _ => none
  | fuel + 1, len => if 15 < len then none else if cnt len = 0 then firstLen cnt fuel (len + 1) else some len

/-- `deflatedecoder.cpp:405-408`: the table grows to its final size. -/
def growAll (cap : Nat) : Nat → Nat → Tab → Option Tab
  | 0, _, t => some t
  | n + 1, cur, t =>
    match t.double cap cur with
    | none => none
    | some t => growAll cap n (cur * 2) t

/-- `deflatedecoder.cpp:425-430`: the next length in use; the table is doubled for every length up to `table_bits`. -/
def nextLen (cap : Nat) (cnt : Nat → Nat) (tableBits : Nat) : Nat → Nat → Nat → Tab → Option (Nat × Nat × Tab)
  | 0, _, _, _ => none
  | fuel + 1, len, cur, t =>
    match (if len + 1 ≤ tableBits then (t.double cap cur).map (fun t => (cur * 2, t)) else some (cur, t)) with
    | none => none
    | some (cur, t) =>
      if 15 < len + 1 then none
      else if cnt (len + 1) = 0 then nextLen cap cnt tableBits fuel (len + 1) cur t
      else some (len + 1, cur, t)

/-- `deflatedecoder.cpp:451-458`: the bits of a subtable. -/
def subBits (cnt : Nat → Nat) (tableBits : Nat) : Nat → Nat → Nat → Option Nat
  | 0, _, _ => none
  | fuel + 1, bits, used =>
    if used < 2 ^ bits then
      if 15 < tableBits + (bits + 1) then none
      else subBits cnt tableBits fuel (bits + 1) (used * 2 + cnt (tableBits + (bits + 1)))
    else some bits

/-- `deflatedecoder.cpp:470-473`: all entries of a codeword in a subtable. -/
def fillStride (cap stride stop : Nat) (e : Entry) : Nat → Nat → Tab → Option Tab
  | 0, _, _ => none
  | fuel + 1, i, t =>
    match t.write cap i e with
    | none => none
    | some t => if i + stride < stop then fillStride cap stride stop e fuel (i + stride) t else some t

/-- `deflatedecoder.cpp:487-489`. -/
def advanceLen (cnt : Nat → Nat) : Nat → Nat → Nat → Option (Nat × Nat)
  | 0, _, _ => none
  | fuel + 1, len, count =>
    if count = 0 then if 15 < len + 1 then none else advanceLen cnt fuel (len + 1) (cnt (len + 1)) else some (len, count)

/-- The current subtable, `deflatedecoder.cpp:433-437`; `stop` is `cur_table_end`. -/
structure Sub where
  pfx : Option Nat
  start : Nat
  stop : Nat
deriving DecidableEq, Repr

/-- `deflatedecoder.cpp:440-463`: a new subtable where the prefix changes.  `subtable_prefix` is `0xFFFFFFFF` in the
beginning, which no prefix equals: that is `none` here. -/
def startSub (cap : Nat) (cnt : Nat → Nat) (tableBits len count codeword : Nat) (s : Sub) (t : Tab) : Option (Sub × Tab) :=
  let p := codeword % 2 ^ tableBits
  if some p ≠ s.pfx then
    match subBits cnt tableBits 16 (len - tableBits) count with
    | none => none
    | some bits =>
      match t.write cap p (makeSubLink s.stop tableBits (tableBits + bits)) with
      | none => none
      | some t => some (⟨some p, s.stop, s.stop + 2 ^ bits⟩, t)
  else some (s, t)

/-- The loop over the codewords longer than the main table, `deflatedecoder.cpp:439-490`. -/
def longLoop (cap : Nat) (cnt : Nat → Nat) (results : List Entry) (tableBits : Nat) :
    List Nat → Nat → Nat → Nat → Sub → Tab → Option Tab
  | [], _, _, _, _, _ => none
  | sym :: syms, len, count, codeword, s, t =>
    match startSub cap cnt tableBits len count codeword s t, results[sym]? with
    | some (s, t), some e =>
      match fillStride cap (2 ^ (len - tableBits)) s.stop (makeSub e len) (s.stop - s.start)
          (s.start + codeword / 2 ^ tableBits) t with
      | none => none
      | some t =>
        if codeword = 2 ^ len - 1 then some t
        else
          match advanceLen cnt 16 len (count - 1) with
          | none => none
          | some (len', count') => longLoop cap cnt results tableBits syms len' count' (nextCodeword codeword (2 ^ len - 1)) s t
    | _, _ => none

/-- The loop over the codewords of the main table, `deflatedecoder.cpp:396-431`, and its continuation.  `cur` is
`cur_table_end`. -/
def shortLoop (cap : Nat) (cnt : Nat → Nat) (results : List Entry) (tableBits : Nat) :
    List Nat → Nat → Nat → Nat → Nat → Tab → Option Tab
  | [], _, _, _, _, _ => none
  | sym :: syms, len, count, codeword, cur, t =>
    if len ≤ tableBits then
      match results[sym]? with
      | none => none
      | some e =>
        match t.write cap codeword (makeTop e len) with
        | none => none
        | some t =>
          if codeword = cur - 1 then growAll cap (tableBits - len) cur t
          else if count - 1 ≠ 0 then
            shortLoop cap cnt results tableBits syms len (count - 1) (nextCodeword codeword (cur - 1)) cur t
          else
            match nextLen cap cnt tableBits 16 len cur t with
            | none => none
            | some (len', cur', t) =>
              shortLoop cap cnt results tableBits syms len' (cnt len') (nextCodeword codeword (cur - 1)) cur' t
    else longLoop cap cnt results tableBits (sym :: syms) len count codeword ⟨none, 0, 2 ^ tableBits⟩ t

/-- `deflatedecoder.cpp:360-363`: the table of an incomplete code, `n` pairs of entries. -/
def fillPairs (cap : Nat) (e0 e1 : Entry) : Nat → Nat → Tab → Option Tab
  | 0, _, t => some t
  | n + 1, i, t =>
    match t.write cap i e0 with
    | none => none
    | some t =>
      match t.write cap (i + 1) e1 with
      | none => none
      | some t => fillPairs cap e0 e1 n (i + 2) t

/-- `invalid_entry`, `deflatedecoder.cpp:336`. -/
def invalidEntry : Entry := makeTop (kEob ||| kEobInvalid) 1

/-- `build_decode_table`, `deflatedecoder.cpp:249-500`.  The outer `none` is an access outside of an array, the inner one is
the returned `DecodeTableInfo{}` for lengths that do not form a code.  The lengths may share the memory of the table (they do
for literals and lengths): they are read before the table is written. -/
def buildDecodeTable (cap : Nat) (table : Tab) (garbage : Nat → Nat) (lens : List Nat) (results : List Entry)
    (maxTableBits maxCodewordLen : Nat) (type : TableType) : Option (Option (Info × Tab)) :=
  if lens.any (15 < ·) then none
  else
    let cnt := lenCount lens
    let maxLen := usedMaxLen lens maxCodewordLen
    let tableBits := tableBitsOf maxTableBits maxLen
    let used := codespace cnt maxLen 1 0
    let info : Info := ⟨tableBits, maxLen, literalMask lens⟩
    match sortedSyms lens maxLen garbage with
    | none => none
    | some syms =>
      if used > 2 ^ maxLen then some none
      else if used < 2 ^ maxLen then
        if used = 0 then
          if type ≠ .offset then some none
          else (fillPairs cap invalidEntry invalidEntry (2 ^ tableBits / 2) 0 table).map fun t => some (info, t)
        else if type = .precode then some none
        else if used ≠ 2 ^ (maxLen - 1) ∨ cnt 1 ≠ 1 then some none
        else
          match syms[0]?.bind (results[·]?) with
          | none => none
          | some e =>
            (fillPairs cap (makeTop e 1) invalidEntry (2 ^ tableBits / 2) 0 table).map fun t => some (info, t)
      else
        match firstLen cnt 16 1 with
        | none => none
        | some len => (shortLoop cap cnt results tableBits syms len (cnt len) 0 (2 ^ len) table).map fun t => some (info, t)

end Blend2D.Deflate
