import Verif.Deflate.Table

/-!
# Decode results and table lookups
-/

namespace Blend2D.Deflate

/-- `kPrecodeDecodeResults`, `deflatedecoder.cpp:77-91`. -/
def precodeResults : List Entry :=
  let entry (value rep extra : Nat) : Entry :=
    (UInt32.ofNat value <<< (8 : UInt32)) ||| (UInt32.ofNat rep <<< (16 : UInt32)) ||| UInt32.ofNat extra
  (List.range 16).map (fun v => entry v 1 0) ++ [entry 16 3 2, entry 17 3 3, entry 18 11 7]

/-- `kLitLenDecodeResults`, `deflatedecoder.cpp:94-157`. -/
def litLenResults : List Entry :=
  let entry (base extra : Nat) : Entry := (UInt32.ofNat base <<< (8 : UInt32)) ||| UInt32.ofNat extra ||| kOffOrLen
  (List.range 256).map (fun v => (UInt32.ofNat v <<< (8 : UInt32)) ||| (64 : UInt32) ||| kLiteral) ++ [kEob] ++
  [entry 3 0, entry 4 0, entry 5 0, entry 6 0, entry 7 0, entry 8 0, entry 9 0, entry 10 0,
   entry 11 1, entry 13 1, entry 15 1, entry 17 1, entry 19 2, entry 23 2, entry 27 2, entry 31 2,
   entry 35 3, entry 43 3, entry 51 3, entry 59 3, entry 67 4, entry 83 4, entry 99 4, entry 115 4,
   entry 131 5, entry 163 5, entry 195 5, entry 227 5, entry 258 0] ++
  [kEob ||| kEobInvalid, kEob ||| kEobInvalid]

/-- `kOffsetDecodeResults`, `deflatedecoder.cpp:159-180`. -/
def offsetResults : List Entry :=
  let entry (base extra : Nat) : Entry := (UInt32.ofNat base <<< (8 : UInt32)) ||| UInt32.ofNat extra ||| kOffOrLen
  [entry 1 0, entry 2 0, entry 3 0, entry 4 0, entry 5 1, entry 7 1, entry 9 2, entry 13 2,
   entry 17 3, entry 25 3, entry 33 4, entry 49 4, entry 65 5, entry 97 5, entry 129 6, entry 193 6,
   entry 257 7, entry 385 7, entry 513 8, entry 769 8, entry 1025 9, entry 1537 9, entry 2049 10, entry 3073 10,
   entry 4097 11, entry 6145 11, entry 8193 12, entry 12289 12, entry 16385 13, entry 24577 13] ++
  [kEob ||| kEobInvalid, kEob ||| kEobInvalid]

/-- A read of a table with `cap` entries. -/
def Tab.read (cap : Nat) (t : Tab) (i : Nat) : Option Entry := if i < cap then some (t i) else none

/-- `extract_extra`, `deflatedecoderutils_p.h:45` and `:67`: the mask is made of the 6 low bits of the entry, see
`extract_entry`. -/
def extractExtra (bits : Nat) (e : Entry) : Nat := bits % 2 ^ (e &&& 63).toNat / 2 ^ baseLength e

/-- The lookup of a literal or length, `deflatedecoder.cpp:1179-1250`: an entry that is neither a literal nor a length is
followed as if it was a link to a subtable.  The second component is the number of bits that are consumed with the entry:
`base_len` for a literal of the main table (`:1195`), `full_len` otherwise (`:1226`, `:1236` and `:1249`). -/
def lookupLitLen (cap : Nat) (t : Tab) (tableBits bits : Nat) : Option (Entry × Nat) :=
  match t.read cap (bits % 2 ^ tableBits) with
  | none => none
  | some e =>
    if isLiteral e then some (e, baseLength e)
    else if isOffOrLen e then some (e, fullLength e)
    else (t.read cap (payloadField e + bits % 2 ^ fullLength e / 2 ^ baseLength e)).map fun e => (e, fullLength e)

/-- The lookup of an offset, `deflatedecoder.cpp:1275-1289` (and `:1127-1138`). -/
def lookupOffset (cap : Nat) (t : Tab) (tableBits bits : Nat) : Option (Entry × Nat) :=
  match t.read cap (bits % 2 ^ tableBits) with
  | none => none
  | some e =>
    if isOffOrLen e then some (e, fullLength e)
    else (t.read cap (payloadField e + extractExtra bits e)).map fun e => (e, fullLength e)

/-- The lookup of an offset by the fast loop, `deflatedecoderfastimpl_p.h:141-146`. -/
def lookupOffsetFast (cap : Nat) (t : Tab) (tableBits bits : Nat) : Option Entry :=
  match t.read cap (bits % 2 ^ tableBits) with
  | none => none
  | some e => if isOffOrLen e then some e else t.read cap (rawPayload e + extractExtra bits e)

/-- `kDecoderPrecodeTableBits` … `kDecoderOffsetTableEntries`, `deflatedecoder_p.h`; `kMax…CodeWordLen`, `deflatedefs_p.h`. -/
def buildPrecode (t : Tab) (g : Nat → Nat) (lens : List Nat) := buildDecodeTable 128 t g lens precodeResults 7 7 .precode
@[inherit_doc buildPrecode] def buildLitLen (t : Tab) (g : Nat → Nat) (lens : List Nat) :=
  buildDecodeTable 2342 t g lens litLenResults 11 15 .litLen
@[inherit_doc buildPrecode] def buildOffset (t : Tab) (g : Nat → Nat) (lens : List Nat) :=
  buildDecodeTable 594 t g lens offsetResults 9 15 .offset

end Blend2D.Deflate
