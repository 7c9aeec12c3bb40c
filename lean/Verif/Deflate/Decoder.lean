import Verif.Deflate.Results

/-!
# The deflate decoder (`blend2d/compression/deflatedecoder.cpp:558-1613`) on 64-bit targets

One `step` is one iteration of the state loop, of the loop over code lengths, or of one of the two tail loops that decode
compressed data.  A step has no result (`none`) where the code would access memory outside an array, read past the input, write
past the capacity of the output, consume more bits than there are, or fail one of its assertions.

Simplifications:
* The fast loop (`deflatedecoderfastimpl_p.h`) is not modelled; a step that would enter it has the outcome `fast`.
* Arrays that share storage in the code (`deflatedecoder_p.h:303-325`, a union) are separate: none of them is read after another
  one that shares its storage has been written.  The arrays are arbitrary in the beginning.
* The statistics, `_processed_bytes` and `kDecompressHuffmanInterruptedMatch` (32-bit targets only) are left out.
* In the optimized tail loop the code subtracts whole entries from `bit_length`, of which only the 6 low bits count, and masks
  the length afterwards; here the 6 low bits are subtracted.
-/

namespace Blend2D.Deflate

/-- `DecoderBits`, `deflatedecoderutils_p.h:90-190`. -/
structure BitBuf where
  word : Nat
  len : Nat
deriving DecidableEq, Repr

/-- `refill_byte`, `deflatedecoderutils_p.h:126-131`. -/
def BitBuf.refillByte (b : BitBuf) (x : UInt8) : BitBuf := ⟨b.word ||| (x.toNat * 2 ^ b.len) % 2 ^ 64, b.len + 8⟩

/-- `refill_bit_word`, `deflatedecoderutils_p.h:138-144`: the second component is the number of bytes that were consumed. -/
def BitBuf.refillWord (b : BitBuf) (w : Nat) : BitBuf × Nat :=
  (⟨b.word ||| (w * 2 ^ (b.len % 64)) % 2 ^ 64, b.len ||| 56⟩, 7 - b.len / 8 % 8)

/-- `extract<offset>(n)`. -/
def BitBuf.extract (b : BitBuf) (offset n : Nat) : Nat := b.word / 2 ^ offset % 2 ^ n

/-- `consumed`: no result if there are not as many bits. -/
def BitBuf.consume (b : BitBuf) (n : Nat) : Option BitBuf := if n ≤ b.len then some ⟨b.word / 2 ^ n, b.len - n⟩ else none

/-- `while (src_ptr != src_end && bits.can_refill_byte()) bits.refill_byte(*src_ptr++)`, `deflatedecoder.cpp:614-616` and
`:1175-1177`. -/
def refillAll : BitBuf → List UInt8 → BitBuf × List UInt8
  | b, [] => (b, [])
  | b, x :: xs => if b.len < 56 then refillAll (b.refillByte x) xs else (b, x :: xs)

/-- `MemOps::loadu_le<uint64_t>`. -/
def load64 : Nat → List UInt8 → Option Nat
  | 0, _ => some 0
  | _ + 1, [] => none
  | n + 1, x :: xs => (load64 n xs).map fun v => x.toNat + 256 * v

/-- `DecoderState`, `deflatedecoder_p.h:29-45`. -/
inductive St where
  | huffmanBlock
  | copyStored
  | zlibHeader
  | blockHeader
  | storedHeader
  | staticHeader
  | dynamicHeader
  | precodeLens
  | codeLens
  | done
  | invalid
deriving DecidableEq, Repr

/-- Where in `decode` the next step begins. -/
inductive Pc where
  /-- The top of the state loop. -/
  | main
  /-- The loop over the lengths of the precode, with its index `i`. -/
  | precode (i : Nat)
  /-- The loop over code lengths, with its index `i`. -/
  | codes (i : Nat)
  /-- The optimized tail loop, with the entry that was looked up. -/
  | opt (e : Entry)
  /-- The safe tail loop. -/
  | safe

/-- The members of `Decoder` (`deflatedecoder_p.h:340-420`), the rest of the input chunk, the output array (its content and its
capacity), and the position in `decode`. -/
structure Cfg where
  st : St
  finalBlock : Bool
  staticActive : Bool
  bits : BitBuf
  copyRemaining : Nat
  litLenCount : Nat
  offsetCount : Nat
  workIndex : Nat
  workCount : Nat
  precodeLens : Nat → Nat
  lens : Nat → Nat
  preInfo : Info
  preTab : Tab
  litInfo : Info
  litTab : Tab
  offInfo : Info
  offTab : Tab
  /-- The content of the stack when `build_decode_table` is entered. -/
  garbage : Nat → Nat
  src : List UInt8
  out : List UInt8
  cap : Nat
  pc : Pc

/-- Outcome of a step. -/
inductive Step where
  | next (c : Cfg)
  /-- `NotEnoughOutputBytes`: the output has to grow. -/
  | output (c : Cfg)
  /-- The decoder returns. -/
  | success (c : Cfg)
  | truncated (c : Cfg)
  | invalid (c : Cfg)
  /-- The fast loop, which is not modelled. -/
  | fast (c : Cfg)

/-- `NotEnoughInputBytes`, `deflatedecoder.cpp:1578-1595`: asserts that the whole chunk was consumed. -/
def notEnoughInput (c : Cfg) : Option Step := if c.src = [] then some (.truncated c) else none

/-- `ErrorInvalidData`, `deflatedecoder.cpp:1598-1610`. -/
def errorInvalid (c : Cfg) : Option Step := some (.invalid { c with st := .invalid })

/-- `NotEnoughOutputBytes`, `deflatedecoder.cpp:1500-1552`: after the output has grown the state loop continues. -/
def notEnoughOutput (c : Cfg) : Option Step := some (.output { c with pc := .main })

/-- `BlockDone`, `deflatedecoder.cpp:1554-1574`. -/
def blockDone (c : Cfg) : Option Step :=
  if c.finalBlock then some (.success { c with st := .done, bits := ⟨0, 0⟩ })
  else some (.next { c with st := .blockHeader, pc := .main })

/-- `*dst_ptr++ = x`. -/
def push (cap : Nat) (out : List UInt8) (x : Nat) : Option (List UInt8) :=
  if out.length < cap then some (out ++ [UInt8.ofNat x]) else none

/-- The copy of a match byte by byte: `*dst_ptr++ = *match_ptr++`, where `match_ptr` stays `offset` bytes behind. -/
def copyLoop (offset : Nat) : Nat → List UInt8 → List UInt8
  | 0, out => out
  | n + 1, out => copyLoop offset n (out ++ [out.getD (out.length - offset) 0])

/-- `deflatedecoder.cpp:1146-1158` and `:1321-1331`: two bytes and then a loop that copies at least one. -/
def copyMatch (cap : Nat) (out : List UInt8) (offset length : Nat) : Option (List UInt8) :=
  if length < 3 ∨ offset = 0 ∨ out.length < offset ∨ cap < out.length + length then none
  else some (copyLoop offset length out)

/-- `memset(tables.lens + i, v, n)`; the array has `kNumLitLenSymbols + kNumOffsetSymbols + kMaxLensOverrun` elements. -/
def setLens (lens : Nat → Nat) (i n v : Nat) : Option (Nat → Nat) :=
  if i + n ≤ 457 then some (fun j => if i ≤ j ∧ j < i + n then v else lens j) else none

/-- `kPrecodeLensPermutation`, `deflatedecoder.cpp:71-73`. -/
def precodePermutation : List Nat := [16, 17, 18, 0, 8, 7, 9, 6, 10, 5, 11, 4, 12, 3, 13, 2, 14, 1, 15]

/-- `tables.precode_lens[kPrecodeLensPermutation[i]] = v`. -/
def setPrecode (lens : Nat → Nat) (i v : Nat) : Option (Nat → Nat) :=
  (precodePermutation[i]?).map fun p => Function.update lens p v

/-- `BuildHuffmanTables`, `deflatedecoder.cpp:967-1000`. -/
def buildTables (c : Cfg) : Option Step :=
  match buildOffset c.offTab c.garbage ((List.range c.offsetCount).map fun i => c.lens (c.litLenCount + i)) with
  | none => none
  | some none => errorInvalid c
  | some (some (info, t)) =>
    let c := { c with offInfo := info, offTab := t }
    match buildLitLen c.litTab c.garbage ((List.range c.litLenCount).map c.lens) with
    | none => none
    | some none => errorInvalid c
    | some (some (info, t)) => some (.next { c with litInfo := info, litTab := t, st := .huffmanBlock, pc := .main })

/-- The bytes that are taken from the bit buffer, `deflatedecoder.cpp:1461-1464`, and the word that is left. -/
def drain : Nat → Nat → List UInt8 × Nat
  | 0, w => ([], w)
  | n + 1, w => ((UInt8.ofNat (w % 256)) :: (drain n (w / 256)).1, (drain n (w / 256)).2)

/-- `CopyBytesState`, `deflatedecoder.cpp:1436-1490`. -/
def copyStored (c : Cfg) : Option Step :=
  if c.bits.len % 8 ≠ 0 ∨ c.copyRemaining = 0 then none
  else if c.cap - c.out.length < c.copyRemaining then notEnoughOutput c
  else
    let n := min c.copyRemaining (c.bits.len / 8)
    let d := drain n c.bits.word
    let c1 := { c with copyRemaining := c.copyRemaining - n, bits := ⟨d.2, c.bits.len - n * 8⟩, out := c.out ++ d.1 }
    if c1.copyRemaining = 0 then blockDone c1
    else
      let m := min c1.copyRemaining c1.src.length
      if m = 0 then notEnoughInput c1
      else
        let c2 := { c1 with out := c1.out ++ c1.src.take m, src := c1.src.drop m, copyRemaining := c1.copyRemaining - m, pc := .main }
        if c2.copyRemaining = 0 then blockDone c2 else some (.next c2)

/-- `tables.lens` of a static block, `deflatedecoder.cpp:755-775`. -/
def staticLens (old : Nat → Nat) (i : Nat) : Nat :=
  if i < 144 then 8 else if i < 256 then 9 else if i < 280 then 7 else if i < 288 then 8 else if i < 320 then 5 else old i

/-- The bit buffer is refilled byte by byte, `deflatedecoder.cpp:614-616` and `:1175-1177`. -/
def Cfg.refill (c : Cfg) : Cfg := { c with bits := (refillAll c.bits c.src).1, src := (refillAll c.bits c.src).2 }

/-- The state loop after the bit buffer has been refilled, `deflatedecoder.cpp:618-1070` and `:1436-1496`. -/
def mainBody (c : Cfg) : Option Step :=
  match c.st with
  | .done => notEnoughOutput c
  | .zlibHeader =>
    if c.bits.len < 16 then notEnoughInput c
    else
      let cmf := c.bits.extract 0 8
      let flg := c.bits.extract 8 8
      if (cmf * 256 + flg) % 31 ≠ 0 then errorInvalid c
      else if cmf % 16 ≠ 8 then errorInvalid c
      else if flg / 32 % 2 ≠ 0 then errorInvalid c
      else (c.bits.consume 16).map fun b => .next { c with bits := b, st := .blockHeader }
  | .blockHeader =>
    if c.bits.len < 3 then notEnoughInput c
    else
      let final := c.bits.extract 0 1
      let ty := c.bits.extract 1 2
      if ty = 3 then errorInvalid c
      else
        match c.bits.consume 3 with
        | none => none
        | some b =>
          let c := { c with bits := b, finalBlock := c.finalBlock || final == 1 }
          if ty = 0 then (b.consume (b.len % 8)).map fun b => .next { c with bits := b, st := .storedHeader }
          else if ty = 1 then some (.next { c with st := .staticHeader })
          else some (.next { c with st := .dynamicHeader })
  | .storedHeader =>
    if c.bits.len % 8 ≠ 0 then none
    else if c.bits.len < 32 then notEnoughInput c
    else
      let len := c.bits.extract 0 16
      let check := c.bits.extract 16 16 ^^^ 0xFFFF
      if len ≠ check then errorInvalid c
      else
        match c.bits.consume 32 with
        | none => none
        | some b =>
          let c := { c with bits := b, copyRemaining := len }
          if len = 0 then blockDone c else copyStored { c with st := .copyStored }
  | .staticHeader =>
    if c.staticActive then some (.next { c with st := .huffmanBlock })
    else buildTables { c with staticActive := true, litLenCount := 288, offsetCount := 32, lens := staticLens c.lens }
  | .dynamicHeader =>
    if c.bits.len < 26 then notEnoughInput c
    else
      match setPrecode (fun i => if i < 19 then 0 else c.precodeLens i) 0 (c.bits.extract 14 3) with
      | none => none
      | some l0 =>
        match setPrecode l0 1 (c.bits.extract 17 3) with
        | none => none
        | some l1 =>
          match setPrecode l1 2 (c.bits.extract 20 3) with
          | none => none
          | some l2 =>
            match setPrecode l2 3 (c.bits.extract 23 3) with
            | none => none
            | some l3 =>
              (c.bits.consume 26).map fun b => .next { c with
                litLenCount := c.bits.extract 0 5 + 257, offsetCount := c.bits.extract 5 5 + 1, staticActive := false,
                workIndex := 4, workCount := c.bits.extract 10 4 + 4, precodeLens := l3, bits := b, st := .precodeLens }
  | .precodeLens => some (.next { c with pc := .precode c.workIndex })
  | .codeLens => some (.next { c with pc := .codes c.workIndex })
  | .huffmanBlock =>
    let c := { c with copyRemaining := 0 }
    if 176 ≤ c.src.length ∧ 450 ≤ c.cap - c.out.length then some (.fast c)
    else if 8 ≤ c.src.length ∧ 3 ≤ c.cap - c.out.length then
      match load64 8 c.src with
      | none => none
      | some w =>
        let r := c.bits.refillWord w
        (c.litTab.read 2342 (r.1.word % 2 ^ c.litInfo.tableBits)).map fun e =>
          .next { c with bits := r.1, src := c.src.drop r.2, pc := .opt e }
    else some (.next { c with pc := .safe })
  | .copyStored => copyStored c
  | .invalid => some (.invalid c)

/-- The top of the state loop, `deflatedecoder.cpp:607-616`. -/
def mainStep (c : Cfg) : Option Step := mainBody c.refill

/-- The last lengths of the precode, `deflatedecoder.cpp:858-868`. -/
def precodeRest : Nat → Nat → BitBuf → (Nat → Nat) → Option (BitBuf × (Nat → Nat))
  | 0, _, b, lens => some (b, lens)
  | n + 1, i, b, lens =>
    match b.consume 3, setPrecode lens i (b.extract 0 3) with
    | some b', some lens' => precodeRest n (i + 1) b' lens'
    | _, _ => none

/-- `kDynamicHuffmanPreCodeLens`, `deflatedecoder.cpp:816-890`: an iteration of the main loop, or what follows it.  The test
before the loop (`:824-826`) has the same effect as the one after it. -/
def precodeStep (c : Cfg) (i : Nat) : Option Step :=
  if i + 3 ≤ c.workCount ∧ 9 ≤ c.bits.len then
    match setPrecode c.precodeLens i (c.bits.extract 0 3) with
    | none => none
    | some l0 =>
      match setPrecode l0 (i + 1) (c.bits.extract 3 3) with
      | none => none
      | some l1 =>
        match setPrecode l1 (i + 2) (c.bits.extract 6 3) with
        | none => none
        | some l2 =>
          match c.bits.consume 9 with
          | none => none
          | some b =>
            match c.src with
            | [] => some (.next { c with precodeLens := l2, bits := b, pc := .precode (i + 3) })
            | x :: xs =>
              if b.len < 56 then
                some (.next { c with precodeLens := l2, bits := b.refillByte x, src := xs, pc := .precode (i + 3) })
              else none
  else if c.bits.len < (c.workCount - i) * 3 then notEnoughInput { c with workIndex := i }
  else
    match precodeRest (c.workCount - i) i c.bits c.precodeLens with
    | none => none
    | some (b, lens) =>
      let c := { c with bits := b, precodeLens := lens, workIndex := 0 }
      match buildPrecode c.preTab c.garbage ((List.range 19).map c.precodeLens) with
      | none => none
      | some none => errorInvalid c
      | some (some (info, t)) => some (.next { c with preInfo := info, preTab := t, st := .codeLens, pc := .main })

/-- The end of an iteration, `deflatedecoder.cpp:958-964`: another one, or the tables are built. -/
def codesNext (c : Cfg) (i : Nat) : Option Step :=
  if i < c.litLenCount + c.offsetCount then some (.next { c with pc := .codes i })
  else if i ≠ c.litLenCount + c.offsetCount then errorInvalid c
  else buildTables c

/-- An iteration of the loop over code lengths, `deflatedecoder.cpp:904-964`. -/
def codesBody (c : Cfg) (i : Nat) : Option Step :=
  match c.preTab.read 128 (c.bits.word % 2 ^ c.preInfo.tableBits) with
  | none => none
  | some e =>
    let presym := precodeValue e
    let len := fullLength e
    if c.bits.len < len then
      if c.src = [] then notEnoughInput { c with workIndex := i } else codesNext c i
    else
      match c.bits.consume len with
      | none => none
      | some b =>
        if presym < 16 then
          (setLens c.lens i 1 presym).bind fun lens => codesNext { c with lens := lens, bits := b } (i + 1)
        else
          let n := c.bits.extract 0 len / 2 ^ baseLength e + precodeRepeat e
          if presym = 16 then
            if i = 0 then errorInvalid c
            else (setLens c.lens i 6 (c.lens (i - 1))).bind fun lens => codesNext { c with lens := lens, bits := b } (i + n)
          else if presym = 17 then
            (setLens c.lens i 10 0).bind fun lens => codesNext { c with lens := lens, bits := b } (i + n)
          else
            (setLens c.lens i n 0).bind fun lens => codesNext { c with lens := lens, bits := b } (i + n)

/-- The bit buffer is refilled with one byte, `deflatedecoder.cpp:900-902`. -/
def Cfg.refillOne (c : Cfg) : Cfg :=
  match c.src with
  | x :: xs => if c.bits.len < 56 then { c with bits := c.bits.refillByte x, src := xs } else c
  | [] => c

@[inherit_doc codesBody] def codesStep (c : Cfg) (i : Nat) : Option Step := codesBody c.refillOne i

/-- `src_ptr += bits.refill_bit_word(refill_data)` at the end of an iteration of the optimized tail loop. -/
def optNext (c : Cfg) (w : Nat) (b : BitBuf) (out : List UInt8) (e : Entry) : Option Step :=
  some (.next { c with bits := (b.refillWord w).1, src := c.src.drop (b.refillWord w).2, out := out, pc := .opt e })

/-- A lookup in the literal/length table with the next bits. -/
def litRead (c : Cfg) (b : BitBuf) : Option Entry := c.litTab.read 2342 (b.word % 2 ^ c.litInfo.tableBits)

/-- A match in the optimized tail loop, `deflatedecoder.cpp:1119-1158`. -/
def optMatch (c : Cfg) (w : Nat) (b : BitBuf) (length : Nat) : Option Step :=
  if c.cap - c.out.length < length then notEnoughOutput { c with copyRemaining := length }
  else
    match c.offTab.read 594 (b.word % 2 ^ c.offInfo.tableBits) with
    | none => none
    | some e =>
      let offset := payloadField e + extractExtra b.word e
      let finish (e : Entry) (offset : Nat) : Option Step :=
        if c.out.length < offset then errorInvalid c
        else
          match b.consume (e &&& 63).toNat with
          | none => none
          | some b =>
            match copyMatch c.cap c.out offset length, litRead c (b.refillWord w).1 with
            | some out, some e => optNext c w b out e
            | _, _ => none
      if isOffOrLen e then finish e offset
      else
        match c.offTab.read 594 offset with
        | none => none
        | some e => if isEob e then errorInvalid c else finish e (payloadField e + extractExtra b.word e)

/-- An iteration of the optimized tail loop, `deflatedecoder.cpp:1052-1162`. -/
def optStep (c : Cfg) (e : Entry) : Option Step :=
  if c.out.length + 2 < c.cap ∧ 8 ≤ c.src.length then
    match load64 8 c.src with
    | none => none
    | some w =>
      if isLiteral e then
        match c.bits.consume (baseLength e) with
        | none => none
        | some b1 =>
          match litRead c b1, push c.cap c.out (payloadField e % 256) with
          | some e1, some out1 =>
            if isLiteral e1 then
              match b1.consume (baseLength e1) with
              | none => none
              | some b2 =>
                match litRead c b2, push c.cap out1 (payloadField e1 % 256) with
                | some e2, some out2 =>
                  if isLiteral e2 then
                    match b2.consume (baseLength e2) with
                    | none => none
                    | some b3 =>
                      match litRead c b3, push c.cap out2 (payloadField e2 % 256) with
                      | some e3, some out3 => optNext c w b3 out3 e3
                      | _, _ => none
                  else optNext c w b2 out2 e2
                | _, _ => none
            else optNext c w b1 out1 e1
          | _, _ => none
      else
        let length := payloadField e + extractExtra c.bits.word e
        if isOffOrLen e then
          match c.bits.consume (e &&& 63).toNat with
          | none => none
          | some b => optMatch c w b length
        else
          match c.litTab.read 2342 length with
          | none => none
          | some e =>
            match c.bits.consume (e &&& 63).toNat with
            | none => none
            | some b =>
              if isLiteral e then
                match push c.cap c.out (payloadField e % 256), litRead c b with
                | some out, some e => optNext c w b out e
                | _, _ => none
              else if isEob e then
                if isEobInvalid e then errorInvalid { c with bits := b } else blockDone { c with bits := b }
              else optMatch c w b (payloadField e + extractExtra c.bits.word e)
  else some (.next { c with pc := .safe })

/-- A match in the safe tail loop, `deflatedecoder.cpp:1247-1331`. -/
def safeMatch (c : Cfg) (fullLen length : Nat) : Option Step :=
  if c.bits.len < fullLen then notEnoughInput c
  else
    match c.bits.consume fullLen with
    | none => none
    | some b =>
      if c.cap - c.out.length < length then notEnoughOutput { c with copyRemaining := length }
      else
        match c.offTab.read 594 (b.word % 2 ^ c.offInfo.tableBits) with
        | none => none
        | some e =>
          let offset := payloadField e + extractExtra b.word e
          let finish (e : Entry) (offset : Nat) : Option Step :=
            if b.len < fullLength e then notEnoughInput { c with copyRemaining := length }
            else
              match b.consume (fullLength e) with
              | none => none
              | some b =>
                if c.out.length < offset then errorInvalid { c with bits := b }
                else (copyMatch c.cap c.out offset length).map fun out => .next { c with bits := b, out := out }
          if isOffOrLen e then finish e offset
          else
            match c.offTab.read 594 offset with
            | none => none
            | some e => if isEob e then errorInvalid { c with bits := b } else finish e (payloadField e + extractExtra b.word e)

/-- An iteration of the safe tail loop, `deflatedecoder.cpp:1179-1333`. -/
def safeBody (c : Cfg) : Option Step :=
  match litRead c c.bits with
  | none => none
  | some e =>
    if isLiteral e then
      if c.out.length = c.cap then notEnoughOutput c
      else if c.bits.len < baseLength e then notEnoughInput c
      else
        match c.bits.consume (baseLength e), push c.cap c.out (payloadField e % 256) with
        | some b, some out => some (.next { c with bits := b, out := out })
        | _, _ => none
    else
      let fullLen := fullLength e
      let length := payloadField e + c.bits.extract 0 fullLen / 2 ^ baseLength e
      if isOffOrLen e then safeMatch c fullLen length
      else
        match c.litTab.read 2342 length with
        | none => none
        | some e =>
          if c.bits.len < fullLength e then notEnoughInput c
          else if isLiteral e then
            if c.out.length = c.cap then notEnoughOutput c
            else
              match c.bits.consume (fullLength e), push c.cap c.out (payloadField e % 256) with
              | some b, some out => some (.next { c with bits := b, out := out })
              | _, _ => none
          else if isEob e then
            match c.bits.consume (fullLength e) with
            | none => none
            | some b => if isEobInvalid e then errorInvalid { c with bits := b } else blockDone { c with bits := b }
          else safeMatch c (fullLength e) (payloadField e + extractExtra c.bits.word e)

@[inherit_doc safeBody] def safeStep (c : Cfg) : Option Step := safeBody c.refill

/-- One step of `decode`. -/
def step (c : Cfg) : Option Step :=
  match c.pc with
  | .main => mainStep c
  | .precode i => precodeStep c i
  | .codes i => codesStep c i
  | .opt e => optStep c e
  | .safe => safeStep c

/-- How `decode` ends; `fast` stands for entering the fast loop, and `running` for not having ended after the given number of
steps. -/
inductive Ret where
  | success
  | truncated
  | invalid
  | outOfMemory
  | fast
  | running
deriving DecidableEq, Repr

/-- `decode`, at most `n` steps of it.  `grow` gives the capacity after `dst.reserve`, or fails (also because of
`kNeverReallocOutputBuffer`). -/
def run (grow : Cfg → Option Nat) : Nat → Cfg → Option (Ret × Cfg)
  | 0, c => some (.running, c)
  | n + 1, c =>
    match step c with
    | none => none
    | some (.next c) => run grow n c
    | some (.output c) =>
      match grow c with
      | none => some (.outOfMemory, c)
      | some cap => run grow n { c with cap := cap }
    | some (.success c) => some (.success, c)
    | some (.truncated c) => some (.truncated, c)
    | some (.invalid c) => some (.invalid, c)
    | some (.fast c) => some (.fast, c)

/-- The least capacity that is reserved, `deflatedecoder.cpp:1524-1538`; the estimate based on the ratio of the sizes so far can
only make it larger. -/
def required (c : Cfg) : Nat :=
  c.out.length +
    if c.st = .copyStored ∧ c.finalBlock = true ∧ c.copyRemaining ≠ 0 then c.copyRemaining
    else max (max c.out.length 4096 + 4096) c.copyRemaining

/-- `init`, `deflatedecoder.cpp:558-585`.  The tables are not initialized. -/
def init (zlib : Bool) (d : Cfg) : Cfg :=
  { d with st := if zlib then .zlibHeader else .blockHeader, finalBlock := false, staticActive := false, bits := ⟨0, 0⟩,
           copyRemaining := 0, litLenCount := 0, offsetCount := 0, workIndex := 0, workCount := 0 }

/-- `decode` of a chunk of input. -/
def decode (grow : Cfg → Option Nat) (n : Nat) (c : Cfg) (chunk : List UInt8) : Option (Ret × Cfg) :=
  run grow n { c with src := chunk, pc := .main }

/-- `decode` of one chunk after another, for as long as it returns `BL_ERROR_DATA_TRUNCATED`. -/
def decodeAll (grow : Cfg → Option Nat) (n : Nat) : Cfg → List (List UInt8) → Option (Ret × Cfg)
  | c, [] => some (.truncated, c)
  | c, x :: xs =>
    match decode grow n c x with
    | some (.truncated, c) => decodeAll grow n c xs
    | r => r

end Blend2D.Deflate
