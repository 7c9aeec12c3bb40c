/-!
# Specification of the checksums, independent of the model

Adler-32 as defined by RFC 1950 section 8.2: `s1` is the sum of all bytes plus one, `s2` the sum of
all the intermediate `s1` values, both modulo 65521.

CRC-32 as defined by RFC 1952 / ISO 3309: the message is processed bit by bit, least significant
bit first, in a shift register with the reflected polynomial `0xEDB88320`.
-/
namespace Blend2D.Checksum.Spec

/-- Sum of the bytes. -/
def byteSum (data : List UInt8) : Nat := (data.map UInt8.toNat).sum

/-- Continuation of Adler-32 from sums `a`, `b`: new first sum. -/
def adlerA (a : Nat) (data : List UInt8) : Nat := (a + byteSum data) % 65521

/-- New second sum: the sum over every non-empty prefix of (a + sum of that prefix). -/
def adlerB (a b : Nat) (data : List UInt8) : Nat :=
  (b + ((List.range data.length).map (fun i => a + byteSum (data.take (i + 1)))).sum) % 65521

/-- RFC 1950 Adler-32 of a byte string. -/
def adler32 (data : List UInt8) : Nat := adlerB 1 0 data * 65536 + adlerA 1 data

/-- One step of the CRC-32 shift register. -/
def crcShift (reg : BitVec 32) : BitVec 32 :=
  if reg.getLsbD 0 then (reg >>> 1) ^^^ 0xEDB88320#32 else reg >>> 1

/-- Feed one message bit. -/
def crcBit (reg : BitVec 32) (bit : Bool) : BitVec 32 :=
  crcShift (reg ^^^ (if bit then 1#32 else 0#32))

/-- The bits of a byte, least significant first. -/
def byteBits (b : UInt8) : List Bool := (List.range 8).map (fun i => b.toNat.testBit i)

/-- The bits of a message in transmission order. -/
def msgBits (data : List UInt8) : List Bool := data.flatMap byteBits

/-- CRC-32 of a byte string. -/
def crc32 (data : List UInt8) : BitVec 32 := ~~~ ((msgBits data).foldl crcBit 0xFFFFFFFF#32)

end Blend2D.Checksum.Spec
