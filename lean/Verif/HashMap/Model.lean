/-!
# Intrusive hash map (`support/arenahashmap.cpp`, `support/arenahashmap_p.h`)

Used by the font manager (family name to faces) and by the JIT runtime.

Simplifications:
* a node is a value of an arbitrary type with a hash code; two nodes are the same node
  iff they are equal (in C++: the same address);
* chains of nodes (`_hash_next`) are lists, the bucket array is a list of chains;
* `_size` does not wrap (it counts objects in memory);
* whether the arena can allocate a new bucket array is an input of the operation.
An access outside of the bucket array is `none`.
-/

namespace Blend2D.HashMap

/-- `BLEND2D_POPULATE_PRIMES`, `arenahashmap.cpp:15-143`: prime, reciprocal, shift. -/
def primes : List (UInt32 × UInt32 × Nat) :=
  [(2, 0x80000000, 32),
   (11, 0xBA2E8BA3, 35),
   (29, 0x8D3DCB09, 36),
   (41, 0xC7CE0C7D, 37),
   (59, 0x8AD8F2FC, 37),
   (83, 0xC565C87C, 38),
   (131, 0xFA232CF3, 39),
   (191, 0xAB8F69E3, 39),
   (269, 0xF3A0D52D, 40),
   (383, 0xAB1CBDD4, 40),
   (541, 0xF246FACC, 41),
   (757, 0xAD2589A4, 41),
   (1061, 0xF7129426, 42),
   (1499, 0xAEE116B7, 42),
   (2099, 0xF9C7A737, 43),
   (2939, 0xB263D25C, 43),
   (4111, 0xFF10E02E, 44),
   (5779, 0xB5722823, 44),
   (8087, 0x81A97405, 44),
   (11321, 0xB93E91DB, 45),
   (15859, 0x843CC26B, 45),
   (22189, 0xBD06B9EA, 46),
   (31051, 0x8713F186, 46),
   (43451, 0xC10F1CB9, 47),
   (60869, 0x89D06A86, 47),
   (85159, 0xC502AF3B, 48),
   (102107, 0xA44F65AE, 48),
   (122449, 0x89038F77, 48),
   (146819, 0xE48AF7E9, 49),
   (176041, 0xBE9B145B, 49),
   (211073, 0x9EF882BA, 49),
   (253081, 0x849571AB, 49),
   (303469, 0xDD239C97, 50),
   (363887, 0xB86C196D, 50),
   (436307, 0x99CFA4E9, 50),
   (523177, 0x804595C0, 50),
   (627293, 0xD5F69FCF, 51),
   (752177, 0xB27063BA, 51),
   (901891, 0x94D170AC, 51),
   (1081369, 0xF83C9767, 52),
   (1296563, 0xCF09435D, 52),
   (1554583, 0xACAC7198, 52),
   (1863971, 0x90033EE3, 52),
   (2234923, 0xF0380EBD, 53),
   (2679673, 0xC859731E, 53),
   (3212927, 0xA718DE27, 53),
   (3852301, 0x8B5D1B4B, 53),
   (4618921, 0xE8774804, 54),
   (5076199, 0xD386574E, 54),
   (5578757, 0xC0783FE1, 54),
   (6131057, 0xAF21B08F, 54),
   (6738031, 0x9F5AFD6E, 54),
   (7405163, 0x90FFC3B9, 54),
   (8138279, 0x83EFECFC, 54),
   (8943971, 0xF01AA2EF, 55),
   (9829447, 0xDA7979B2, 55),
   (10802581, 0xC6CB2771, 55),
   (11872037, 0xB4E2C7DD, 55),
   (13047407, 0xA4974124, 55),
   (14339107, 0x95C39CF1, 55),
   (15758737, 0x8845C763, 55),
   (17318867, 0xF7FE593F, 56),
   (19033439, 0xE1A75D93, 56),
   (20917763, 0xCD5389B3, 56),
   (22988621, 0xBAD4841A, 56),
   (25264543, 0xA9FFF2FF, 56),
   (27765763, 0x9AAF8BF3, 56),
   (30514607, 0x8CC04E18, 56),
   (33535561, 0x80127068, 56),
   (36855587, 0xE911F0BB, 57),
   (38661533, 0xDE2ED7BE, 57),
   (40555961, 0xD3CDF2FD, 57),
   (42543269, 0xC9E9196C, 57),
   (44627909, 0xC07A9EB6, 57),
   (46814687, 0xB77CEF65, 57),
   (49108607, 0xAEEAC65C, 57),
   (51514987, 0xA6BF0EF0, 57),
   (54039263, 0x9EF510B5, 57),
   (56687207, 0x97883B42, 57),
   (59464897, 0x907430ED, 57),
   (62378699, 0x89B4CA91, 57),
   (65435273, 0x83461568, 57),
   (68641607, 0xFA489AA8, 58),
   (72005051, 0xEE97B1C5, 58),
   (75533323, 0xE3729293, 58),
   (79234469, 0xD8D2BBA3, 58),
   (83116967, 0xCEB1F196, 58),
   (87189709, 0xC50A4426, 58),
   (91462061, 0xBBD6052B, 58),
   (95943737, 0xB30FD999, 58),
   (100644991, 0xAAB29CED, 58),
   (105576619, 0xA2B96421, 58),
   (110749901, 0x9B1F8434, 58),
   (116176651, 0x93E08B4A, 58),
   (121869317, 0x8CF837E0, 58),
   (127840913, 0x86627F01, 58),
   (134105159, 0x801B8178, 58),
   (140676353, 0xF43F294F, 59),
   (147569509, 0xE8D67089, 59),
   (154800449, 0xDDF6243C, 59),
   (162385709, 0xD397E6AE, 59),
   (170342629, 0xC9B5A65A, 59),
   (178689419, 0xC0499865, 59),
   (187445201, 0xB74E35FA, 59),
   (196630033, 0xAEBE3AC1, 59),
   (206264921, 0xA694A37F, 59),
   (216371963, 0x9ECCA59F, 59),
   (226974197, 0x9761B6AE, 59),
   (238095983, 0x904F79A1, 59),
   (249762697, 0x8991CD1F, 59),
   (262001071, 0x8324BCA5, 59),
   (274839137, 0xFA090732, 60),
   (288306269, 0xEE5B16ED, 60),
   (302433337, 0xE338CE49, 60),
   (317252587, 0xD89BABC0, 60),
   (374358107, 0xB790EF43, 60),
   (441742621, 0x9B908414, 60),
   (521256293, 0x83D596FA, 60),
   (615082441, 0xDF72B16E, 61),
   (725797313, 0xBD5CDB3B, 61),
   (856440829, 0xA07A14E9, 61),
   (1010600209, 0x87FF5289, 61),
   (1192508257, 0xE6810540, 62),
   (1407159797, 0xC357A480, 62),
   (1660448617, 0xA58B5B4F, 62),
   (1959329399, 0x8C4AB55F, 62),
   (2312008693, 0xEDC86320, 63),
   (2728170257, 0xC982C4D2, 63),
   (3219240923, 0xAAC599B6, 63)]

/-- `ArenaHashMapBase`, `arenahashmap_p.h:46-83`. -/
structure Map (ν : Type) where
  data : List (List ν)
  size : Nat
  bucketCount : UInt32
  bucketGrow : UInt32
  rcp : UInt32
  shift : Nat
  primeIndex : Nat

/-- The initial state, `arenahashmap_p.h:57-83` (`kNullCount`, `kNullGrow`, `kNullRcpValue`,
`kNullRcpShift` on a 64-bit target). -/
def Map.empty {ν : Type} : Map ν := ⟨[[], []], 0, 2, 1, 2147483648, 32, 0⟩

/-- `_calc_mod`, 64-bit variant, `arenahashmap_p.h:159-168`. -/
def calcMod64 (rcp : UInt32) (shift : Nat) (count : UInt32) (hash : UInt32) : UInt32 :=
  let divided := ((hash.toUInt64 * rcp.toUInt64) >>> shift.toUInt64).toUInt32
  hash - divided * count

/-- `_calc_mod`, 32-bit variant (the shift table holds `SHIFT - 32` there,
`arenahashmap.cpp:162-166`). -/
def calcMod32 (rcp : UInt32) (shift : Nat) (count : UInt32) (hash : UInt32) : UInt32 :=
  let divided := ((hash.toUInt64 * rcp.toUInt64) >>> 32).toUInt32 >>> (shift - 32).toUInt32
  hash - divided * count

/-- `_calc_mod` of a map. -/
def Map.calcMod {ν : Type} (m : Map ν) (hash : UInt32) : UInt32 :=
  calcMod64 m.rcp m.shift m.bucketCount hash

/-- Puts a node in front of the chain of bucket `i`. -/
def push {ν : Type} (data : List (List ν)) (i : UInt32) (node : ν) : Option (List (List ν)) :=
  match data[i.toNat]? with
  | none => none
  | some chain => some (data.set i.toNat (node :: chain))

/-- The nodes of one old bucket are moved one by one, `arenahashmap.cpp:193-202`. -/
def moveChain {ν : Type} (hash : ν → UInt32) (md : UInt32 → UInt32) :
    List ν → List (List ν) → Option (List (List ν))
  | [], data => some data
  | node :: chain, data =>
    match push data (md (hash node)) node with
    | none => none
    | some data' => moveChain hash md chain data'

/-- The loop over the old buckets, `arenahashmap.cpp:191-203`. -/
def moveAll {ν : Type} (hash : ν → UInt32) (md : UInt32 → UInt32) :
    List (List ν) → List (List ν) → Option (List (List ν))
  | [], data => some data
  | chain :: old, data =>
    match moveChain hash md chain data with
    | none => none
    | some data' => moveAll hash md old data'

/-- `_rehash`, `arenahashmap.cpp:171-208`. -/
def Map.rehash {ν : Type} (hash : ν → UInt32) (m : Map ν) (primeIndex : Nat) (allocOk : Bool) :
    Option (Map ν) :=
  match primes[primeIndex]? with
  | none => none
  | some (count, rcp, shift) =>
    if !allocOk then some m
    else
      match moveAll hash (calcMod64 rcp shift count) m.data (List.replicate count.toNat []) with
      | none => none
      | some data => some
          { data := data, size := m.size, bucketCount := count, bucketGrow := count * 13 / 14,
            rcp := rcp, shift := shift, primeIndex := primeIndex }

/-- `_insert`, `arenahashmap.cpp:210-222`. -/
def Map.insert {ν : Type} (hash : ν → UInt32) (m : Map ν) (node : ν) (allocOk : Bool) :
    Option (Map ν) :=
  match push m.data (m.calcMod (hash node)) node with
  | none => none
  | some data =>
    let m := { m with data := data, size := m.size + 1 }
    if m.size > m.bucketGrow.toNat then
      let primeIndex := min (m.primeIndex + 2) (primes.length - 1)
      if primeIndex > m.primeIndex then m.rehash hash primeIndex allocOk else some m
    else some m

/-- The loop of `_remove`: the chain without the node, if it is there. -/
def unlink {ν : Type} [DecidableEq ν] (node : ν) : List ν → Option (List ν)
  | [] => none
  | p :: ps => if p = node then some ps else (unlink node ps).map (p :: ·)

/-- `_remove`, `arenahashmap.cpp:224-242`. -/
def Map.remove {ν : Type} [DecidableEq ν] (hash : ν → UInt32) (m : Map ν) (node : ν) :
    Option (Bool × Map ν) :=
  let i := (m.calcMod (hash node)).toNat
  match m.data[i]? with
  | none => none
  | some chain =>
    match unlink node chain with
    | none => some (false, m)
    | some chain' => some (true, { m with data := m.data.set i chain', size := m.size - 1 })

/-- `get`, `arenahashmap_p.h:236-242`: the key is given by its hash code and by
`matches`. -/
def Map.get {ν : Type} (m : Map ν) (hashCode : UInt32) (isMatch : ν → Bool) : Option (Option ν) :=
  match m.data[(m.calcMod hashCode).toNat]? with
  | none => none
  | some chain => some (chain.find? isMatch)

/-- `for_each`, `arenahashmap_p.h:247-261`: the nodes in the order of the visits. -/
def Map.nodes {ν : Type} (m : Map ν) : List ν := m.data.flatten

/-- An operation on a map. -/
inductive Op (ν : Type)
  | insert (node : ν) (allocOk : Bool)
  | remove (node : ν)

/-- Executes one operation. -/
def step {ν : Type} [DecidableEq ν] (hash : ν → UInt32) (m : Map ν) : Op ν → Option (Map ν)
  | .insert node allocOk => m.insert hash node allocOk
  | .remove node => (m.remove hash node).map (·.2)

/-- Executes a history. -/
def run {ν : Type} [DecidableEq ν] (hash : ν → UInt32) : Map ν → List (Op ν) → Option (Map ν)
  | m, [] => some m
  | m, op :: ops =>
    match step hash m op with
    | none => none
    | some m' => run hash m' ops

end Blend2D.HashMap
