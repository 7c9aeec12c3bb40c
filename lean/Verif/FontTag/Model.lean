import Verif.FontTag.Tables
import Verif.Algo.Model
import Verif.BitOps.Model
/-! # Font tags: the dictionaries of known tags and sets of tags

Models `core/fonttagdataids_p.h` (hashing a tag to its identifier), `core/fonttagdata_p.h` (validity of a tag),
`support/fixedbitarray_p.h` and `core/fonttagset_p.h`, `core/fonttagset.cpp` (the sets of script, feature and variation tags a font face
publishes). `none` is an access outside a buffer. -/
namespace Blend2D.FontTag
open Blend2D.Algo Blend2D.BitOps

/-- `kInvalidId`, `fonttagdataids_p.h:21`. -/
def kInvalidId : UInt32 := 0xFFFFFFFF

/-- `table_tag_to_id` and its like with one hash table, `fonttagdataids_p.h:1438-1466`: hash the tag, read the candidate identifier, and
compare the tag it stands for. -/
def lookup1 (hash : Array Nat) (mul : UInt32) (shift : Nat) (tags : Array UInt32) (tag : UInt32) : Option UInt32 := do
  let i1 ← hash[(tag * mul).toNat >>> shift]?
  let t1 ← tags[i1]?
  some (if t1 = tag then UInt32.ofNat i1 else kInvalidId)

/-- `script_tag_to_id` and its like with two hash functions, `fonttagdataids_p.h:1293-1309`. -/
def lookup2 (hash1 : Array Nat) (mul1 : UInt32) (shift1 : Nat) (hash2 : Array Nat) (mul2 : UInt32) (shift2 : Nat)
    (tags : Array UInt32) (tag : UInt32) : Option UInt32 := do
  let i1 ← hash1[(tag * mul1).toNat >>> shift1]?
  let i2 ← hash2[(tag * mul2).toNat >>> shift2]?
  let t1 ← tags[i1]?
  let t2 ← tags[i2]?
  let index := if t1 = tag then UInt32.ofNat i1 else kInvalidId
  some (if t2 = tag then UInt32.ofNat i2 else index)

/-- `table_tag_to_id`, `fonttagdataids_p.h:1256-1277`. -/
def tableToId (tag : UInt32) : Option UInt32 := do
  let index ← lookup1 tableHash1 907879475 25 tableTags tag
  some (if tag = 1886545264 then 65 else index)

/-- `script_tag_to_id`, `fonttagdataids_p.h:1279-1309`. -/
def scriptToId : UInt32 → Option UInt32 := lookup2 scriptHash1 516816048 24 scriptHash1 670046653 24 scriptTags

/-- `feature_tag_to_id`, `fonttagdataids_p.h:1400-1436`. -/
def featureToId : UInt32 → Option UInt32 := lookup2 featureHash1 1174536694 24 featureHash2 46218148 26 featureTags

/-- `baseline_tag_to_id`, `fonttagdataids_p.h:1438-1451`. -/
def baselineToId : UInt32 → Option UInt32 := lookup1 baselineHash1 3145789 28 baselineTags

/-- `variation_tag_to_id`, `fonttagdataids_p.h:1453-1466`. -/
def variationToId : UInt32 → Option UInt32 := lookup1 variationHash1 119 29 variationTags

/-- `is_valid_tag`, `fonttagdata_p.h:32-42`. -/
def isValidTag (tag : UInt32) : Bool :=
  let x := tag - 0x20202020
  let y := tag + 0x01010101
  (x ||| y) &&& 0x80808080 == 0

/-- A dictionary of known tags: the table from identifiers to tags and the function back. The tag set classes of
`fonttagset_p.h:104-217` instantiate the template `TagSet` with one of these. -/
structure Dict where
  tags : Array UInt32
  toId : UInt32 → Option UInt32

/-- `ScriptTagSet`, `fonttagset_p.h:104-123`. -/
def scripts : Dict := ⟨scriptTags, scriptToId⟩
/-- `FeatureTagSet`, `fonttagset_p.h:146-165`. -/
def features : Dict := ⟨featureTags, featureToId⟩
/-- `BaselineTagSet`, `fonttagset_p.h:167-186`. -/
def baselines : Dict := ⟨baselineTags, baselineToId⟩
/-- `VariationTagSet`, `fonttagset_p.h:188-207`. -/
def variations : Dict := ⟨variationTags, variationToId⟩

/-- `FixedBitArray::bit_at`, `fixedbitarray_p.h:31-34`. -/
def bitAtIdx (data : List (BitVec 64)) (i : Nat) : Option Bool := do
  let w ← data[i / 64]?
  some ((w >>> (i % 64)) &&& 1#64 != 0#64)

/-- `FixedBitArray::set_at`, `fixedbitarray_p.h:36-39`. -/
def setAtIdx (data : List (BitVec 64)) (i : Nat) : Option (List (BitVec 64)) := do
  let w ← data[i / 64]?
  some (data.set (i / 64) (w ||| (1#64 <<< (i % 64))))

/-- `TagSet`, `fonttagset_p.h:34-39`. The dynamic array of unknown tags is a value here: C15 covers `BLArray`. -/
structure TagSet where
  unknown : Array UInt32
  known : List (BitVec 64)
  knownCount : Nat

/-- A fresh `TagSet`, `fonttagset_p.h:36-38`. -/
def TagSet.empty (d : Dict) : TagSet := ⟨#[], List.replicate ((d.tags.size + 63) / 64) 0, 0⟩

/-- `_has_tag`, `fonttagset_p.h:42-48`. The search for an unknown tag is given `id`, as in the code, which is `kInvalidId` there. -/
def TagSet.hasTag (d : Dict) (s : TagSet) (tag : UInt32) : Option Bool := do
  let id ← d.toId tag
  if id ≠ kInvalidId then bitAtIdx s.known id.toNat
  else
    let index ← lowerBound s.unknown s.unknown.size id (fun a b => decide (a < b))
    if index < s.unknown.size then
      let t ← s.unknown[index]?
      some (t == tag)
    else some false

/-- `_add_known_tag_id`, `fonttagset_p.h:57-63`. -/
def TagSet.addKnown (s : TagSet) (id : Nat) : Option TagSet := do
  let b ← bitAtIdx s.known id
  let known ← setAtIdx s.known id
  some { s with knownCount := s.knownCount + (if b then 0 else 1), known := known }

/-- `add_tag`, `_add_tag` and `_add_unknown_tag`, `fonttagset_p.h:50-67`; no allocation failure. -/
def TagSet.addTag (d : Dict) (s : TagSet) (tag : UInt32) : Option TagSet := do
  let id ← d.toId tag
  if id ≠ kInvalidId then s.addKnown id.toNat
  else some { s with unknown := s.unknown.push tag }

/-- Unsigned comparison as a three way comparator (`CompareOp<SortOrder::kAscending>`, `algorithm_p.h`). -/
def cmpTag (a b : UInt32) : Int := if a < b then -1 else if b < a then 1 else 0

/-- The loop that drops repeated tags in place, `fonttagset.cpp:25-34`, with `n` rounds left. -/
def dedupLoop : (n i j : Nat) → (prev : UInt32) → Array UInt32 → Option (Nat × Array UInt32)
  | 0, _, j, _, data => some (j, data)
  | n + 1, i, j, prev, data => do
    let current ← data[i]?
    if current = prev then dedupLoop n (i + 1) j prev data
    else if j < data.size then dedupLoop n (i + 1) (j + 1) current (data.set! j current)
    else none

/-- `finalize_tag_array`, `fonttagset.cpp:13-41`. -/
def finalizeTagArray (tags : Array UInt32) : Option (Array UInt32) := do
  if tags.size > 1 then
    let data ← quickSort cmpTag tags
    let prev ← data[0]?
    let (size, data) ← dedupLoop (tags.size - 1) 1 1 prev data
    some (data.take size)
  else some tags

/-- `TagSet::finalize`, `fonttagset_p.h:70-72`. -/
def TagSet.finalize (s : TagSet) : Option TagSet := do
  let u ← finalizeTagArray s.unknown
  some { s with unknown := u }

/-- One store `dst_data[dst_data_index++] = tag`. -/
def put (dst : Array UInt32) (i : Nat) (tag : UInt32) : Option (Array UInt32 × Nat) :=
  if i < dst.size then some (dst.set! i tag, i + 1) else none

/-- `while (unknown_tag_index < unknown_tag_count && unknown_tag_data[..] < known_tag) ...`, `fonttagset.cpp:61-63`. The unknown tags from
`unknown_tag_index` on are a list. -/
def copyBelow (limit : UInt32) : List UInt32 → Array UInt32 → Nat → Option (List UInt32 × Array UInt32 × Nat)
  | [], dst, i => some ([], dst, i)
  | u :: us, dst, i =>
    if u < limit then do
      let (dst, i) ← put dst i u
      copyBelow limit us dst i
    else some (u :: us, dst, i)

/-- The trailing loop, `fonttagset.cpp:68-70`. -/
def copyRest : List UInt32 → Array UInt32 → Nat → Option (Array UInt32)
  | [], dst, _ => some dst
  | u :: us, dst, i => do
    let (dst, i) ← put dst i u
    copyRest us dst i

/-- The loop over the known tags, `fonttagset.cpp:57-66`. -/
def mergeLoop (tags : Array UInt32) : List Nat → List UInt32 → Array UInt32 → Nat → Option (Array UInt32)
  | [], us, dst, i => copyRest us dst i
  | id :: ids, us, dst, i => do
    let known ← tags[id]?
    let (us, dst, i) ← copyBelow known us dst i
    let (dst, i) ← put dst i known
    mergeLoop tags ids us dst i

/-- `flatten_tag_set_to`, `fonttagset.cpp:43-73`. `modify_op(ASSIGN_FIT)` hands out storage for `tag_count` tags with unknown content: it is
an argument here. The identifiers the bit iterator returns are collected before the loop that uses them. -/
def TagSet.flatten (d : Dict) (s : TagSet) (storage : Nat → Array UInt32) : Option (Array UInt32) := do
  let it ← Iter.init .lsb s.known s.known.length 0 0
  let ids ← it.collect .lsb s.known (s.known.length * 64)
  mergeLoop d.tags ids s.unknown.toList (storage (s.knownCount + s.unknown.size)) 0

/-- Reading a font: every tag found is added (`otlayout.cpp:3599-3619`), then the set is finalized (`otface.cpp:72-74`). -/
def collectTags (d : Dict) (ts : List UInt32) : Option TagSet := do
  let s ← ts.foldlM (TagSet.addTag d) (TagSet.empty d)
  s.finalize

end Blend2D.FontTag
