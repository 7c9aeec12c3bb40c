import Verif.Settings.Model
import Verif.BitOps.Model
/-!
# `BLFontFeatureSettings` in the instance (`blend2d/core/fontfeaturesettings.cpp`, `fontfeaturesettings_p.h`)

The 16 bytes of the instance hold the 32 most common features as bits (word 0 says which of them have a value, word 1 has the values) and up to
four other known features, the fat ones: word 2 has their identifiers, eight bits each, sorted, with 255 after the last one; the info word has
their values, four bits each, below the number of all features (bits 16 to 21).

Undefined behaviour (a shift by 32 or more, an index outside of a table, more items than the buffer has) is `none`.
-/
namespace Blend2D.Feature
open Blend2D.FontTag Blend2D.Settings

/-- `u32_data` of an instance; the last word is `info.bits`. -/
structure Words where
  d0 : UInt32
  d1 : UInt32
  d2 : UInt32
  d3 : UInt32
  deriving DecidableEq, Repr

/-- `feature_bit_id_to_feature_id_table`, `fonttagdatainfo.cpp:140-173`, with the numbers of `FeatureId` (`fonttagdataids_p.h`). -/
def bitFeatures : Array UInt32 := #[12, 17, 18, 19, 122, 123, 125, 126, 131, 132, 135, 136, 141, 145, 150, 152,
  154, 168, 170, 172, 173, 190, 195, 219, 220, 222, 224, 225, 228, 229, 236, 240]

/-- `feature_info_table[id].bit_id`, `fonttagdatainfo.cpp:99-132`: the same features; 63 if there is none. -/
def bitId (id : UInt32) : Nat := (bitFeatures.findIdx? (fun x => x == id)).getD 63

/-- `BL_FONT_FEATURE_INVALID_VALUE`, `fontdefs.h`. -/
def absent : UInt32 := 0xFFFFFFFF

/-- Type 17 and the marker, `object.h:405-407`. -/
def marker : UInt32 := ((17 : UInt32) <<< 22) ||| ((1 : UInt32) <<< 31)

/-- `init_sso`, `fontfeaturesettings.cpp:24-28`. -/
def initSso (size : Nat) : Words := ⟨0, 0, 0xFFFFFFFF, marker ||| (UInt32.ofNat size <<< 16)⟩

/-- `get_sso_size`, `fontfeaturesettings.cpp:30-32`. -/
def ssoSize (d : Words) : Nat := ((d.d3 >>> 16) &&& 63).toNat

/-- `has_sso_bit_tag`, `fontfeaturesettings_p.h:96-98`. -/
def hasBitTag (d : Words) (i : Nat) : Bool := (d.d0 >>> UInt32.ofNat i) &&& 1 != 0

/-- `get_sso_bit_value`, `fontfeaturesettings_p.h:100-102`. -/
def bitValue (d : Words) (i : Nat) : UInt32 := (d.d1 >>> UInt32.ofNat i) &&& 1

/-- `get_sso_fat_value`, `fontfeaturesettings_p.h:104-106`. -/
def fatValue (d : Words) (i : Nat) : UInt32 := (d.d3 >>> UInt32.ofNat (i * 4)) &&& 15

/-- The loop of `find_sso_fat_tag`; `n` is what is left, `fontfeaturesettings_p.h:111-117`. -/
def findLoop (id : UInt32) : Nat → Nat → UInt32 → Nat × Bool
  | 0, i, _ => (i, false)
  | n + 1, i, tags =>
    let x := tags &&& 255
    if x = 255 ∨ id ≤ x then (i, x == id) else findLoop id n (i + 1) (tags >>> 8)

/-- `find_sso_fat_tag`, `fontfeaturesettings_p.h:108-121`. -/
def findFat (d : Words) (id : UInt32) : Nat × Bool := findLoop id 4 0 d.d2

/-- `get_sso_tag_value`, `fontfeaturesettings_p.h:123-145`. -/
def getSso (d : Words) (tag : UInt32) : Option UInt32 := do
  let id ← featureToId tag
  if id = kInvalidId then some absent
  else if bitId id ≠ 63 then
    if hasBitTag d (bitId id) then some (bitValue d (bitId id)) else some absent
  else
    let (k, found) := findFat d id
    if found then some (fatValue d k) else some absent

/-- `has_value`, `fontfeaturesettings.cpp:459-472`.  A fat feature is searched by its bit identifier, which is 63. -/
def hasSso (d : Words) (tag : UInt32) : Option Bool := do
  let id ← featureToId tag
  if id = kInvalidId then some false
  else if bitId id ≠ 63 then some (hasBitTag d (bitId id))
  else some (findFat d (UInt32.ofNat (bitId id))).2

/-- `add_sso_bit_tag`, `fontfeaturesettings.cpp:38-47`. -/
def addBit (d : Words) (i : Nat) (v : UInt32) : Words :=
  { d with d0 := d.d0 ||| ((1 : UInt32) <<< UInt32.ofNat i), d1 := d.d1 ||| (v <<< UInt32.ofNat i), d3 := d.d3 + ((1 : UInt32) <<< 16) }

/-- `update_sso_bit_value`, `fontfeaturesettings.cpp:49-55`. -/
def updateBit (d : Words) (i : Nat) (v : UInt32) : Words :=
  { d with d1 := (d.d1 &&& ~~~((1 : UInt32) <<< UInt32.ofNat i)) ||| (v <<< UInt32.ofNat i) }

/-- `remove_sso_bit_tag`, `fontfeaturesettings.cpp:57-66`. -/
def removeBit (d : Words) (i : Nat) : Words :=
  { d with d0 := d.d0 &&& ~~~((1 : UInt32) <<< UInt32.ofNat i), d1 := d.d1 &&& ~~~((1 : UInt32) <<< UInt32.ofNat i),
           d3 := d.d3 - ((1 : UInt32) <<< 16) }

/-- `kValueDataMask`. -/
def valMask : UInt32 := ((1 : UInt32) <<< 16) - 1

/-- `add_sso_fat_tag`, `fontfeaturesettings.cpp:68-89`. -/
def addFat (d : Words) (index : Nat) (id v : UInt32) : Option Words :=
  if index < 4 then
    let tagOffset := UInt32.ofNat (index * 8)
    let valOffset := UInt32.ofNat (index * 4)
    let tags := d.d2
    let vals := d.d3 &&& valMask
    let tagsLsb := ((1 : UInt32) <<< tagOffset) - 1
    let valsLsb := ((1 : UInt32) <<< valOffset) - 1
    let tags := (tags &&& tagsLsb) ||| ((tags &&& ~~~tagsLsb) <<< 8) ||| (id <<< tagOffset)
    let vals := (vals &&& valsLsb) ||| ((vals &&& ~~~valsLsb) <<< 4) ||| (v <<< valOffset)
    some { d with d2 := tags, d3 := ((d.d3 &&& ~~~valMask) + ((1 : UInt32) <<< 16)) ||| (vals &&& valMask) }
  else none

/-- `update_sso_fat_value`, `fontfeaturesettings.cpp:91-99`. -/
def updateFat (d : Words) (index : Nat) (v : UInt32) : Words :=
  let off := UInt32.ofNat (index * 4)
  { d with d3 := (d.d3 &&& ~~~((15 : UInt32) <<< off)) ||| (v <<< off) }

/-- `remove_sso_fat_tag`, `fontfeaturesettings.cpp:101-121`.  The values are masked by the mask of the tags. -/
def removeFat (d : Words) (index : Nat) : Words :=
  let tagOffset := UInt32.ofNat (index * 8)
  let valOffset := UInt32.ofNat (index * 4)
  let tags := d.d2
  let vals := d.d3 &&& valMask
  let tagsLsb := ((1 : UInt32) <<< tagOffset) - 1
  let valsLsb := ((1 : UInt32) <<< valOffset) - 1
  let tags := (tags &&& tagsLsb) ||| ((tags >>> 8) &&& ~~~tagsLsb) ||| ((255 : UInt32) <<< 24)
  let vals := (vals &&& valsLsb) ||| ((vals >>> 4) &&& ~~~tagsLsb)
  { d with d2 := tags, d3 := ((d.d3 &&& ~~~valMask) - ((1 : UInt32) <<< 16)) ||| (vals &&& valMask) }

/-- `can_insert_sso_fat_tag`, `fontfeaturesettings.cpp:123-126`. -/
def canInsertFat (d : Words) : Bool := d.d2 >>> 24 == 255

/-- The loop of `convert_items_to_sso`; `d` has the variables `bit_tag_ids`, `bit_values`, `fat_tag_ids` and `fat_values`,
`fontfeaturesettings.cpp:140-164`. -/
def packLoop : List (Item UInt32) → Nat → Words → Option (Option Words)
  | [], _, d => some (some d)
  | (tag, v) :: rest, fatIndex, d => do
    let id ← featureToId tag
    if id = kInvalidId then some none
    else if bitId id ≠ 63 then
      if v > 1 then some none
      else
        packLoop rest fatIndex
          { d with d0 := d.d0 ||| ((1 : UInt32) <<< UInt32.ofNat (bitId id)), d1 := d.d1 ||| (v <<< UInt32.ofNat (bitId id)) }
    else if v > 15 ∨ fatIndex ≥ 4 then some none
    else
      packLoop rest (fatIndex + 1)
        { d with d2 := d.d2 ^^^ ((id ^^^ 255) <<< UInt32.ofNat (fatIndex * 8)), d3 := d.d3 ||| (v <<< UInt32.ofNat (fatIndex * 4)) }

/-- `convert_items_to_sso`, `fontfeaturesettings.cpp:128-172`. -/
def pack (l : List (Item UInt32)) : Option (Option Words) := packLoop l 0 (initSso l.length)

/-- `BitIterator`, `bitops_p.h:322-341`: the indices it delivers; `fuel` bounds the loop, 32 turns are enough. -/
def bitList : Nat → BitVec 32 → List Nat
  | 0, _ => []
  | fuel + 1, x =>
    if x = 0 then []
    else
      let i := BitOps.countZerosFromStart .lsb x
      i :: bitList fuel (x ^^^ (1#32 <<< i))

/-- The variables `fat_feature_tag_id`, `fat_tag_ids` and `fat_values` of `convert_sso_to_items`. -/
structure Fat where
  cur : UInt32
  tags : UInt32
  vals : UInt32

/-- `if (fat_feature_tag_id == kSSOInvalidFatFeatureId) fat_feature_tag_id = kDummyFatTagId`. -/
def orDummy (id : UInt32) : UInt32 := if id = 255 then 0xFFFFFFFF else id

/-- The inner loop of `convert_sso_to_items`, `fontfeaturesettings.cpp:194-203`.  The buffers have room for 36 items, more turns are undefined. -/
def fatWhile (bit : UInt32) : Nat → Fat → Option (Fat × List (Item UInt32))
  | 0, _ => none
  | n + 1, f =>
    if bit > f.cur then do
      let tag ← featureTags[f.cur.toNat]?
      let (g, out) ← fatWhile bit n ⟨orDummy (f.tags &&& 255), f.tags >>> 8, f.vals >>> 4⟩
      some (g, (tag, f.vals &&& 15) :: out)
    else some (f, [])

/-- The last loop of `convert_sso_to_items`, `fontfeaturesettings.cpp:211-216`. -/
def fatRest : Nat → Fat → Option (List (Item UInt32))
  | 0, _ => none
  | n + 1, f => do
    let tag ← featureTags[f.cur.toNat]?
    if f.tags &&& 255 ≠ 255 then
      let out ← fatRest n ⟨f.tags &&& 255, f.tags >>> 8, f.vals >>> 4⟩
      some ((tag, f.vals &&& 15) :: out)
    else some [(tag, f.vals &&& 15)]

/-- The outer loop, `fontfeaturesettings.cpp:190-216`. -/
def itemsLoop (values : UInt32) : List Nat → Fat → Option (List (Item UInt32))
  | [], f => if f.cur = 0xFFFFFFFF then some [] else fatRest 37 f
  | i :: rest, f => do
    let bit ← bitFeatures[i]?
    let (f, out) ← fatWhile bit 37 f
    let tag ← featureTags[bit.toNat]?
    let more ← itemsLoop values rest f
    some (out ++ (tag, (values >>> UInt32.ofNat i) &&& 1) :: more)

/-- `convert_sso_to_items`, `fontfeaturesettings.cpp:174-217`. -/
def items (d : Words) : Option (List (Item UInt32)) :=
  itemsLoop d.d1 (bitList 32 d.d0.toBitVec) ⟨orDummy (d.d2 &&& 255), (d.d2 >>> 8) ||| ((255 : UInt32) <<< 24), d.d3⟩

/-- `set_value`, `fontfeaturesettings.cpp:509-545`. -/
def setSso (d : Words) (tag v : UInt32) : Option (SetResult Words) := do
  let id ← featureToId tag
  if id ≠ kInvalidId then
    if bitId id ≠ 63 then
      if v > 1 then some .refuse
      else if hasBitTag d (bitId id) then some (.done (updateBit d (bitId id) v))
      else some (.done (addBit d (bitId id) v))
    else if v ≤ 255 then
      let (k, found) := findFat d id
      if found then some (.done (updateFat d k v))
      else if canInsertFat d then
        let d ← addFat d k id v
        some (.done d)
      else some .dynamic
    else some .dynamic
  else if isValidTag tag = false then some .refuse
  else some .dynamic

/-- `remove_value`, `fontfeaturesettings.cpp:620-641`. -/
def removeSso (d : Words) (tag : UInt32) : Option Words := do
  let id ← featureToId tag
  if id = kInvalidId then some d
  else if bitId id ≠ 63 then
    if hasBitTag d (bitId id) then some (removeBit d (bitId id)) else some d
  else
    let (k, found) := findFat d id
    if found then some (removeFat d k) else some d

/-- The comparison of an instance with an impl, `fontfeaturesettings.cpp:705-719`. -/
def eqItems (d : Words) (l : List (Item UInt32)) : Option Bool := do
  match ← pack l with
  | none => some false
  | some d' => some (decide (d = d'))

/-- `BLFontFeatureSettings`. -/
def kind : Kind Words UInt32 where
  empty := initSso 0
  cap := 36
  size := ssoSize
  items := items
  has := hasSso
  get := getSso
  set := setSso
  remove := removeSso
  pack := pack
  eqItems := eqItems
  tooLarge := fun v => decide (v > 65535)
  same := fun a b => a == b
  absent := absent

end Blend2D.Feature
