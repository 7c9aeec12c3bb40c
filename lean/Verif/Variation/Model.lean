import Verif.Settings.Model
/-!
# `BLFontVariationSettings` in the instance (`blend2d/core/fontvariationsettings.cpp`)

Up to three variations are packed into the 16 bytes: three 32-bit floats, and in the info word the number of variations (bits 16 to 21) and
their identifiers (five bits each, sorted).  The instance is the list of its four words; a float is its bit pattern.  Access outside of the
four words is undefined behaviour, modelled by `none`.
-/
namespace Blend2D.Variation
open Blend2D.FontTag Blend2D.Settings

/-- A 32-bit float, as its bits. -/
abbrev F32 := UInt32

/-- IEEE 754: exponent all ones and a mantissa that is not zero. -/
def isNaN (x : F32) : Bool := x.toNat % 2 ^ 31 > 0x7F800000

/-- IEEE 754: floats that are numbers are ordered like sign and magnitude integers. -/
def key (x : F32) : Int := if x.toNat < 2 ^ 31 then x.toNat else -((x.toNat - 2 ^ 31 : Nat) : Int)

/-- `a <= b`. -/
def fle (a b : F32) : Bool := !isNaN a && !isNaN b && decide (key a ≤ key b)

/-- `a > b`. -/
def fgt (a b : F32) : Bool := !isNaN a && !isNaN b && decide (key b < key a)

/-- `a == b`. -/
def feq (a b : F32) : Bool := !isNaN a && !isNaN b && decide (key a = key b)

/-- `1.0f` and `65535.0f`. -/
def fOne : F32 := 0x3F800000
def fMax : F32 := 0x477FFF00
/-- `Math::nan<float>()`, quiet and positive. -/
def fNaN : F32 := 0x7FC00000

/-- The words of an instance, `f32_data` / `u32_data`; the last one is `info.bits`. -/
abbrev Words := List UInt32

/-- A store to `f32_data[i]`. -/
def write (d : Words) (i : Nat) (x : UInt32) : Option Words := if i < d.length then some (d.set i x) else none

/-- The info word of no variations: type 18 and the marker, `object.h:405-407`. -/
def marker : UInt32 := ((18 : UInt32) <<< 22) ||| ((1 : UInt32) <<< 31)

/-- `init_sso`, `fontvariationsettings.cpp:32-36`. -/
def initSso (size : Nat) : Words := [0, 0, 0, marker ||| (UInt32.ofNat size <<< 16)]

/-- `a_field`, `object.h:470`. -/
def aField (bits : UInt32) : Nat := ((bits >>> 16) &&& 63).toNat

/-- `get_sso_size`, `fontvariationsettings.cpp:38`. -/
def ssoSize (d : Words) : Nat := aField (d.getD 3 0)

/-- The loop of `find_sso_tag`: `n` is what is left, `fontvariationsettings.cpp:52-63`. -/
def findLoop (id : UInt32) : Nat → Nat → UInt32 → Nat × Bool
  | 0, i, _ => (i, false)
  | n + 1, i, bits =>
    let ssoId := bits &&& 31
    if ssoId < id then findLoop id n (i + 1) (bits >>> 5) else (i, id == ssoId)

/-- `find_sso_tag`, `fontvariationsettings.cpp:48-64`. -/
def findTag (bits : UInt32) (id : UInt32) : Nat × Bool := findLoop id (aField bits) 0 bits

/-- The tags of an instance, in `get_view` and `init_dynamic_from_sso`, `fontvariationsettings.cpp:133-137, 309-318`. -/
def itemsLoop (d : Words) : Nat → Nat → UInt32 → Option (List (Item F32))
  | 0, _, _ => some []
  | n + 1, i, bits => do
    let tag ← variationTags[(bits &&& 31).toNat]?
    let v ← d[i]?
    let rest ← itemsLoop d n (i + 1) (bits >>> 5)
    some ((tag, v) :: rest)

/-- All items of an instance. -/
def items (d : Words) : Option (List (Item F32)) := itemsLoop d (ssoSize d) 0 (d.getD 3 0)

/-- The loop of `convert_items_to_sso`, `fontvariationsettings.cpp:75-84`. -/
def packLoop : List (Item F32) → Nat → UInt32 → Words → Option (Option Words)
  | [], _, bits, d => some (some (d.set 3 (d.getD 3 0 ||| bits)))
  | (tag, v) :: rest, i, bits, d => do
    let id ← variationToId tag
    if id = kInvalidId then some none
    else
      let d ← write d i v
      packLoop rest (i + 1) (bits ||| (id <<< UInt32.ofNat (5 * i))) d

/-- `convert_items_to_sso`, `fontvariationsettings.cpp:66-88`. -/
def pack (l : List (Item F32)) : Option (Option Words) := packLoop l 0 0 (initSso l.length)

/-- `has_value`, `fontvariationsettings.cpp:334-341`. -/
def hasSso (d : Words) (tag : UInt32) : Option Bool := do
  let id ← variationToId tag
  if id = kInvalidId then some false else some (findTag (d.getD 3 0) id).2

/-- `get_value`, `fontvariationsettings.cpp:361-370`. -/
def getSso (d : Words) (tag : UInt32) : Option F32 := do
  let id ← variationToId tag
  if id = kInvalidId then some fNaN
  else
    let (k, found) := findTag (d.getD 3 0) id
    if found then d[k]? else some fNaN

/-- `copy_backward_inline_t(values + index + 1, values + index, n)`, `memops_p.h:377-383`. -/
def shiftUp (index : Nat) : Nat → Words → Option Words
  | 0, d => some d
  | n + 1, d => do
    let x ← d[index + n]?
    let d ← write d (index + 1 + n) x
    shiftUp index n d

/-- The new info word of an insertion, `fontvariationsettings.cpp:423-427`. -/
def insertBits (bits : UInt32) (size index : Nat) (id : UInt32) : UInt32 :=
  let bits := bits + ((1 : UInt32) <<< 16)
  let bitIndex := UInt32.ofNat (index * 5)
  let mask := (((1 : UInt32) <<< UInt32.ofNat ((size - index) * 5)) - 1) <<< bitIndex
  (bits &&& ~~~mask) ||| ((bits &&& mask) <<< 5) ||| (id <<< bitIndex)

/-- `set_value`, `fontvariationsettings.cpp:400-436`. -/
def setSso (d : Words) (tag : UInt32) (v : F32) : Option (SetResult Words) :=
  if fle v fOne then do
    let id ← variationToId tag
    if id ≠ kInvalidId then
      let size := ssoSize d
      let (k, found) := findTag (d.getD 3 0) id
      if found then
        let d ← write d k v
        some (.done d)
      else if size < 3 then
        let bits := d.getD 3 0
        let d ← shiftUp k (size - k) d
        let d ← write d k v
        some (.done (d.set 3 (insertBits bits size k id)))
      else some .dynamic
    else if isValidTag tag = false then some .refuse
    else some .dynamic
  else some .dynamic

/-- `while (i < size) { values[i] = values[i + 1]; i++; }`, `fontvariationsettings.cpp:480-483`; `n` is what is left. -/
def shiftDown : Nat → Nat → Words → Option Words
  | 0, _, d => some d
  | n + 1, i, d => do
    let x ← d[i + 1]?
    let d ← write d i x
    shiftDown n (i + 1) d

/-- The new info word of a removal, `fontvariationsettings.cpp:490-497`. -/
def removeBits (bits : UInt32) (size index : Nat) : UInt32 :=
  let bitIndex := UInt32.ofNat (index * 5)
  let mask := (((1 : UInt32) <<< UInt32.ofNat ((size - index - 1) * 5)) - 1) <<< (bitIndex + 5)
  (bits &&& ~~~(((63 : UInt32) <<< 16) ||| mask ||| ((31 : UInt32) <<< bitIndex))) ||| ((bits &&& mask) >>> 5) ||| (UInt32.ofNat (size - 1) <<< 16)

/-- `remove_value`, `fontvariationsettings.cpp:466-499`.  The last turn of the loop reads the info word as a value; the next store
overwrites it. -/
def removeSso (d : Words) (tag : UInt32) : Option Words := do
  let id ← variationToId tag
  if id = kInvalidId then some d
  else
    let size := ssoSize d
    let (k, found) := findTag (d.getD 3 0) id
    if found then
      let bits := d.getD 3 0
      let d ← shiftDown (size - k) k d
      let d ← write d (size - 1) 0
      some (d.set 3 (removeBits bits size k))
    else some d

/-- The loop of `equals` with one impl, `fontvariationsettings.cpp:567-577`. -/
def eqLoop (d : Words) : Nat → Nat → UInt32 → List (Item F32) → Option Bool
  | 0, _, _, _ => some true
  | n + 1, i, bits, l => do
    let tag ← variationTags[(bits &&& 31).toNat]?
    let v ← d[i]?
    let it ← l[i]?
    if it.1 ≠ tag ∨ feq it.2 v = false then some false
    else eqLoop d n (i + 1) (bits >>> 5) l

/-- `BLFontVariationSettings`. -/
def kind : Kind Words F32 where
  empty := initSso 0
  cap := 3
  size := ssoSize
  items := items
  has := hasSso
  get := getSso
  set := setSso
  remove := removeSso
  pack := pack
  eqItems := fun d l => eqLoop d (ssoSize d) 0 (d.getD 3 0) l
  tooLarge := fun v => fgt v fMax
  same := feq
  absent := fNaN

end Blend2D.Variation
