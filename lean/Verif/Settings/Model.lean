import Verif.Cow.Heap
import Verif.Algo.Model
import Verif.FontTag.Model
import Verif.Arr.Model
/-!
# Font settings: what feature and variation settings have in common

`BLFontFeatureSettings` (`core/fontfeaturesettings.cpp`, `fontfeaturesettings_p.h`) and `BLFontVariationSettings`
(`core/fontvariationsettings.cpp`, `fontvariationsettings_p.h`) are maps from tags to values.  Both keep few and common tags in the 16 bytes
of the instance and everything else in a reference counted impl, a buffer of items sorted by tag.  The two source files repeat the same code
for impls; only the packing in the instance differs.  `Kind` is that packing, this file is the rest.  Line numbers are given as
feature / variation.

Undefined behaviour is `none`.  Of an impl's buffer the model has the items that are in use and the number there is memory for.
Simplifications: 64-bit target, sizes do not overflow; a new impl is filled before it enters the heap; the item moves
(`copy_backward_inline_t`, `copy_forward_inline_t`, `memcpy`) are list operations.  Allocation is an oracle: `ok = false` makes it fail.
-/
namespace Blend2D.Settings
open Cow
open Blend2D.Algo Blend2D.FontTag
open Blend2D.Arr (Result)

/-- `BLFontFeatureItem` / `BLFontVariationItem`. -/
abbrev Item (V : Type) := UInt32 × V

/-- `BLFontFeatureSettingsImpl`, `fontfeaturesettings.h:35-42` / `BLFontVariationSettingsImpl`, `fontvariationsettings.h:35-42`. -/
structure Impl (V : Type) where
  items : List (Item V)
  capacity : Nat
  deriving DecidableEq, Repr

abbrev Wld (σ V : Type) := World σ (Impl V)

/-- What the in-place part of `set_value` can end with: the instance is changed, the arguments are refused, or the settings
have to become dynamic. -/
inductive SetResult (σ : Type) where
  | done (s : σ)
  | refuse
  | dynamic
  deriving DecidableEq, Repr

/-- The packing of settings in the instance. -/
structure Kind (σ V : Type) where
  /-- `init_sso` -/
  empty : σ
  /-- `kSSOCapacity` -/
  cap : Nat
  /-- `get_sso_size` -/
  size : σ → Nat
  /-- unpacking, in `get_view` and `init_dynamic_from_sso`: the items that are written -/
  items : σ → Option (List (Item V))
  /-- `has_value`, `get_value`, `set_value` (after the check of the value) and `remove_value` in SSO mode -/
  has : σ → UInt32 → Option Bool
  get : σ → UInt32 → Option V
  set : σ → UInt32 → V → Option (SetResult σ)
  remove : σ → UInt32 → Option σ
  /-- `convert_items_to_sso`; the inner `none` is `false` -/
  pack : List (Item V) → Option (Option σ)
  /-- the comparison of an instance with the items of an impl that has as many -/
  eqItems : σ → List (Item V) → Option Bool
  /-- `value > 65535` -/
  tooLarge : V → Bool
  /-- `items[index].value == value` -/
  same : V → V → Bool
  /-- what `get_value` returns if there is no value -/
  absent : V

variable {σ V : Type} (K : Kind σ V)

/-- `impl_size_from_capacity`, `fontfeaturesettings_p.h:26-28` / `fontvariationsettings_p.h:23-25`. -/
def implSize (capacity : Nat) : Nat := 24 + capacity * 8

/-- `capacity_from_impl_size`, `fontfeaturesettings_p.h:30-32` / `fontvariationsettings_p.h:27-29`. -/
def capacityOf (size : Nat) : Nat := (size - 24) / 8

/-- `bl_object_align_impl_size`, `object_p.h:483-485`. -/
def alignImpl (n : Nat) : Nat := (n + 63) / 64 * 64

/-- `init_dynamic`, `init_dynamic_from_sso`, `init_dynamic_from_data` and the stores that fill the impl,
`fontfeaturesettings.cpp:214-273` / `fontvariationsettings.cpp:96-150`.  Writing more items than there is memory for is undefined. -/
def newImpl (size : Nat) (items : List (Item V)) : Option (Impl V) :=
  if items.length ≤ capacityOf size then some ⟨items, capacityOf size⟩ else none

/-- `bl::lower_bound` by tag. -/
def find (items : List (Item V)) (tag : UInt32) : Option Nat :=
  lowerBound items.toArray items.length tag (fun a t => decide (a.1 < t))

/-- The item with the tag, in an impl: its index if it exists, and where it has to be inserted
(`fontfeaturesettings.cpp:461-463, 537-540` / `fontvariationsettings.cpp:348-351`). -/
def search (items : List (Item V)) (tag : UInt32) : Option (Nat × Option V) := do
  let k ← find items tag
  if k < items.length then
    let it ← items[k]?
    if it.1 = tag then some (k, some it.2) else some (k, none)
  else some (k, none)

/-- `reset`, `fontfeaturesettings.cpp:318-325` / `fontvariationsettings.cpp:191-197`. -/
def reset (w : Wld σ V) (i : Nat) : Option (Result × Wld σ V) := do
  let v ← w.vars[i]?
  let w ← w.release v
  some (.success, w.setVar i (.sso K.empty))

/-- `clear`, `fontfeaturesettings.cpp:327-344` / `fontvariationsettings.cpp:199-216`. -/
def clear (w : Wld σ V) (i : Nat) : Option (Result × Wld σ V) := do
  let v ← w.vars[i]?
  match v with
  | .sso _ => some (.success, w.setVar i (.sso K.empty))
  | .dyn a =>
    let b ← w.block? a
    if b.rc = 1 then some (.success, w.setVal a { b.val with items := [] })
    else reset K w i

/-- The local instance `tmp` that receives a new impl. -/
def withImpl (ok : Bool) (w : Wld σ V) (i : Nat) (x : Option (Impl V)) : Option (Result × Wld σ V) :=
  if ok then do
    let x ← x
    let (c, w) := w.alloc 1 x
    let w ← w.replace i c
    some (.success, w)
  else some (.outOfMemory, w)

/-- The first attempt of `shrink`, `fontfeaturesettings.cpp:361` / `fontvariationsettings.cpp:233`. -/
def tryPack (items : List (Item V)) : Option (Option σ) := if items.length ≤ K.cap then K.pack items else some none

/-- `shrink`, `fontfeaturesettings.cpp:349-372` / `fontvariationsettings.cpp:221-244`. -/
def shrink (ok : Bool) (w : Wld σ V) (i : Nat) : Option (Result × Wld σ V) := do
  let v ← w.vars[i]?
  match v with
  | .sso _ => some (.success, w)
  | .dyn a =>
    let b ← w.block? a
    let items := b.val.items
    match ← tryPack K items with
    | some s =>
      let w ← w.replace i (.sso s)
      some (.success, w)
    | none =>
      if implSize items.length + 16 > implSize b.val.capacity then some (.success, w)
      else withImpl ok w i (newImpl (implSize items.length) items)

/-- `set_value` on an impl, `fontfeaturesettings.cpp:531-579` / `fontvariationsettings.cpp:409-456`. -/
def setDynamic (ok : Bool) (w : Wld σ V) (i : Nat) (tag : UInt32) (value : V) (canModify : Bool) : Option (Result × Wld σ V) := do
  let v ← w.vars[i]?
  match v with
  | .sso _ => none
  | .dyn a =>
    let b ← w.block? a
    let items := b.val.items
    let (k, old) ← search items tag
    match old with
    | some x =>
      if K.same x value then some (.success, w)
      else if canModify then some (.success, w.setVal a { b.val with items := items.set k (tag, value) })
      else withImpl ok w i (newImpl (implSize items.length) (items.set k (tag, value)))
    | none =>
      if isValidTag tag = false then some (.invalidValue, w)
      else
        let items' := items.take k ++ (tag, value) :: items.drop k
        if canModify ∧ b.val.capacity > items.length then some (.success, w.setVal a { b.val with items := items' })
        else withImpl ok w i (newImpl (Arr.expand (implSize (items.length + 1))) items')

/-- `set_value`, `fontfeaturesettings.cpp:474-580` / `fontvariationsettings.cpp:355-457`. -/
def setValue (ok : Bool) (w : Wld σ V) (i : Nat) (tag : UInt32) (value : V) : Option (Result × Wld σ V) :=
  if K.tooLarge value then some (.invalidValue, w)
  else do
    let v ← w.vars[i]?
    match v with
    | .sso s =>
      match ← K.set s tag value with
      | .done s => some (.success, w.setVar i (.sso s))
      | .refuse => some (.invalidValue, w)
      | .dynamic =>
        if ok then
          let size := K.size s
          let items ← K.items s
          if items.length = size then
            let x ← newImpl (alignImpl (implSize (max (size + 1) 4))) items
            let (c, w) := w.alloc 1 x
            setDynamic K ok (w.setVar i c) i tag value true
          else none
        else some (.outOfMemory, w)
    | .dyn a =>
      let b ← w.block? a
      if isValidTag tag = false then some (.invalidValue, w)
      else setDynamic K ok w i tag value (b.rc == 1)

/-- `remove_value`, `fontfeaturesettings.cpp:582-641` / `fontvariationsettings.cpp:459-525`. -/
def removeValue (ok : Bool) (w : Wld σ V) (i : Nat) (tag : UInt32) : Option (Result × Wld σ V) := do
  let v ← w.vars[i]?
  match v with
  | .sso s =>
    let s ← K.remove s tag
    some (.success, w.setVar i (.sso s))
  | .dyn a =>
    let b ← w.block? a
    let items := b.val.items
    let (k, old) ← search items tag
    match old with
    | none => some (.success, w)
    | some _ =>
      if b.rc = 1 then some (.success, w.setVal a { b.val with items := items.eraseIdx k })
      else withImpl ok w i (newImpl (Arr.expand (implSize (items.length - 1))) (items.eraseIdx k))

/-! ### Queries -/

/-- `get_size`, `fontfeaturesettings.cpp:402-410` / `fontvariationsettings.cpp:278-286`. -/
def getSize (w : Wld σ V) (i : Nat) : Option Nat := do
  match ← w.vars[i]? with
  | .sso s => some (K.size s)
  | .dyn a =>
    let b ← w.block? a
    some b.val.items.length

/-- `get_capacity`, `fontfeaturesettings.cpp:412-420` / `fontvariationsettings.cpp:288-296`. -/
def getCapacity (w : Wld σ V) (i : Nat) : Option Nat := do
  match ← w.vars[i]? with
  | .sso _ => some K.cap
  | .dyn a =>
    let b ← w.block? a
    some b.val.capacity

/-- `get_view`, `fontfeaturesettings.cpp:422-450` / `fontvariationsettings.cpp:298-328`.  The buffer of the view has `kSSOCapacity` items. -/
def getView (w : Wld σ V) (i : Nat) : Option (List (Item V)) := do
  match ← w.vars[i]? with
  | .sso s =>
    if K.size s = 0 then some []
    else
      let items ← K.items s
      if K.size s ≤ items.length ∧ items.length ≤ K.cap then some (items.take (K.size s)) else none
  | .dyn a =>
    let b ← w.block? a
    some b.val.items

/-- `has_value`, `fontfeaturesettings.cpp:452-484` / `fontvariationsettings.cpp:330-353`. -/
def hasValue (w : Wld σ V) (i : Nat) (tag : UInt32) : Option Bool := do
  match ← w.vars[i]? with
  | .sso s => K.has s tag
  | .dyn a =>
    let b ← w.block? a
    let (_, old) ← search b.val.items tag
    some old.isSome

/-- `get_value`, `fontfeaturesettings.cpp:486-494` / `fontvariationsettings.cpp:355-386`. -/
def getValue (w : Wld σ V) (i : Nat) (tag : UInt32) : Option V := do
  match ← w.vars[i]? with
  | .sso s => K.get s tag
  | .dyn a =>
    let b ← w.block? a
    let (_, old) ← search b.val.items tag
    some (old.getD K.absent)

/-- `equals`, `fontfeaturesettings.cpp:646-695` / `fontvariationsettings.cpp:530-580`.  `memcmp` of items is equality of their lists. -/
def equals [DecidableEq σ] [DecidableEq V] (w : Wld σ V) (i j : Nat) : Option Bool := do
  let x ← w.vars[i]?
  let y ← w.vars[j]?
  if x = y then some true
  else
    match x, y with
    | .sso _, .sso _ => some false
    | .dyn a, .dyn b =>
      let a ← w.block? a
      let b ← w.block? b
      some (decide (a.val.items = b.val.items))
    | .sso s, .dyn a | .dyn a, .sso s =>
      let b ← w.block? a
      if K.size s ≠ b.val.items.length then some false
      else K.eqItems s b.val.items

end Blend2D.Settings
