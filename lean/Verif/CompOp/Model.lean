/-!
# Composition operator simplification

`CompOpSimplifyInfoImpl` (blend2d/core/compopsimplifyimpl_p.h) and the packed records it fills
(blend2d/core/compopinfo_p.h).
-/

namespace Blend2D.CompOp

/-- `CompOpExt`, blend2d/core/compop_p.h:19-54. The constructors are in the order of their values, `srcOver = 0`,
..., `alphaInv = 29`. -/
inductive Op where
  | srcOver
  | srcCopy
  | srcIn
  | srcOut
  | srcAtop
  | dstOver
  | dstCopy
  | dstIn
  | dstOut
  | dstAtop
  | xor
  | clear
  | plus
  | minus
  | modulate
  | multiply
  | screen
  | overlay
  | darken
  | lighten
  | colorDodge
  | colorBurn
  | linearBurn
  | linearLight
  | pinLight
  | hardLight
  | softLight
  | difference
  | exclusion
  | alphaInv
  deriving DecidableEq, Repr

/-- `FormatExt`, blend2d/core/format_p.h:20-45, values 0 to 5. Simplified: the 64-bit formats (6 to 8), which no public
image format or style produces, are left out. -/
inductive Fmt where
  | none
  | prgb32
  | xrgb32
  | a8
  | frgb32
  | zero32
  deriving DecidableEq, Repr

/-- `CompOpSolidId`, blend2d/core/compop_p.h:99-118. -/
inductive SolidId where
  | none
  | transparent
  | opaqueBlack
  | opaqueWhite
  | alwaysNop
  deriving DecidableEq, Repr

/-- The decomposed content of `CompOpSimplifyInfo`, blend2d/core/compopinfo_p.h:40-101 (see `pack` for the packing). -/
structure Info where
  op : Op
  dst : Fmt
  src : Fmt
  solid : SolidId
  deriving DecidableEq, Repr

/-- `CompOpSimplifyInfo::make`, compopinfo_p.h:84-91, before packing. -/
def make (op : Op) (d s : Fmt) (solid : SolidId) : Info := ⟨op, d, s, solid⟩

/-- The packed form made by `CompOpSimplifyInfo::make`, compopinfo_p.h:84-91: shifts 8, 0, 4 (`Pipeline::Signature`
masks, pipeline/pipedefs_p.h:245-247) and 16 (`kSolidIdShift`). The arguments are the values of the enumerations. -/
def pack (op d s solid : Nat) : Nat := (op <<< 8 ||| d <<< 0 ||| s <<< 4 ||| solid <<< 16) % 2 ^ 32

/-- `comp_op`, compopinfo_p.h:68. -/
def unpackOp (data : Nat) : Nat := (data &&& 0x3F00) >>> 8
/-- `dst_format`, compopinfo_p.h:70. -/
def unpackDst (data : Nat) : Nat := (data &&& 0xF) >>> 0
/-- `src_format`, compopinfo_p.h:72. -/
def unpackSrc (data : Nat) : Nat := (data &&& 0xF0) >>> 4
/-- `solid_id`, compopinfo_p.h:75. -/
def unpackSolid (data : Nat) : Nat := data >>> 16

/-- `CompOpSimplifyInfoImpl::simplify`, compopsimplifyimpl_p.h:79-1136. One clause per operator; the functions call each
other, so the recursion is bounded by `fuel` and running out of it is `none` (the C++ compiler rejects a table whose
generation does not end). `make_op`, `transparent`, `opaque_black`, `opaque_white`, `opaque_alpha` and `alpha_inv`
(lines 42-66) are replaced by the `make` they call. -/
def simplifyFuel : Nat → Op → Fmt → Fmt → Option Info
  | 0, _, _, _ => none
  -- lines 79-85
  | _ + 1, .clear, d, s =>
    if d = .prgb32 then some (make .srcCopy .prgb32 .prgb32 .transparent)
    else if d = .xrgb32 then some (make .srcCopy .prgb32 .prgb32 .opaqueBlack)
    else if d = .a8 then some (make .srcCopy .a8 .prgb32 .transparent)
    else some (make .clear d s .none)
  -- lines 103-117
  | fuel + 1, .srcCopy, d, s =>
    if d = .prgb32 ∧ s = .zero32 then some (make .srcCopy .prgb32 .prgb32 .none)
    else if d = .prgb32 ∧ s = .frgb32 then some (make .srcCopy .prgb32 .prgb32 .none)
    else if d = .xrgb32 ∧ s = .prgb32 then some (make .srcCopy .prgb32 .xrgb32 .none)
    else if d = .xrgb32 ∧ s = .zero32 then some (make .srcCopy .prgb32 .xrgb32 .none)
    else if d = .xrgb32 ∧ s = .xrgb32 then some (make .srcCopy .prgb32 .xrgb32 .none)
    else if d = .xrgb32 ∧ s = .frgb32 then some (make .srcCopy .prgb32 .prgb32 .none)
    else if d = .a8 ∧ s = .zero32 then simplifyFuel fuel .clear .a8 .zero32
    else if d = .a8 ∧ s = .xrgb32 then some (make .srcCopy d .prgb32 .opaqueWhite)
    else if d = .a8 ∧ s = .frgb32 then some (make .srcCopy d .prgb32 .opaqueWhite)
    else some (make .srcCopy d s .none)
  -- lines 147-162
  | fuel + 1, .srcOver, d, s =>
    if d = .prgb32 ∧ s = .zero32 then simplifyFuel fuel .dstCopy .prgb32 .prgb32
    else if d = .prgb32 ∧ s = .xrgb32 then simplifyFuel fuel .srcCopy .prgb32 .xrgb32
    else if d = .prgb32 ∧ s = .frgb32 then simplifyFuel fuel .srcCopy .prgb32 .frgb32
    else if d = .xrgb32 ∧ s = .prgb32 then simplifyFuel fuel .srcOver .prgb32 .prgb32
    else if d = .xrgb32 ∧ s = .zero32 then simplifyFuel fuel .dstCopy .prgb32 .prgb32
    else if d = .xrgb32 ∧ s = .xrgb32 then simplifyFuel fuel .srcCopy .prgb32 .xrgb32
    else if d = .xrgb32 ∧ s = .frgb32 then simplifyFuel fuel .srcCopy .prgb32 .frgb32
    else if d = .a8 ∧ s = .zero32 then simplifyFuel fuel .dstCopy .a8 .prgb32
    else if d = .a8 ∧ s = .xrgb32 then simplifyFuel fuel .srcCopy .a8 .xrgb32
    else if d = .a8 ∧ s = .frgb32 then simplifyFuel fuel .srcCopy .a8 .frgb32
    else some (make .srcOver d s .none)
  -- lines 180-189
  | fuel + 1, .dstOver, d, s =>
    if d = .prgb32 ∧ s = .zero32 then simplifyFuel fuel .dstCopy .prgb32 .prgb32
    else if d = .prgb32 ∧ s = .frgb32 then simplifyFuel fuel .dstOver .prgb32 .prgb32
    else if d = .xrgb32 then simplifyFuel fuel .dstCopy d s
    else if d = .a8 then simplifyFuel fuel .srcOver d s
    else some (make .dstOver d s .none)
  -- lines 207-218
  | fuel + 1, .srcIn, d, s =>
    if d = .prgb32 ∧ s = .zero32 then simplifyFuel fuel .srcIn .prgb32 .prgb32
    else if d = .prgb32 ∧ s = .frgb32 then simplifyFuel fuel .srcIn .prgb32 .prgb32
    else if d = .xrgb32 then simplifyFuel fuel .srcCopy d s
    else if d = .a8 ∧ s = .zero32 then simplifyFuel fuel .clear d s
    else if d = .a8 ∧ s = .xrgb32 then simplifyFuel fuel .dstCopy d s
    else if d = .a8 ∧ s = .frgb32 then simplifyFuel fuel .dstCopy d s
    else some (make .srcIn d s .none)
  -- lines 236-249
  | fuel + 1, .dstIn, d, s =>
    if d = .prgb32 ∧ s = .zero32 then simplifyFuel fuel .srcCopy d s
    else if d = .prgb32 ∧ s = .xrgb32 then simplifyFuel fuel .dstCopy d s
    else if d = .prgb32 ∧ s = .frgb32 then simplifyFuel fuel .dstCopy d s
    else if d = .xrgb32 ∧ s = .prgb32 then simplifyFuel fuel .dstIn .prgb32 .prgb32
    else if d = .xrgb32 ∧ s = .zero32 then simplifyFuel fuel .dstIn .prgb32 .frgb32
    else if d = .xrgb32 ∧ s = .xrgb32 then simplifyFuel fuel .dstCopy d s
    else if d = .xrgb32 ∧ s = .frgb32 then simplifyFuel fuel .dstCopy d s
    else if d = .a8 then simplifyFuel fuel .srcIn d s
    else some (make .dstIn d s .none)
  -- lines 267-278
  | fuel + 1, .srcOut, d, s =>
    if d = .prgb32 ∧ s = .zero32 then simplifyFuel fuel .clear d s
    else if d = .prgb32 ∧ s = .frgb32 then simplifyFuel fuel .srcOut .prgb32 .prgb32
    else if d = .xrgb32 then simplifyFuel fuel .clear d s
    else if d = .a8 ∧ s = .zero32 then simplifyFuel fuel .clear d s
    else if d = .a8 ∧ s = .xrgb32 then some (make .alphaInv d .xrgb32 .opaqueWhite)
    else if d = .a8 ∧ s = .frgb32 then some (make .alphaInv d .xrgb32 .opaqueWhite)
    else some (make .srcOut d s .none)
  -- lines 296-310
  | fuel + 1, .dstOut, d, s =>
    if d = .prgb32 ∧ s = .zero32 then simplifyFuel fuel .dstCopy d s
    else if d = .prgb32 ∧ s = .xrgb32 then simplifyFuel fuel .clear d s
    else if d = .prgb32 ∧ s = .frgb32 then simplifyFuel fuel .clear d s
    else if d = .xrgb32 ∧ s = .zero32 then simplifyFuel fuel .dstCopy d s
    else if d = .xrgb32 ∧ s = .xrgb32 then simplifyFuel fuel .clear d s
    else if d = .xrgb32 ∧ s = .frgb32 then simplifyFuel fuel .clear d s
    else if d = .a8 ∧ s = .zero32 then simplifyFuel fuel .dstCopy d s
    else if d = .a8 ∧ s = .xrgb32 then simplifyFuel fuel .clear d s
    else if d = .a8 ∧ s = .frgb32 then simplifyFuel fuel .clear d s
    else some (make .dstOut d s .none)
  -- lines 328-341
  | fuel + 1, .srcAtop, d, s =>
    if d = .prgb32 ∧ s = .zero32 then simplifyFuel fuel .dstCopy d s
    else if d = .prgb32 ∧ s = .xrgb32 then simplifyFuel fuel .srcIn d s
    else if d = .prgb32 ∧ s = .frgb32 then simplifyFuel fuel .srcIn d s
    else if d = .xrgb32 ∧ s = .prgb32 then simplifyFuel fuel .srcOver d s
    else if d = .xrgb32 ∧ s = .zero32 then simplifyFuel fuel .srcOver d s
    else if d = .xrgb32 ∧ s = .xrgb32 then simplifyFuel fuel .srcCopy d s
    else if d = .xrgb32 ∧ s = .frgb32 then simplifyFuel fuel .srcCopy d s
    else if d = .a8 then simplifyFuel fuel .dstCopy d s
    else some (make .srcAtop d s .none)
  -- lines 359-372
  | fuel + 1, .dstAtop, d, s =>
    if d = .prgb32 ∧ s = .zero32 then simplifyFuel fuel .clear d s
    else if d = .prgb32 ∧ s = .xrgb32 then simplifyFuel fuel .dstOver d s
    else if d = .prgb32 ∧ s = .frgb32 then simplifyFuel fuel .dstOver d s
    else if d = .xrgb32 ∧ s = .prgb32 then simplifyFuel fuel .dstIn d s
    else if d = .xrgb32 ∧ s = .zero32 then simplifyFuel fuel .clear d s
    else if d = .xrgb32 ∧ s = .xrgb32 then simplifyFuel fuel .dstCopy d s
    else if d = .xrgb32 ∧ s = .frgb32 then simplifyFuel fuel .dstCopy d s
    else if d = .a8 then simplifyFuel fuel .srcCopy d s
    else some (make .dstAtop d s .none)
  -- lines 390-405
  | fuel + 1, .xor, d, s =>
    if d = .prgb32 ∧ s = .zero32 then simplifyFuel fuel .dstCopy d s
    else if d = .prgb32 ∧ s = .xrgb32 then simplifyFuel fuel .srcOut d s
    else if d = .prgb32 ∧ s = .frgb32 then simplifyFuel fuel .srcOut d s
    else if d = .xrgb32 ∧ s = .prgb32 then simplifyFuel fuel .dstOut d s
    else if d = .xrgb32 ∧ s = .zero32 then simplifyFuel fuel .dstCopy d s
    else if d = .xrgb32 ∧ s = .xrgb32 then simplifyFuel fuel .clear d s
    else if d = .xrgb32 ∧ s = .frgb32 then simplifyFuel fuel .clear d s
    else if d = .a8 ∧ s = .zero32 then simplifyFuel fuel .dstCopy d s
    else if d = .a8 ∧ s = .xrgb32 then some (make .alphaInv d .xrgb32 .opaqueWhite)
    else if d = .a8 ∧ s = .frgb32 then some (make .alphaInv d .xrgb32 .opaqueWhite)
    else some (make .xor d s .none)
  -- lines 423-437
  | fuel + 1, .plus, d, s =>
    if d = .prgb32 ∧ s = .zero32 then simplifyFuel fuel .dstCopy d s
    else if d = .prgb32 ∧ s = .frgb32 then simplifyFuel fuel .plus .prgb32 .prgb32
    else if d = .xrgb32 ∧ s = .prgb32 then simplifyFuel fuel .plus .prgb32 .prgb32
    else if d = .xrgb32 ∧ s = .zero32 then simplifyFuel fuel .dstCopy d s
    else if d = .xrgb32 ∧ s = .xrgb32 then simplifyFuel fuel .plus .prgb32 .prgb32
    else if d = .xrgb32 ∧ s = .frgb32 then simplifyFuel fuel .plus .prgb32 .prgb32
    else if d = .a8 ∧ s = .zero32 then simplifyFuel fuel .dstCopy d s
    else if d = .a8 ∧ s = .xrgb32 then some (make .plus d .prgb32 .opaqueWhite)
    else if d = .a8 ∧ s = .frgb32 then some (make .plus d .prgb32 .opaqueWhite)
    else some (make .plus d s .none)
  -- lines 458-470
  | fuel + 1, .minus, d, s =>
    if d = .prgb32 ∧ s = .zero32 then simplifyFuel fuel .dstCopy d s
    else if d = .prgb32 ∧ s = .frgb32 then simplifyFuel fuel .minus .prgb32 .prgb32
    else if d = .xrgb32 ∧ s = .prgb32 then simplifyFuel fuel .minus .prgb32 .prgb32
    else if d = .xrgb32 ∧ s = .zero32 then simplifyFuel fuel .dstCopy d s
    else if d = .xrgb32 ∧ s = .frgb32 then simplifyFuel fuel .minus .prgb32 .prgb32
    else if d = .xrgb32 ∧ s = .xrgb32 then simplifyFuel fuel .minus .prgb32 .prgb32
    else if d = .a8 then simplifyFuel fuel .srcOver d s
    else some (make .minus d s .none)
  -- lines 496-507
  | fuel + 1, .modulate, d, s =>
    if d = .prgb32 ∧ s = .zero32 then some (make .srcCopy .prgb32 .prgb32 .transparent)
    else if d = .prgb32 ∧ s = .frgb32 then simplifyFuel fuel .modulate .prgb32 .prgb32
    else if d = .xrgb32 ∧ s = .zero32 then some (make .srcCopy .prgb32 .prgb32 .opaqueBlack)
    else if d = .xrgb32 ∧ s = .frgb32 then simplifyFuel fuel .modulate .xrgb32 .prgb32
    else if d = .xrgb32 ∧ s = .xrgb32 then simplifyFuel fuel .modulate .xrgb32 .prgb32
    else if d = .a8 ∨ s = .a8 then simplifyFuel fuel .dstIn d s
    else some (make .modulate d s .none)
  -- lines 533-544
  | fuel + 1, .multiply, d, s =>
    if d = .prgb32 ∧ s = .zero32 then simplifyFuel fuel .dstCopy d s
    else if d = .prgb32 ∧ s = .frgb32 then simplifyFuel fuel .multiply .prgb32 .xrgb32
    else if d = .xrgb32 ∧ s = .zero32 then simplifyFuel fuel .dstCopy d s
    else if d = .xrgb32 ∧ s = .frgb32 then simplifyFuel fuel .modulate .xrgb32 .xrgb32
    else if d = .xrgb32 ∧ s = .xrgb32 then simplifyFuel fuel .modulate .xrgb32 .xrgb32
    else if d = .a8 ∨ s = .a8 then simplifyFuel fuel .dstOver d s
    else some (make .multiply d s .none)
  -- lines 571-583
  | fuel + 1, .screen, d, s =>
    if d = .prgb32 ∧ s = .zero32 then simplifyFuel fuel .dstCopy d s
    else if d = .prgb32 ∧ s = .frgb32 then simplifyFuel fuel .screen .prgb32 .prgb32
    else if d = .xrgb32 ∧ s = .prgb32 then simplifyFuel fuel .screen .prgb32 .prgb32
    else if d = .xrgb32 ∧ s = .zero32 then simplifyFuel fuel .dstCopy d s
    else if d = .xrgb32 ∧ s = .frgb32 then simplifyFuel fuel .screen .prgb32 .prgb32
    else if d = .xrgb32 ∧ s = .xrgb32 then simplifyFuel fuel .screen .prgb32 .xrgb32
    else if d = .a8 ∨ s = .a8 then simplifyFuel fuel .srcOver d s
    else some (make .screen d s .none)
  -- lines 615-625
  | fuel + 1, .overlay, d, s =>
    if d = .prgb32 ∧ s = .zero32 then simplifyFuel fuel .dstCopy d s
    else if d = .prgb32 ∧ s = .frgb32 then simplifyFuel fuel .overlay .prgb32 .xrgb32
    else if d = .xrgb32 ∧ s = .zero32 then simplifyFuel fuel .dstCopy d s
    else if d = .xrgb32 ∧ s = .frgb32 then simplifyFuel fuel .overlay .xrgb32 .xrgb32
    else if d = .a8 then simplifyFuel fuel .srcOver d s
    else some (make .overlay d s .none)
  -- lines 655-665
  | fuel + 1, .darken, d, s =>
    if d = .prgb32 ∧ s = .zero32 then simplifyFuel fuel .dstCopy d s
    else if d = .prgb32 ∧ s = .frgb32 then simplifyFuel fuel .darken .prgb32 .xrgb32
    else if d = .xrgb32 ∧ s = .zero32 then simplifyFuel fuel .dstCopy d s
    else if d = .xrgb32 ∧ s = .frgb32 then simplifyFuel fuel .darken .xrgb32 .xrgb32
    else if d = .a8 ∨ s = .a8 then simplifyFuel fuel .dstOver d s
    else some (make .darken d s .none)
  -- lines 695-705
  | fuel + 1, .lighten, d, s =>
    if d = .prgb32 ∧ s = .zero32 then simplifyFuel fuel .dstCopy d s
    else if d = .prgb32 ∧ s = .frgb32 then simplifyFuel fuel .lighten .prgb32 .xrgb32
    else if d = .xrgb32 ∧ s = .zero32 then simplifyFuel fuel .dstCopy d s
    else if d = .xrgb32 ∧ s = .frgb32 then simplifyFuel fuel .lighten .xrgb32 .xrgb32
    else if d = .a8 ∨ s = .a8 then simplifyFuel fuel .srcOver d s
    else some (make .lighten d s .none)
  -- lines 731-741
  | fuel + 1, .colorDodge, d, s =>
    if d = .prgb32 ∧ s = .zero32 then simplifyFuel fuel .dstCopy d s
    else if d = .prgb32 ∧ s = .frgb32 then simplifyFuel fuel .colorDodge .prgb32 .prgb32
    else if d = .xrgb32 ∧ s = .zero32 then simplifyFuel fuel .dstCopy d s
    else if d = .xrgb32 ∧ s = .frgb32 then simplifyFuel fuel .colorDodge .xrgb32 .xrgb32
    else if d = .a8 ∨ s = .a8 then simplifyFuel fuel .srcOver d s
    else some (make .colorDodge d s .none)
  -- lines 767-777
  | fuel + 1, .colorBurn, d, s =>
    if d = .prgb32 ∧ s = .zero32 then simplifyFuel fuel .dstCopy d s
    else if d = .prgb32 ∧ s = .frgb32 then simplifyFuel fuel .colorBurn .prgb32 .xrgb32
    else if d = .xrgb32 ∧ s = .zero32 then simplifyFuel fuel .dstCopy d s
    else if d = .xrgb32 ∧ s = .frgb32 then simplifyFuel fuel .colorBurn .xrgb32 .xrgb32
    else if d = .a8 ∨ s = .a8 then simplifyFuel fuel .dstOver d s
    else some (make .colorBurn d s .none)
  -- lines 803-813
  | fuel + 1, .linearBurn, d, s =>
    if d = .prgb32 ∧ s = .zero32 then simplifyFuel fuel .dstCopy d s
    else if d = .prgb32 ∧ s = .frgb32 then simplifyFuel fuel .linearBurn .prgb32 .xrgb32
    else if d = .xrgb32 ∧ s = .zero32 then simplifyFuel fuel .dstCopy d s
    else if d = .xrgb32 ∧ s = .frgb32 then simplifyFuel fuel .linearBurn .xrgb32 .xrgb32
    else if d = .a8 ∨ s = .a8 then simplifyFuel fuel .dstOver d s
    else some (make .linearBurn d s .none)
  -- lines 839-849
  | fuel + 1, .linearLight, d, s =>
    if d = .prgb32 ∧ s = .zero32 then simplifyFuel fuel .dstCopy d s
    else if d = .prgb32 ∧ s = .frgb32 then simplifyFuel fuel .linearLight .prgb32 .xrgb32
    else if d = .xrgb32 ∧ s = .zero32 then simplifyFuel fuel .dstCopy d s
    else if d = .xrgb32 ∧ s = .frgb32 then simplifyFuel fuel .linearLight .xrgb32 .xrgb32
    else if d = .a8 ∨ s = .a8 then simplifyFuel fuel .srcOver d s
    else some (make .linearLight d s .none)
  -- lines 905-915
  | fuel + 1, .pinLight, d, s =>
    if d = .prgb32 ∧ s = .zero32 then simplifyFuel fuel .dstCopy d s
    else if d = .prgb32 ∧ s = .frgb32 then simplifyFuel fuel .pinLight .prgb32 .xrgb32
    else if d = .xrgb32 ∧ s = .zero32 then simplifyFuel fuel .dstCopy d s
    else if d = .xrgb32 ∧ s = .frgb32 then simplifyFuel fuel .pinLight .xrgb32 .xrgb32
    else if d = .a8 ∨ s = .a8 then simplifyFuel fuel .srcOver d s
    else some (make .pinLight d s .none)
  -- lines 971-981
  | fuel + 1, .hardLight, d, s =>
    if d = .prgb32 ∧ s = .zero32 then simplifyFuel fuel .dstCopy d s
    else if d = .prgb32 ∧ s = .frgb32 then simplifyFuel fuel .hardLight .prgb32 .xrgb32
    else if d = .xrgb32 ∧ s = .zero32 then simplifyFuel fuel .dstCopy d s
    else if d = .xrgb32 ∧ s = .frgb32 then simplifyFuel fuel .hardLight .xrgb32 .xrgb32
    else if d = .a8 ∨ s = .a8 then simplifyFuel fuel .srcOver d s
    else some (make .hardLight d s .none)
  -- lines 1005-1015
  | fuel + 1, .softLight, d, s =>
    if d = .prgb32 ∧ s = .zero32 then simplifyFuel fuel .dstCopy d s
    else if d = .prgb32 ∧ s = .frgb32 then simplifyFuel fuel .softLight .prgb32 .xrgb32
    else if d = .xrgb32 ∧ s = .zero32 then simplifyFuel fuel .dstCopy d s
    else if d = .xrgb32 ∧ s = .frgb32 then simplifyFuel fuel .softLight .xrgb32 .xrgb32
    else if d = .a8 then simplifyFuel fuel .srcOver d s
    else some (make .softLight d s .none)
  -- lines 1041-1051
  | fuel + 1, .difference, d, s =>
    if d = .prgb32 ∧ s = .zero32 then simplifyFuel fuel .dstCopy d s
    else if d = .prgb32 ∧ s = .frgb32 then simplifyFuel fuel .difference .prgb32 .prgb32
    else if d = .xrgb32 ∧ s = .zero32 then simplifyFuel fuel .dstCopy d s
    else if d = .xrgb32 ∧ s = .frgb32 then simplifyFuel fuel .difference .xrgb32 .prgb32
    else if d = .a8 then simplifyFuel fuel .srcOver d s
    else some (make .difference d s .none)
  -- lines 1077-1087
  | fuel + 1, .exclusion, d, s =>
    if d = .prgb32 ∧ s = .zero32 then simplifyFuel fuel .dstCopy d s
    else if d = .prgb32 ∧ s = .frgb32 then simplifyFuel fuel .exclusion .prgb32 .prgb32
    else if d = .xrgb32 ∧ s = .zero32 then simplifyFuel fuel .dstCopy d s
    else if d = .xrgb32 ∧ s = .frgb32 then simplifyFuel fuel .exclusion .xrgb32 .prgb32
    else if d = .a8 then simplifyFuel fuel .srcOver d s
    else some (make .exclusion d s .none)
  -- `CompOpSimplifyInfo::dst_copy`, lines 126-128 and compopinfo_p.h:95-97
  | _ + 1, .dstCopy, _, _ => some (make .dstCopy .none .none .alwaysNop)
  -- lines 64-66
  | _ + 1, .alphaInv, d, s => some (make .alphaInv d s .opaqueWhite)

/-- The entry of `comp_op_simplify_info_table` (compopinfo.cpp:64-103). -/
def simplify (op : Op) (d s : Fmt) : Option Info := simplifyFuel 8 op d s

end Blend2D.CompOp
