import Verif.Fill.Model
import Verif.Pixel.Model
/-!
# Filling of boxes and masks (`blend2d/pipeline/reference/fillgeneric_p.h`, `blend2d/pipeline/pipedefs_p.h`)

A box whose edges are on pixel boundaries is filled with one mask; another box is turned into a small program of mask
commands that is executed once per scanline; a mask image is filled by one mask command.

The pixels of the destination are one list, row after row; `stride` is the number of pixels from row to row and a pointer is
a position in the list.  Composition is that of `Verif/Fill/Model.lean` (its rows with no cells: only the pixels and the
position of the fetcher are used).  Accesses outside of the pixels, the commands or the masks are undefined behaviour,
modelled by `none`, and so is reading a byte of the mask buffer that was not written.
-/
namespace Blend2D.FillMask
open Fill (Comp Row span spanMasked spanOpaque pixelMasked)

variable {P : Type}

/-- `MaskCommand` (`pipedefs_p.h:419-443`): `data` is a constant or an address. -/
structure Cmd where
  x0 : Nat
  x1t : Nat
  data : Int
  adv : Int
  deriving DecidableEq, Repr

/-- `kTypeMask`. -/
def Cmd.type (c : Cmd) : Nat := c.x1t % 8
/-- `kTypeBits`. -/
def Cmd.x1 (c : Cmd) : Nat := c.x1t / 8

/-- `init_cmask_a8`, `init_type_and_span` (`pipedefs_p.h:464-485`); `x1 < 2^29` is asserted. -/
def cmask (x0 x1 m : Nat) : Cmd := ⟨x0, 1 + 8 * x1, m, 0⟩
/-- `init_vmask_a8_with_ga`, `init_vmask_a8_without_ga` (`pipedefs_p.h:476-493`): type 2 or 3. -/
def vmask (type x0 x1 : Nat) (ptr adv : Int) : Cmd := ⟨x0, type + 8 * x1, ptr, adv⟩
/-- `init_end`, `init_repeat` (`pipedefs_p.h:495-501`); `data` and `adv` keep what they were, nothing reads them. -/
def repeats (n : Nat) : Cmd := ⟨n, 0, 0, 0⟩

/-- The mask bytes: `none` is outside, or not written. -/
abbrev Mem := Int → Option Nat

/-- `udiv255(mask * global_alpha)` (`scalar_p.h:34`), 32-bit. -/
def withAlpha (m alpha : Nat) : Nat := (Pixel.udiv255 (UInt32.ofNat m * UInt32.ofNat alpha)).toNat

/-- `compositeVSpanWithGA`, `compositeVSpanWithoutGA` (`compopgeneric_p.h:162-181`) for `n + 1` pixels; `f` is what is done to
the mask byte. -/
def vspan (C : Comp P) (f : Nat → Nat) (mem : Mem) : (n : Nat) → (r : Row P) → (d : Nat) → (ptr : Int) → Option (Row P)
  | 0, r, d, ptr => do
    let m ← mem ptr
    pixelMasked C r d (f m)
  | n + 1, r, d, ptr => do
    let m ← mem ptr
    let r ← pixelMasked C r d (f m)
    vspan C f mem n r (d + 1) (ptr + 1)

/-- The variables of the loop: pixels, `dst_ptr`, `x`, `cmd_ptr`, commands. -/
structure St (P : Type) where
  row : Row P
  d : Nat
  x : Nat
  c : Nat
  cmds : List Cmd

/-- One command for `i` pixels (`fillgeneric_p.h:107-121`); `cmd` is the one before `cmd_ptr`. -/
def one (C : Comp P) (alpha : Nat) (mem : Mem) (cmd : Cmd) (i : Nat) (s : St P) : Option (St P) :=
  if cmd.type = 1 then
    if 0 ≤ cmd.data ∧ cmd.data ≤ 255 then do
      let r ← span C cmd.data.toNat i s.row s.d
      return { s with row := r, d := s.d + i }
    else none
  else
    match i with
    | 0 => none
    | n + 1 => do
      let cmds := s.cmds.set (s.c - 1) { cmd with data := cmd.data + cmd.adv }
      let r ← vspan C (if cmd.type = 3 then fun m => withAlpha m alpha else id) mem n s.row s.d cmd.data
      return { s with row := r, d := s.d + i, cmds := cmds }

/-- The following commands of a scanline (`fillgeneric_p.h:123-141`): note that `dst_ptr` does not move when the next
command starts behind the end of the one before. -/
def rest (C : Comp P) (alpha : Nat) (mem : Mem) : (fuel : Nat) → St P → Option (St P)
  | 0, _ => none
  | fuel + 1, s => do
    let cmd ← s.cmds[s.c]?
    if cmd.type = 0 then return s
    else
      -- `spanAdvanceX(x0, x0 - x)`
      let r := if s.x ≠ cmd.x0 then { s.row with pos := s.row.pos + cmd.x0 - s.x } else s.row
      if cmd.x1 < cmd.x0 then none
      else do
        let s ← one C alpha mem cmd (cmd.x1 - cmd.x0) { s with row := r, x := cmd.x1, c := s.c + 1 }
        rest C alpha mem fuel s

/-- One scanline (`fillgeneric_p.h:86-145`). -/
def line (C : Comp P) (alpha : Nat) (mem : Mem) (s : St P) : Option (St P) := do
  let cmd ← s.cmds[s.c]?
  if cmd.type ≠ 0 then
    if cmd.x1 < cmd.x0 then none
    else do
      let s := { s with row := { s.row with pos := cmd.x0 }, d := s.d + cmd.x0, x := cmd.x1, c := s.c + 1 }
      let s ← one C alpha mem cmd (cmd.x1 - cmd.x0) s
      let s ← rest C alpha mem (s.cmds.length + 1) s
      if s.d < s.x then none else return { s with d := s.d - s.x }
  else return s

/-- `FillMask_Base::fill_func` (`fillgeneric_p.h:66-160`) from a scanline on, `n + 1` scanlines are left; the repeat count is
a 32-bit number. -/
def lines (C : Nat → Comp P) (alpha : Nat) (mem : Mem) (stride : Nat) : (n : Nat) → (y : Nat) → St P → Option (St P)
  | 0, y, s => do
    let s ← line (C y) alpha mem s
    let _ ← s.cmds[s.c]?
    return s
  | n + 1, y, s => do
    let c0 := s.c
    let s ← line (C y) alpha mem s
    let e ← s.cmds[s.c]?
    let k := (e.x0 + (2 ^ 32 - 1)) % 2 ^ 32
    let s := { s with d := s.d + stride, cmds := s.cmds.set s.c { e with x0 := k }, c := if k ≠ 0 then c0 else s.c + 1 }
    lines C alpha mem stride n (y + 1) s

/-- `FillMask_Base::fill_func`: the scanlines from `y0` to `y1`. -/
def fillMask (C : Nat → Comp P) (alpha : Nat) (mem : Mem) (stride y0 y1 : Nat) (cmds : List Cmd) (dst : List P) :
    Option (List P) :=
  match y1 - y0 with
  | 0 => none
  | n + 1 => do
    let s ← lines C alpha mem stride n y0 ⟨⟨[], [], dst, 0⟩, y0 * stride, 0, 0, cmds⟩
    return s.row.dst

/-- `FillBoxA_Base::fill_func` (`fillgeneric_p.h:23-62`), `h` scanlines from `y` on; `d` is `dst_ptr`. -/
def boxLines (C : Nat → Comp P) (m stride x0 w : Nat) : (h : Nat) → (y : Nat) → (d : Nat) → List P → Option (List P)
  | 0, _, _, dst => some dst
  | h + 1, y, d, dst =>
    match w with
    | 0 => none
    | n + 1 => do
      let r : Row P := ⟨[], [], dst, x0⟩
      let r ← if (C y).optimize ∧ m = 255 then spanOpaque (C y) n r d else spanMasked (C y) m n r d
      boxLines C m stride x0 w h (y + 1) (d + stride) r.dst

/-- `FillBoxA_Base::fill_func` with `init_box_a_8bpc` (`pipedefs_p.h:623-636`). -/
def fillBoxA (C : Nat → Comp P) (alpha stride x0 y0 x1 y1 : Nat) (dst : List P) : Option (List P) :=
  boxLines C alpha stride x0 (x1 - x0) (y1 - y0) y0 (y0 * stride + x0) dst

/-! ## Boxes with fractional edges -/

/-- `BoxUToMaskData` (`pipedefs_p.h:505-511`): 12 commands and 96 bytes. -/
structure Bufs where
  cmds : List Cmd
  mem : Mem

/-- An element of `mask_cmd` is set. -/
def Bufs.cmd (b : Bufs) (i : Nat) (c : Cmd) : Option Bufs := if i < 12 then some { b with cmds := b.cmds.set i c } else none

/-- A byte of `mask_data` is set. -/
def Bufs.put (b : Bufs) (i m : Nat) : Option Bufs :=
  if i < 96 then some { b with mem := fun k => if k = i then some (m % 256) else b.mem k } else none

/-- `writeBoxUMaskToMaskBuffer` (`pipedefs_p.h:520-541`): four zeros and 28 times the mask. -/
def Bufs.row (b : Bufs) (at_ m : Nat) : Option Bufs :=
  if at_ + 32 ≤ 96 then
    some { b with mem := fun k => if at_ ≤ k ∧ k < at_ + 4 then some 0 else if at_ + 4 ≤ k ∧ k < at_ + 32 then some (m % 256) else b.mem k }
  else none

/-- The buffers before they are written. -/
def Bufs.new : Bufs := ⟨List.replicate 12 ⟨0, 0, 0, 0⟩, fun _ => none⟩

/-- The result of `init_box_u_8bpc_24x8`: whether there is something to fill, `mask.box.y0`, `mask.box.y1`, the buffers. -/
structure BoxU where
  some : Bool
  y0 : Nat
  y1 : Nat
  bufs : Bufs

/-- Three scanline programs (top, middle, bottom), as `init_box_u_8bpc_24x8` builds them in all of its four cases: `top` and
`bottom` are dropped if their mask is zero, the middle one if there are at most two scanlines.  The commands that are dropped
are written and then overwritten (`mask_cmd += m ? n : 0`), as in the code; `n` is the number of commands of one program with
its end. -/
def programs (b : Bufs) (h n : Nat) (m0 : Nat) (top mid bot : List Cmd) : Option Bufs := do
  let write (b : Bufs) (i : Nat) (l : List Cmd) : Option Bufs :=
    (l.zipIdx).foldlM (fun b p => b.cmd (i + p.2) p.1) b
  let b ← write b 0 (top ++ [repeats 1])
  let i := if m0 ≠ 0 then n else 0
  let b ← write b i (mid ++ [repeats ((h + (2 ^ 32 - 2)) % 2 ^ 32)])
  let i := i + if h > 2 then n else 0
  write b i (bot ++ [repeats 1])

/-- `init_box_u_8bpc_24x8`, a box that is one pixel wide (`pipedefs_p.h:682-712`); `fx` is `fx1 - fx0`. -/
def boxNarrow (alpha ax0 ax1 ay0 h fx fy0a fy1a : Nat) : Option BoxU := do
  let m0 := fx * fy0a / 2 ^ 16
  let b ← Bufs.new.cmd 0 (cmask ax0 ax1 m0)
  let b ← b.cmd 1 (repeats 1)
  if h = 1 then return ⟨m0 ≠ 0, ay0, ay0 + h, b⟩
  else
    let m1 := fx * alpha / 2 ^ 8
    let m2 := fx * fy1a / 2 ^ 16
    -- the two commands above are the first ones of the three programs
    let b ← programs b h 2 m0 [cmask ax0 ax1 m0] [cmask ax0 ax1 m1] [cmask ax0 ax1 m2]
    let y0 := ay0 + if m0 = 0 then 1 else 0
    let y1 := ay0 + h - if m2 = 0 then 1 else 0
    return ⟨y0 < y1 ∧ m1 ≠ 0, y0, y1, b⟩

/-- `init_box_u_8bpc_24x8`, no fractions in horizontal direction (`pipedefs_p.h:714-738`). -/
def boxEven (alpha ax0 ax1 ay0 h fy0a fy1a : Nat) : Option BoxU := do
  let m0x1 := fy0a / 2 ^ 8
  let m2x1 := fy1a / 2 ^ 8
  let y0 := ay0 + if m0x1 = 0 then 1 else 0
  let y1 := ay0 + h - if m2x1 = 0 then 1 else 0
  let b ← programs Bufs.new h 2 m0x1 [cmask ax0 ax1 m0x1] [cmask ax0 ax1 alpha] [cmask ax0 ax1 m2x1]
  return ⟨y0 < y1, y0, y1, b⟩

/-- `init_box_u_8bpc_24x8`, the mask rows (`pipedefs_p.h:740-757`) without their last bytes. -/
def maskRows (alpha fx0 fy0a fy1a : Nat) : Option Bufs := do
  let b ← Bufs.new.row 0 (fy0a / 2 ^ 8)
  let b ← b.put 4 (fx0 * fy0a / 2 ^ 16)
  let b ← b.row 32 alpha
  let b ← b.put 36 (fx0 * alpha / 2 ^ 8)
  let b ← b.row 64 (fy1a / 2 ^ 8)
  b.put 68 (fx0 * fy1a / 2 ^ 16)

/-- The bytes at `at_`, `at_ + 32` and `at_ + 64`. -/
def lastMasks (b : Bufs) (at_ alpha fx1 fy0a fy1a : Nat) : Option Bufs := do
  let b ← b.put (at_ + 0) (fx1 * fy0a / 2 ^ 16)
  let b ← b.put (at_ + 32) (fx1 * alpha / 2 ^ 8)
  b.put (at_ + 64) (fx1 * fy1a / 2 ^ 16)

/-- `init_box_u_8bpc_24x8`, the general case (`pipedefs_p.h:714-816`). -/
def boxMasks (alpha ax0 ax1 ay0 h fx0 fx1 fy0a fy1a : Nat) : Option BoxU := do
  let w := ax1 - ax0
  let m0x1 := fy0a / 2 ^ 8
  let m2x1 := fy1a / 2 ^ 8
  let y0 := ay0 + if m0x1 = 0 then 1 else 0
  let y1 := ay0 + h - if m2x1 = 0 then 1 else 0
  let b ← maskRows alpha fx0 fy0a fy1a
  -- `align_up_diff(w, 4)`
  let wAlign := (4 - w % 4) % 4
  let wAlign := if wAlign > ax0 then 0 else wAlign
  let ax0 := ax0 - wAlign
  let w := w + wAlign
  let p := 4 - wAlign
  if w ≤ 20 then
    let b ← lastMasks b (p + w - 1) alpha fx1 fy0a fy1a
    let v (k : Nat) := [vmask 2 ax0 ax1 (p + k : Nat) 0]
    let b ← programs b h 2 m0x1 (v 0) (v 32) (v 64)
    return ⟨y0 < y1, y0, y1, b⟩
  else
    let inner := (w - 5) / 8 * 8
    let innerEnd := ax0 + 4 + inner
    let tail := ax1 - innerEnd
    let b ← lastMasks b (p + 15) alpha fx1 fy0a fy1a
    let v (k m : Nat) := [vmask 2 ax0 (ax0 + 4) (p + k : Nat) 0, cmask (ax0 + 4) innerEnd m,
      vmask 2 innerEnd ax1 (p + 16 - tail + k : Nat) 0]
    let b ← programs b h 4 m0x1 (v 0 m0x1) (v 32 alpha) (v 64 m2x1)
    return ⟨y0 < y1, y0, y1, b⟩

/-- `init_box_u_8bpc_24x8` (`pipedefs_p.h:648-815`); the arguments are not negative; numbers that are less than `2^32` in the
code are not reduced. -/
def initBoxU (alpha x0 y0 x1 y1 : Nat) : Option BoxU :=
  let ax0 := x0 / 256
  let ay0 := y0 / 256
  let ax1 := (x1 + 255) / 256
  let ay1 := (y1 + 255) / 256
  let fx0 := x0 % 256
  let fy0 := y0 % 256
  let fx1 := (x1 - 1) % 256 + 1
  let fy1 := (y1 - 1) % 256 + 1
  let w := ax1 - ax0
  let h := ay1 - ay0
  let fy0 := (if h = 1 then fy1 else 256) - fy0
  let fy0a := fy0 * alpha
  let fy1a := fy1 * alpha
  if w = 1 then boxNarrow alpha ax0 ax1 ay0 h (fx1 - fx0) fy0a fy1a
  else if (256 - fx0) &&& fx1 = 256 then boxEven alpha ax0 ax1 ay0 h fy0a fy1a
  else boxMasks alpha ax0 ax1 ay0 h (256 - fx0) fx1 fy0a fy1a

/-- `CommandProcSync::fill_box_u` (`rendercommandprocsync_p.h:45-63`); `mask.alpha` is 255. -/
def fillBoxU (C : Nat → Comp P) (alpha stride x0 y0 x1 y1 : Nat) (dst : List P) : Option (List P) := do
  let b ← initBoxU alpha x0 y0 x1 y1
  if b.some then fillMask C 255 b.bufs.mem stride b.y0 b.y1 b.bufs.cmds dst else return dst

/-- `isBoxAligned24x8`. -/
def aligned (x0 y0 x1 y1 : Nat) : Bool := (x0 ||| y0 ||| x1 ||| y1) % 256 = 0

/-- `fill_clipped_box_f<kSync>` (`rastercontext.cpp:2690-2695`): coordinates in 1/256 of pixels. -/
def fillBox (C : Nat → Comp P) (alpha stride x0 y0 x1 y1 : Nat) (dst : List P) : Option (List P) :=
  if aligned x0 y0 x1 y1 then fillBoxA C alpha stride (x0 / 256) (y0 / 256) (x1 / 256) (y1 / 256) dst
  else fillBoxU C alpha stride x0 y0 x1 y1 dst

/-- `CommandProcAsync::fill_box_a`, `fill_box_u` (`rendercommandprocasync_p.h:153-199`) in the band of the scanlines from `b0`
to `b1`; the kind of the command was chosen by the whole box (`rastercontext.cpp:2698-2715`). -/
def fillBoxBand (C : Nat → Comp P) (alpha stride x0 y0 x1 y1 b0 b1 : Nat) (dst : List P) : Option (List P) :=
  if aligned x0 y0 x1 y1 then
    if max (y0 / 256) b0 < min (y1 / 256) b1 then
      fillBoxA C alpha stride (x0 / 256) (max (y0 / 256) b0) (x1 / 256) (min (y1 / 256) b1) dst
    else some dst
  else
    if max y0 (b0 * 256) < min y1 (b1 * 256) then
      fillBoxU C alpha stride x0 (max y0 (b0 * 256)) x1 (min y1 (b1 * 256)) dst
    else some dst

/-! ## Mask images -/

/-- A mask image: its bytes (address to byte), the address of its first pixel and the distance of its rows; 8 bits per
pixel. -/
structure Mask where
  mem : Mem
  base : Int
  stride : Int

/-- `CommandProcSync::fill_box_masked_a` (`rendercommandprocsync_p.h:65-85`): the pixel (`mx`, `my`) of the mask is put at the
top left of the box. -/
def fillMaskSync (C : Nat → Comp P) (alpha stride : Nat) (M : Mask) (mx my x0 y0 x1 y1 : Nat) (dst : List P) : Option (List P) :=
  fillMask C alpha M.mem stride y0 y1
    [vmask (if alpha ≥ 255 then 2 else 3) x0 x1 (M.base + M.stride * my + mx) M.stride, repeats 0xFFFFFFFF] dst

/-- `CommandProcAsync::fillBoxMaskA` (`rendercommandprocasync_p.h:201-236`) in the band of the scanlines from `b0` to `b1`. -/
def fillMaskBand (C : Nat → Comp P) (alpha stride : Nat) (M : Mask) (mx my x0 y0 x1 y1 b0 b1 : Nat) (dst : List P) :
    Option (List P) :=
  if max y0 b0 < min y1 b1 then
    fillMask C alpha M.mem stride (max y0 b0) (min y1 b1)
      [vmask (if alpha ≥ 255 then 3 else 2) x0 x1 (M.base + M.stride * ((my + (max y0 b0 - y0) : Nat) : Int) + mx) M.stride,
       repeats 0xFFFFFFFF] dst
  else some dst

end Blend2D.FillMask
