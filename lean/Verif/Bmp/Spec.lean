import Verif.Bmp.Model
import Verif.PixConv.Indexed

/-!
# What a bitmap file means
-/
namespace Blend2D.Bmp.Spec

/-! ## Run-length encoding -/

/-- The codes of a run-length encoded image. -/
inductive Code where
  /-- `n` pixels of one index, or of two alternating ones of four bits -/
  | fill (n : Nat) (b : UInt8)
  /-- some pixels -/
  | run (l : List Nat)
  /-- end of the row -/
  | line
  /-- skip pixels and rows -/
  | move (dx dy : Nat)

/-- Indexes of eight bits. -/
def bytes8 (l : List Nat) : List UInt8 := l.map UInt8.ofNat

/-- Indexes of four bits, the first one in the upper half of a byte. -/
def bytes4 : List Nat → List UInt8
  | [] => []
  | [a] => [UInt8.ofNat (16 * a)]
  | a :: b :: l => UInt8.ofNat (16 * a + b) :: bytes4 l

/-- A run occupies an even number of bytes. -/
def padded (l : List UInt8) : List UInt8 := if l.length % 2 = 0 then l else l ++ [0]

/-- The bytes of a code. -/
def Code.bytes (four : Bool) : Code → List UInt8
  | .fill n b => [UInt8.ofNat n, b]
  | .run l => [0, UInt8.ofNat l.length] ++ padded (if four then bytes4 l else bytes8 l)
  | .line => [0, 0]
  | .move dx dy => [0, 2, UInt8.ofNat dx, UInt8.ofNat dy]

/-- A picture that is being drawn: the position and the colours (row, column). -/
structure State where
  x : Nat
  y : Nat
  px : Nat → Nat → UInt32

/-- The index of the `i`-th pixel of a fill. -/
def fillIndex (four : Bool) (b : UInt8) (i : Nat) : Nat :=
  if four then (if i % 2 = 0 then b.toNat / 16 else b.toNat % 16) else b.toNat

/-- What a code draws in a picture of width `w`: a fill ends at the end of the row. -/
def Code.draw (four : Bool) (w : Nat) (pal : Nat → UInt32) (s : State) : Code → State
  | .fill n b =>
    ⟨min (s.x + n) w, s.y, fun y x => if y = s.y ∧ s.x ≤ x ∧ x < min (s.x + n) w then pal (fillIndex four b (x - s.x)) else s.px y x⟩
  | .run l =>
    ⟨s.x + l.length, s.y, fun y x => if y = s.y ∧ s.x ≤ x ∧ x < s.x + l.length then pal (l.getD (x - s.x) 0) else s.px y x⟩
  | .line => ⟨0, s.y + 1, s.px⟩
  | .move dx dy => ⟨s.x + dx, s.y + dy, s.px⟩

/-- A code that may follow: it stays within the picture. -/
def Code.Valid (four : Bool) (w h : Nat) (s : State) : Code → Prop
  | .fill n _ => 1 ≤ n ∧ n ≤ 255
  | .run l => 3 ≤ l.length ∧ l.length ≤ 255 ∧ s.x + l.length ≤ w ∧ ∀ i ∈ l, i < if four then 16 else 256
  | .line => s.y + 1 < h
  | .move dx dy => dx ≤ 255 ∧ dy ≤ 255 ∧ s.x + dx ≤ w ∧ s.y + dy < h

/-- A list of codes draws one picture after the other. -/
inductive Draws (four : Bool) (w h : Nat) (pal : Nat → UInt32) : State → List Code → State → Prop
  | nil (s : State) : Draws four w h pal s [] s
  | cons (s : State) (k : Code) (l : List Code) (t : State) :
    k.Valid four w h s → Draws four w h pal (k.draw four w pal s) l t → Draws four w h pal s (k :: l) t

/-- The empty picture has the background everywhere. -/
def empty : State := ⟨0, 0, fun _ _ => 0⟩

/-! ## Headers -/

/-- A byte of a file. -/
def u8 (d : List UInt8) (i : Nat) : Nat := (d.getD i 0).toNat

/-- Numbers are little endian. -/
def u16 (d : List UInt8) (i : Nat) : Nat := u8 d i + 256 * u8 d (i + 1)

def u32 (d : List UInt8) (i : Nat) : Nat := u8 d i + 256 * u8 d (i + 1) + 65536 * u8 d (i + 2) + 16777216 * u8 d (i + 3)

/-- Two's complement of `n` bits. -/
def int (n v : Nat) : Int := if v < 2 ^ (n - 1) then v else (v : Int) - 2 ^ n

/-- Where the pixels begin. -/
def offset (d : List UInt8) : Nat := u32 d 10

/-- The size of the info header; 12 is the one of OS/2. -/
def headerSize (d : List UInt8) : Nat := u32 d 14

def width (d : List UInt8) : Int := if headerSize d = 12 then int 16 (u16 d 18) else int 32 (u32 d 18)

/-- The height is negative if the first row of the file is the top of the picture. -/
def height (d : List UInt8) : Int := if headerSize d = 12 then int 16 (u16 d 20) else int 32 (u32 d 22)

def planes (d : List UInt8) : Nat := if headerSize d = 12 then u16 d 22 else u16 d 26

/-- Bits per pixel. -/
def depth (d : List UInt8) : Nat := if headerSize d = 12 then u16 d 24 else u16 d 28

/-- 0: none, 1: run-length encoding of 8 bits, 2: of 4 bits, 3: masks of red, green and blue, 6: and alpha. -/
def compression (d : List UInt8) : Nat := if headerSize d = 12 then 0 else u32 d 30

/-- The bytes of the pixels, zero if not given. -/
def imageSize (d : List UInt8) : Nat := if headerSize d = 12 then 0 else u32 d 34

/-- The bytes of a row: a multiple of four. -/
def stride (d : List UInt8) : Nat := ((width d).toNat * depth d + 31) / 32 * 4

/-- The bytes from the start of row `y`, from top to bottom. -/
def rowOf (d : List UInt8) (y : Nat) : List UInt8 :=
  d.drop (offset d + (if 0 < height d then (height d).natAbs - 1 - y else y) * stride d)

/-- The bytes of an entry of the palette. -/
def entrySize (d : List UInt8) : Nat := if headerSize d = 12 then 3 else 4

/-- Entry `i` of the palette: blue, green, red; black if the palette, which ends where the pixels begin, has no such entry. -/
def paletteColor (d : List UInt8) (i : Nat) : PixConv.Spec.Color :=
  let e := 14 + headerSize d + i * entrySize d
  if e + entrySize d ≤ offset d then ⟨u8 d (e + 2), u8 d (e + 1), u8 d e, 255⟩ else ⟨0, 0, 0, 255⟩

/-- The pixels have masks of components. -/
def Masked (d : List UInt8) : Prop := headerSize d = 40 ∧ (compression d = 3 ∨ compression d = 6) ∨ 52 ≤ headerSize d

/-- The masks of red, green, blue and alpha; there is no mask of alpha in the header of 52 bytes, nor with compression 3. -/
def mask (d : List UInt8) (i : Nat) : Nat :=
  if i = 3 ∧ (headerSize d = 40 ∧ compression d = 3 ∨ headerSize d = 52) then 0 else u32 d (54 + 4 * i)

/-- A component is what a mask selects. -/
def Selects (m : Nat) (c : PixConv.Ch) : Prop := m = (2 ^ c.size - 1) * 2 ^ c.shift

/-- The format of pixels without palette. -/
structure Describes (d : List UInt8) (f : PixConv.Fmt) : Prop where
  depth : f.depth = depth d
  rgb : f.rgb = true
  plain : f.indexed = false ∧ f.lum = false ∧ f.swap = false
  masked : Masked d → Selects (mask d 0) f.r ∧ Selects (mask d 1) f.g ∧ Selects (mask d 2) f.b ∧ Selects (mask d 3) f.a
  alpha : f.alpha = true ↔ Masked d ∧ mask d 3 ≠ 0
  prem : f.prem = f.alpha
  plain16 : ¬ Masked d → f.depth = 16 → f.r = ⟨5, 10⟩ ∧ f.g = ⟨5, 5⟩ ∧ f.b = ⟨5, 0⟩
  plain32 : ¬ Masked d → f.depth ≠ 16 → f.r = ⟨8, 16⟩ ∧ f.g = ⟨8, 8⟩ ∧ f.b = ⟨8, 0⟩

end Blend2D.Bmp.Spec
