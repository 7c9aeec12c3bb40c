import Verif.Glyf.Model
/-! What the tables `loca` and `glyf` of a font say about a glyph, independent of the decoder. -/
namespace Blend2D.Glyf.Spec

/-- Big-endian value of bytes. -/
def be (l : List UInt8) : Nat := l.foldl (fun a b => a * 256 + b.toNat) 0

/-- The `n` byte field at offset `o`. -/
def field (l : List UInt8) (o n : Nat) : Option Nat :=
  if o + n ≤ l.length then some (be ((l.drop o).take n)) else none

/-- Signed value of a 16-bit field. -/
def signed (v : Nat) : Int := if v < 32768 then v else (v : Int) - 65536

/-- Entry `i` of `loca`: an offset into `glyf`, halved in the short form. -/
def entry (F : Font) (i : Nat) : Option Nat :=
  if F.short then (field F.loca (i * 2) 2).map (· * 2) else field F.loca (i * 4) 4

/-- The bytes of a glyph: from its entry to the next one. -/
def bytes (F : Font) (gid : Nat) : Option (List UInt8) :=
  match entry F gid, entry F (gid + 1) with
  | some a, some b => if b ≤ F.glyf.length then some ((F.glyf.drop a).take (b - a)) else none
  | _, _ => none

/-- The box of a glyph, with the y axis pointing down: none of an empty glyph, otherwise the four numbers
behind the number of contours. -/
def box (d : List UInt8) : Option Box :=
  if d = [] then some ⟨0, 0, 0, 0⟩
  else if d.length < 10 then none
  else do
    let xMin ← field d 2 2
    let yMin ← field d 4 2
    let xMax ← field d 6 2
    let yMax ← field d 8 2
    some ⟨signed xMin, -signed yMax, signed xMax, -signed yMin⟩

/-- The glyph has at most 32767 points: the end of its last contour is less than that. -/
def FewPoints (d : List UInt8) : Prop :=
  ∀ n e, field d 0 2 = some n → 0 < signed n → field d (10 + (n - 1) * 2) 2 = some e → e < 32767

/-! ## Simple glyphs -/

/-- The flags of the points, one byte each: bit 3 says that the next byte is a number of repetitions. -/
inductive Flags : List UInt8 → List Nat → Prop
  | nil : Flags [] []
  | one {b : UInt8} {bs : List UInt8} {fs : List Nat} : b.toNat.testBit 3 = false → Flags bs fs →
      Flags (b :: bs) (b.toNat :: fs)
  | rep {b n : UInt8} {bs : List UInt8} {fs : List Nat} : b.toNat.testBit 3 = true → Flags bs fs →
      Flags (b :: n :: bs) (List.replicate (n.toNat + 1) b.toNat ++ fs)

/-- The differences of one coordinate, with their bytes: bit `short` says that there is one byte, with the sign in
bit `same`; otherwise bit `same` says that there is none, and a signed word follows if it is not set. -/
inductive Deltas (short same : Nat) : List Nat → List UInt8 → List Int → Prop
  | nil : Deltas short same [] [] []
  | byte {f : Nat} {fs : List Nat} {b : UInt8} {bs : List UInt8} {ds : List Int} : f.testBit short = true →
      Deltas short same fs bs ds →
      Deltas short same (f :: fs) (b :: bs) ((if f.testBit same then (b.toNat : Int) else -(b.toNat : Int)) :: ds)
  | none {f : Nat} {fs : List Nat} {bs : List UInt8} {ds : List Int} : f.testBit short = false →
      f.testBit same = true → Deltas short same fs bs ds → Deltas short same (f :: fs) bs (0 :: ds)
  | word {f : Nat} {fs : List Nat} {h l : UInt8} {bs : List UInt8} {ds : List Int} : f.testBit short = false →
      f.testBit same = false → Deltas short same fs bs ds →
      Deltas short same (f :: fs) (h :: l :: bs) (signed (h.toNat * 256 + l.toNat) :: ds)

/-- A point of an outline, on or off the curve. -/
structure Point where
  x : Int
  y : Int
  on : Bool
  deriving DecidableEq, Repr

/-- The points: each is relative to the one in front of it, and bit 0 of its flag says that it is on the curve. -/
def points (x y : Int) : List Nat → List Int → List Int → List Point
  | f :: fs, dx :: dxs, dy :: dys => ⟨x + dx, y + dy, f.testBit 0⟩ :: points (x + dx) (y + dy) fs dxs dys
  | _, _, _ => []

/-- Two bytes, big endian. -/
def be16 (n : Nat) : List UInt8 := [UInt8.ofNat (n / 256), UInt8.ofNat n]

/-- The last point of every contour, if there are `k` points in front of them. -/
def ends (k : Nat) : List (List Point) → List UInt8
  | [] => []
  | c :: cs => be16 (k + c.length - 1) ++ ends (k + c.length) cs

/-- The bytes `d` describe a simple glyph with the contours `cs`. -/
def Describes (d : List UInt8) (cs : List (List Point)) : Prop :=
  ∃ (bbox code fb xb yb pad : List UInt8) (fs : List Nat) (dxs dys : List Int),
    d = be16 cs.length ++ bbox ++ ends 0 cs ++ be16 code.length ++ code ++ fb ++ xb ++ yb ++ pad ∧
    bbox.length = 8 ∧ code.length < 65536 ∧ 0 < cs.length ∧ cs.length < 32768 ∧ (∀ c ∈ cs, c ≠ []) ∧
    Flags fb fs ∧ Deltas 1 4 fs xb dxs ∧ Deltas 2 5 fs yb dys ∧ cs.flatten = points 0 0 fs dxs dys

/-- The image of a point under a matrix. -/
def apply (m : Mat) (p : Point) : Pt × Bool :=
  (⟨p.x * m.m00 + p.y * m.m10 + m.m20, p.x * m.m01 + p.y * m.m11 + m.m21⟩, p.on)

/-- The middle of two points. -/
def mid (a b : Pt) : Pt := ⟨(a.x + b.x) / 2, (a.y + b.y) / 2⟩

/-- Two neighbours that are both off the curve have a point on the curve in their middle. -/
def fill : List (Pt × Bool) → List (Pt × Bool)
  | a :: b :: l => a :: ((if !a.2 && !b.2 then [(mid a.1 b.1, true)] else []) ++ fill (b :: l))
  | l => l

/-- The same with the last point and the first one being neighbours. -/
def ring : List (Pt × Bool) → List (Pt × Bool)
  | [] => []
  | a :: l => (fill (a :: l ++ [a])).dropLast

/-- A path starts on the curve. -/
def rotate (l : List (Pt × Bool)) : List (Pt × Bool) := l.dropWhile (!·.2) ++ l.takeWhile (!·.2)

/-- The closed figure through points of which the first is on the curve: points off the curve are control points
of quadratic curves, and the last curve ends where the figure starts. -/
def figure : List (Pt × Bool) → List Vtx
  | [] => []
  | a :: l =>
    .move a.1 :: l.map (fun p => if p.2 then .on p.1 else .quad p.1) ++
      (if (a :: l).getLast?.any (!·.2) then [.on a.1] else []) ++ [.close]

/-- The figure of a contour; a single point has none. -/
def contour : List (Pt × Bool) → List Vtx
  | [] => []
  | [a] => if a.2 then [.move a.1] else []
  | l => figure (rotate (ring l))

/-- The outline of a glyph. -/
def outline (m : Mat) (cs : List (List Point)) : List Vtx := cs.flatMap (fun c => contour (c.map (apply m)))

/-! ## Compound glyphs -/

/-- A component: a glyph, the offset and the matrix it is placed with, and whether the offset is scaled. -/
structure Comp where
  gid : Nat
  dx : Int
  dy : Int
  a : Rat
  b : Rat
  c : Rat
  d : Rat
  scaled : Bool
  deriving DecidableEq

/-- Signed value of a byte. -/
def signed8 (v : UInt8) : Int := if v.toNat < 128 then v.toNat else (v.toNat : Int) - 256

/-- Number with 14 bits behind the binary point. -/
def fixed (v : Nat) : Rat := (signed v : Rat) / 16384

/-- The bytes `bs` are a component: flags, the glyph, the offset in words or bytes (bit 0), and one, two or four
numbers of the matrix, or none (bits 3, 6, 7).  Bit 5: more components follow.  Bits 11 and 12: the offset is
scaled, or not.  The arguments are an offset and not numbers of points (bit 1). -/
def IsComp (bs : List UInt8) (more : Bool) (k : Comp) : Prop :=
  ∃ (flags : Nat) (ab sb : List UInt8),
    bs = be16 flags ++ be16 k.gid ++ ab ++ sb ∧ flags < 65536 ∧ k.gid < 65536 ∧
    flags.testBit 5 = more ∧ flags.testBit 1 = true ∧
    (if flags.testBit 0 then ∃ u v, u < 65536 ∧ v < 65536 ∧ ab = be16 u ++ be16 v ∧ k.dx = signed u ∧ k.dy = signed v
      else ∃ u v, ab = [u, v] ∧ k.dx = signed8 u ∧ k.dy = signed8 v) ∧
    (if flags.testBit 3 then ∃ u, u < 65536 ∧ sb = be16 u ∧ (k.a, k.b, k.c, k.d) = (fixed u, 0, 0, fixed u)
      else if flags.testBit 6 then ∃ u v, u < 65536 ∧ v < 65536 ∧ sb = be16 u ++ be16 v ∧
        (k.a, k.b, k.c, k.d) = (fixed u, 0, 0, fixed v)
      else if flags.testBit 7 then ∃ u v w z, u < 65536 ∧ v < 65536 ∧ w < 65536 ∧ z < 65536 ∧
        sb = be16 u ++ be16 v ++ be16 w ++ be16 z ∧ (k.a, k.b, k.c, k.d) = (fixed u, fixed v, fixed w, fixed z)
      else sb = [] ∧ (k.a, k.b, k.c, k.d) = (1, 0, 0, 1)) ∧
    k.scaled = ((flags.testBit 3 || flags.testBit 6 || flags.testBit 7) && flags.testBit 11 && !flags.testBit 12)

/-- Components behind each other; bytes behind the last one have no meaning. -/
inductive Components : List UInt8 → List Comp → Prop
  | last {bs pad : List UInt8} {k : Comp} : IsComp bs false k → Components (bs ++ pad) [k]
  | cons {bs cs : List UInt8} {k : Comp} {l : List Comp} : IsComp bs true k → Components cs l →
      Components (bs ++ cs) (k :: l)

/-- The matrix of a component: `mag` is the length of a vector. -/
def Comp.mat (mag : Rat → Rat → Rat) (k : Comp) : Mat :=
  if k.scaled then ⟨k.a, k.b, k.c, k.d, k.dx * mag k.a k.b, k.dy * mag k.c k.d⟩
  else ⟨k.a, k.b, k.c, k.d, k.dx, k.dy⟩

/-- One matrix behind another: a point is multiplied by `m` first. -/
def after (m n : Mat) : Mat :=
  ⟨m.m00 * n.m00 + m.m01 * n.m10, m.m00 * n.m01 + m.m01 * n.m11,
   m.m10 * n.m00 + m.m11 * n.m10, m.m10 * n.m01 + m.m11 * n.m11,
   m.m20 * n.m00 + m.m21 * n.m10 + n.m20, m.m20 * n.m01 + m.m21 * n.m11 + n.m21⟩

/-- The first point and the last one of a contour are not both off the curve. -/
def Closed (l : List Point) : Prop :=
  ∀ a q qs, l = a :: q :: qs → a.on = true ∨ (qs.getLastD q).on = true

/-- Drawing glyphs of a font, each with a matrix, where compound glyphs are nested to at most `n` levels: the
vertices of the path, and the number of contours. -/
inductive Draws (F : Font) (mag : Rat → Rat → Rat) : Nat → List (Mat × Nat) → List Vtx → Nat → Prop
  | nil {n : Nat} : Draws F mag n [] [] 0
  /-- A glyph without data. -/
  | empty {n gid a : Nat} {m : Mat} {l : List (Mat × Nat)} {p : List Vtx} {k : Nat} : gid < F.count →
      entry F gid = some a → entry F (gid + 1) = some a → a ≤ F.glyf.length →
      Draws F mag n l p k → Draws F mag n ((m, gid) :: l) p k
  /-- A simple glyph.  Restrictions: no contour of several points starts and ends off the curve, and there are
  from 2 to 32767 points. -/
  | simple {n gid : Nat} {m : Mat} {d : List UInt8} {cs : List (List Point)} {l : List (Mat × Nat)} {p : List Vtx}
      {k : Nat} : gid < F.count → bytes F gid = some d → Describes d cs →
      (∀ c ∈ cs, Closed c) → cs.flatten.length ≤ 32767 → 2 ≤ cs.flatten.length →
      Draws F mag n l p k → Draws F mag n ((m, gid) :: l) (outline m cs ++ p) (cs.length + k)
  /-- A compound glyph. -/
  | compound {n gid : Nat} {m : Mat} {d bbox body : List UInt8} {ks : List Comp} {l : List (Mat × Nat)}
      {p q : List Vtx} {k j : Nat} : gid < F.count → bytes F gid = some d →
      d = be16 65535 ++ bbox ++ body → bbox.length = 8 → Components body ks →
      Draws F mag n (ks.map (fun c => (after (c.mat mag) m, c.gid))) p k → Draws F mag (n + 1) l q j →
      Draws F mag (n + 1) ((m, gid) :: l) (p ++ q) (k + j)

end Blend2D.Glyf.Spec
