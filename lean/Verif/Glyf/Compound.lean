import Verif.Glyf.Simple
import Mathlib.Data.Nat.Bitwise
/-! Compound glyphs are decoded to the outlines of their components. -/
namespace Blend2D.Glyf
open Blend2D.Kern (u8 u16 u32 i16)
open Spec (Comp IsComp Components Draws be16)

theorem flag_bits (f : Nat) :
    (decide (f &&& 1 ≠ 0)) = f.testBit 0 ∧ (decide (f &&& 2 = 0)) = !f.testBit 1 ∧
    (decide (f &&& 0xC8 = 0)) = !(f.testBit 3 || f.testBit 6 || f.testBit 7) ∧
    (decide (f &&& 8 ≠ 0)) = f.testBit 3 ∧ (decide (f &&& 0x40 ≠ 0)) = f.testBit 6 ∧
    (decide (f &&& 0x20 = 0)) = !f.testBit 5 ∧
    (f &&& 0x1802 == 0x0802) = (f.testBit 1 && f.testBit 11 && !f.testBit 12) := by
  have e0 : f &&& 1 = (f.testBit 0).toNat * 1 := Nat.and_two_pow f 0
  have e1 : f &&& 2 = (f.testBit 1).toNat * 2 := Nat.and_two_pow f 1
  have e3 : f &&& 8 = (f.testBit 3).toNat * 8 := Nat.and_two_pow f 3
  have e5 : f &&& 0x20 = (f.testBit 5).toNat * 0x20 := Nat.and_two_pow f 5
  have e6 : f &&& 0x40 = (f.testBit 6).toNat * 0x40 := Nat.and_two_pow f 6
  have e7 : f &&& 0x80 = (f.testBit 7).toNat * 0x80 := Nat.and_two_pow f 7
  have e11 : f &&& 0x800 = (f.testBit 11).toNat * 0x800 := Nat.and_two_pow f 11
  have e12 : f &&& 0x1000 = (f.testBit 12).toNat * 0x1000 := Nat.and_two_pow f 12
  have ec : f &&& 0xC8 = (f &&& 8) ||| (f &&& 0x40) ||| (f &&& 0x80) := by
    rw [← Nat.and_or_distrib_left, ← Nat.and_or_distrib_left]
    rfl
  have eo : f &&& 0x1802 = (f &&& 2) ||| (f &&& 0x800) ||| (f &&& 0x1000) := by
    rw [← Nat.and_or_distrib_left, ← Nat.and_or_distrib_left]
    rfl
  rw [ec, eo, e0, e1, e3, e5, e6, e7, e11, e12]
  refine ⟨?_, ?_, ?_, ?_, ?_, ?_, ?_⟩
  · cases f.testBit 0 <;> rfl
  · cases f.testBit 1 <;> rfl
  · cases f.testBit 3 <;> cases f.testBit 6 <;> cases f.testBit 7 <;> rfl
  · cases f.testBit 3 <;> rfl
  · cases f.testBit 6 <;> rfl
  · cases f.testBit 5 <;> rfl
  · cases f.testBit 1 <;> cases f.testBit 11 <;> cases f.testBit 12 <;> rfl

theorem i8_drop {g : List UInt8} {p : Nat} {b : UInt8} {r : List UInt8} (h : g.drop p = b :: r) :
    i8 g p = some (Spec.signed8 b) := by
  simp only [i8, (u8_drop h).1, Option.map_some, Spec.signed8]

theorem i16_be16 {g : List UInt8} {p n : Nat} {r : List UInt8} (h : g.drop p = be16 n ++ r) (hn : n < 65536) :
    i16 g p = some (Spec.signed n) ∧ g.drop (p + 2) = r := by
  obtain ⟨h1, h2⟩ := u16_be16 h hn
  simp only [i16, h1]
  exact ⟨rfl, h2⟩

theorem signed_hi (u : Nat) (h : u < 65536) : Spec.signed8 (UInt8.ofNat (u / 256)) * 256 + (UInt8.ofNat u).toNat = Spec.signed u := by
  simp only [Spec.signed8, Spec.signed, UInt8.toNat_ofNat']
  split <;> split <;> omega

theorem args_spec {g : List UInt8} {flags p size : Nat} {ab tail : List UInt8} {dx dy : Int} (hf : flags < 65536)
    (hxy : flags.testBit 1 = true) (hg : g.drop (p + 4) = ab ++ tail) (hs : ab.length ≤ size + 2)
    (h : if flags.testBit 0 then ∃ u v, u < 65536 ∧ v < 65536 ∧ ab = be16 u ++ be16 v ∧ dx = Spec.signed u ∧ dy = Spec.signed v
      else ∃ u v, ab = [u, v] ∧ dx = Spec.signed8 u ∧ dy = Spec.signed8 v) :
    args g flags p size = .ok (dx, dy, p + 4 + ab.length, size + 2 - ab.length) := by
  obtain ⟨b0, b1, -⟩ := flag_bits flags
  rw [hxy] at b1
  have hb1 : ¬ flags &&& 2 = 0 := by simpa using b1
  unfold args
  cases h0 : flags.testBit 0
  · rw [h0] at h b0
    simp only [Bool.false_eq_true, if_false] at h
    obtain ⟨u, v, rfl, rfl, rfl⟩ := h
    have hb0 : ¬ flags &&& 1 ≠ 0 := by simpa only [decide_eq_false_iff_not] using b0
    rw [i8_drop hg, i8_drop (u8_drop hg).2.1]
    show (if flags &&& 1 ≠ 0 then _ else if flags &&& 2 = 0 then _ else _) = _
    rw [if_neg hb0, if_neg hb1]
    rfl
  · rw [h0] at h b0
    simp only [if_true] at h
    obtain ⟨u, v, hu, hv, rfl, rfl, rfl⟩ := h
    have hb0 : flags &&& 1 ≠ 0 := by simpa only [decide_eq_true_eq] using b0
    rw [List.append_assoc] at hg
    have e2 := (u8_drop hg).2.1
    have e3 := (u8_drop e2).2.1
    have e4 := i16_be16 (p := p + 6) e3 hv
    rw [i8_drop hg, i8_drop e2]
    simp only [be16, List.length_append, List.length_cons, List.length_nil] at hs
    show (if flags &&& 1 ≠ 0 then if size < 2 then _ else _ else _) = _
    rw [if_pos hb0, if_neg (by omega), (u8_drop e2).1, e4.1]
    show (if flags &&& 2 = 0 then _ else _) = _
    rw [if_neg hb1, signed_hi u hu]
    rfl

theorem f2x14_spec {g : List UInt8} {p n : Nat} {r : List UInt8} (h : g.drop p = be16 n ++ r) (hn : n < 65536) :
    f2x14 g p = .ok (Spec.fixed n) ∧ g.drop (p + 2) = r := by
  obtain ⟨h1, h2⟩ := i16_be16 h hn
  refine ⟨?_, h2⟩
  rw [f2x14, h1]
  show Except.ok _ = Except.ok _
  congr 1
  rw [Spec.fixed]
  ring

theorem scale_spec {g : List UInt8} {flags p size : Nat} {sb tail : List UInt8} {q : Rat × Rat × Rat × Rat}
    (hf : flags < 65536) (hg : g.drop p = sb ++ tail) (hs : sb.length ≤ size)
    (h : if flags.testBit 3 then ∃ u, u < 65536 ∧ sb = be16 u ∧ q = (Spec.fixed u, 0, 0, Spec.fixed u)
      else if flags.testBit 6 then ∃ u v, u < 65536 ∧ v < 65536 ∧ sb = be16 u ++ be16 v ∧
        q = (Spec.fixed u, 0, 0, Spec.fixed v)
      else if flags.testBit 7 then ∃ u v w z, u < 65536 ∧ v < 65536 ∧ w < 65536 ∧ z < 65536 ∧
        sb = be16 u ++ be16 v ++ be16 w ++ be16 z ∧ q = (Spec.fixed u, Spec.fixed v, Spec.fixed w, Spec.fixed z)
      else sb = [] ∧ q = (1, 0, 0, 1)) :
    scale g flags p size = .ok (q, p + sb.length, size - sb.length) := by
  obtain ⟨-, -, bc, b3, b6, -⟩ := flag_bits flags
  unfold scale
  cases h3 : flags.testBit 3
  · rw [h3] at h b3 bc
    have hb3 : ¬ flags &&& 8 ≠ 0 := by simpa only [decide_eq_false_iff_not] using b3
    cases h6 : flags.testBit 6
    · rw [h6] at h b6 bc
      have hb6 : ¬ flags &&& 0x40 ≠ 0 := by simpa only [decide_eq_false_iff_not] using b6
      cases h7 : flags.testBit 7
      · rw [h7] at h bc
        simp only [Bool.false_eq_true, if_false] at h
        obtain ⟨rfl, rfl⟩ := h
        rw [if_pos (by simpa using bc)]
        rfl
      · rw [h7] at h bc
        simp only [Bool.false_eq_true, if_false, if_true] at h
        obtain ⟨u, v, w, z, hu, hv, hw, hz, rfl, rfl⟩ := h
        simp only [List.append_assoc] at hg
        simp only [be16, List.length_append, List.length_cons, List.length_nil] at hs
        obtain ⟨e1, g1⟩ := f2x14_spec hg hu
        obtain ⟨e2, g2⟩ := f2x14_spec g1 hv
        obtain ⟨e3, g3⟩ := f2x14_spec (p := p + 4) g2 hw
        obtain ⟨e4, g4⟩ := f2x14_spec (p := p + 6) g3 hz
        rw [if_neg (by simpa using bc), if_neg hb3, if_neg hb6, if_neg (by omega), e1, e2, e3, e4]
        rfl
    · rw [h6] at h b6 bc
      have hb6 : flags &&& 0x40 ≠ 0 := by simpa only [decide_eq_true_eq] using b6
      simp only [Bool.false_eq_true, if_false, if_true] at h
      obtain ⟨u, v, hu, hv, rfl, rfl⟩ := h
      simp only [List.append_assoc] at hg
      simp only [be16, List.length_append, List.length_cons, List.length_nil] at hs
      obtain ⟨e1, g1⟩ := f2x14_spec hg hu
      obtain ⟨e2, g2⟩ := f2x14_spec g1 hv
      rw [if_neg (by simpa using bc), if_neg hb3, if_pos hb6, if_neg (by omega), e1, e2]
      rfl
  · rw [h3] at h b3 bc
    have hb3 : flags &&& 8 ≠ 0 := by simpa only [decide_eq_true_eq] using b3
    simp only [if_true] at h
    obtain ⟨u, hu, rfl, rfl⟩ := h
    simp only [be16, List.length_cons, List.length_nil] at hs
    obtain ⟨e1, g1⟩ := f2x14_spec hg hu
    rw [if_neg (by simpa using bc), if_pos hb3, if_neg (by omega), e1]
    rfl

theorem component_spec {F : Font} {root : Mat} {mag : Rat → Rat → Rat} {p size : Nat} {below : List Entry} {s : St}
    {bs tail : List UInt8} {more : Bool} {k : Comp} (h : IsComp bs more k) (hg : F.glyf.drop p = bs ++ tail)
    (hs : bs.length ≤ size) (hk : k.gid < F.count) :
    ∃ flags, (decide (flags &&& 0x20 = 0)) = (!more) ∧
      component F root mag p size below s = .ok (.more { s with
        gid := k.gid,
        stack := ⟨p + bs.length, size - bs.length, flags, Spec.after (k.mat mag) (top root below)⟩ :: below }) := by
  obtain ⟨flags, ab, sb, rfl, hf, hgid, hmore, hxy, hab, hsb, hsc⟩ := h
  obtain ⟨-, -, bc, -, -, b5, bo⟩ := flag_bits flags
  refine ⟨flags, by rw [b5, hmore], ?_⟩
  simp only [List.append_assoc] at hg
  have hal : 2 ≤ ab.length := by
    revert hab
    split
    · rintro ⟨u, v, -, -, rfl, -⟩; simp [be16]
    · rintro ⟨u, v, rfl, -⟩; simp
  simp only [be16, List.length_append, List.length_cons, List.length_nil] at hs
  obtain ⟨e1, g1⟩ := u16_be16 hg hf
  obtain ⟨e2, g2⟩ := u16_be16 g1 hgid
  have g2' : F.glyf.drop (p + 4) = ab ++ (sb ++ tail) := g2
  have g3 := drop_of_append g2'
  unfold component
  rw [if_neg (by omega), e1, e2]
  show (if k.gid ≥ F.count then _ else _) = _
  rw [if_neg (by omega), args_spec hf hxy g2' (by omega) hab]
  show (scale _ _ _ _ >>= _) = _
  rw [scale_spec hf g3 (by omega) hsb]
  have hscaled : scaledOffset flags = k.scaled := by
    have hne : decide (flags &&& 0xC8 ≠ 0) = (flags.testBit 3 || flags.testBit 6 || flags.testBit 7) := by
      rw [show decide (flags &&& 0xC8 ≠ 0) = !decide (flags &&& 0xC8 = 0) by simp, bc, Bool.not_not]
    rw [hsc, scaledOffset, bo, hxy, hne]
    simp [Bool.and_assoc]
  show Except.ok (Next.more { s with
    gid := k.gid,
    stack := ⟨p + 4 + ab.length + sb.length, size - 6 + 2 - ab.length - sb.length, flags, Mat.mul ⟨k.a, k.b, k.c, k.d,
      (if scaledOffset flags then ((k.dx : Rat) * mag k.a k.b, (k.dy : Rat) * mag k.c k.d) else ((k.dx : Rat), (k.dy : Rat))).1,
      (if scaledOffset flags then ((k.dx : Rat) * mag k.a k.b, (k.dy : Rat) * mag k.c k.d) else ((k.dx : Rat), (k.dy : Rat))).2⟩
      (top root below)⟩ :: below }) = _
  rw [hscaled]
  have hmat : Mat.mul ⟨k.a, k.b, k.c, k.d,
      (if k.scaled then ((k.dx : Rat) * mag k.a k.b, (k.dy : Rat) * mag k.c k.d) else ((k.dx : Rat), (k.dy : Rat))).1,
      (if k.scaled then ((k.dx : Rat) * mag k.a k.b, (k.dy : Rat) * mag k.c k.d) else ((k.dx : Rat), (k.dy : Rat))).2⟩
      (top root below) = Spec.after (k.mat mag) (top root below) := by
    unfold Spec.Comp.mat
    cases k.scaled <;> rfl
  rw [hmat]
  have hp : p + 4 + ab.length + sb.length = p + (be16 flags ++ be16 k.gid ++ ab ++ sb).length := by
    simp only [be16, List.length_append, List.length_cons, List.length_nil]; omega
  have hz : size - 6 + 2 - ab.length - sb.length = size - (be16 flags ++ be16 k.gid ++ ab ++ sb).length := by
    simp only [be16, List.length_append, List.length_cons, List.length_nil]; omega
  rw [hp, hz]

/-- The machine behind a round. -/
def run (F : Font) (root : Mat) (mag : Rat → Rat → Rat) (fuel : Nat) : Except Err Next → Option (Except Err St)
  | .error e => some (.error e)
  | .ok (.done s) => some (.ok s)
  | .ok (.more s) => loop F root mag fuel s

theorem loop_run (F : Font) (root : Mat) (mag : Rat → Rat → Rat) (fuel : Nat) (s : St) :
    loop F root mag (fuel + 1) s = run F root mag fuel (round F root mag s) := by
  rw [loop]
  cases round F root mag s with
  | error e => rfl
  | ok n => cases n <;> rfl

theorem entries_of_bytes {F : Font} {gid : Nat} {d : List UInt8} (h : Spec.bytes F gid = some d) :
    ∃ a b, offsets F gid = .ok (a, b) ∧ b ≤ F.glyf.length ∧ d = (F.glyf.drop a).take (b - a) := by
  rw [offsets_spec]
  unfold Spec.bytes at h
  revert h
  cases Spec.entry F gid with
  | none => intro h; simp at h
  | some a =>
    cases Spec.entry F (gid + 1) with
    | none => intro h; simp at h
    | some b =>
      simp only
      split
      · intro h
        exact ⟨a, b, rfl, by assumption, (Option.some.inj h).symm⟩
      · intro h; simp at h

theorem round_empty {F : Font} {root : Mat} {mag : Rat → Rat → Rat} {s : St} {a : Nat}
    (h1 : Spec.entry F s.gid = some a) (h2 : Spec.entry F (s.gid + 1) = some a) (h3 : a ≤ F.glyf.length) :
    round F root mag s = afterGlyph F root mag s := by
  have h : offsets F s.gid = .ok (a, a) := by rw [offsets_spec, h1, h2]
  unfold round
  rw [h]
  show (if a ≥ a ∨ a > F.glyf.length then if a ≠ a ∨ a > F.glyf.length then _ else _ else _) = _
  rw [if_pos (by omega), if_neg (by omega)]

theorem round_simple {F : Font} {root : Mat} {mag : Rat → Rat → Rat} {s : St} {d : List UInt8}
    {cs : List (List Spec.Point)} (h : Spec.bytes F s.gid = some d) (hd : Spec.Describes d cs)
    (hcl : ∀ c ∈ cs, Spec.Closed c) (hfew : cs.flatten.length ≤ 32767) (htwo : 2 ≤ cs.flatten.length) :
    round F root mag s = afterGlyph F root mag
      { s with path := s.path ++ Spec.outline (top root s.stack) cs, total := s.total + cs.length } := by
  obtain ⟨a, b, ho, hb, rfl⟩ := entries_of_bytes h
  have hab : a < b := by
    obtain ⟨bbox, code, fb, xb, yb, pad, fs, dxs, dys, hd, hbb, -⟩ := hd
    have := congrArg List.length hd
    simp only [List.length_take, List.length_drop, List.length_append, hbb] at this
    omega
  obtain ⟨e1, e2, e3⟩ := simple_spec (m := top root s.stack) (by omega) hd hcl hfew htwo
  have hpos : 0 < cs.length := by
    cases cs with
    | nil => simp at htwo
    | cons => simp
  unfold round
  rw [ho]
  show (if a ≥ b ∨ b > F.glyf.length then _ else if b - a < 10 then _ else _) = _
  rw [if_neg (by omega), if_neg (by omega), e1]
  show (if (cs.length : Int) > 0 then _ else _) = _
  rw [if_pos (by omega), Int.toNat_natCast, e3]
  rfl

theorem round_compound {F : Font} {root : Mat} {mag : Rat → Rat → Rat} {s : St} {d bbox body : List UInt8}
    (h : Spec.bytes F s.gid = some d) (hd : d = be16 65535 ++ bbox ++ body) (hbb : bbox.length = 8)
    (hl : s.stack.length ≤ 14) :
    ∃ p size tail, F.glyf.drop p = body ++ tail ∧ size = body.length ∧
      round F root mag s = component F root mag p size s.stack s := by
  obtain ⟨a, b, ho, hb, hd2⟩ := entries_of_bytes h
  rw [hd] at hd2
  have hlen := congrArg List.length hd2
  simp only [List.length_take, List.length_drop, List.length_append, hbb, be16, List.length_cons, List.length_nil] at hlen
  have hg : F.glyf.drop a = be16 65535 ++ (bbox ++ (body ++ F.glyf.drop (a + (b - a)))) := by
    conv_lhs => rw [← List.take_append_drop (b - a) (F.glyf.drop a), ← hd2, List.drop_drop]
    simp only [List.append_assoc]
  obtain ⟨e1, e2⟩ := i16_be16 hg (by decide)
  have e3 := drop_of_append e2
  rw [hbb] at e3
  refine ⟨a + 10, b - a - 10, _, e3, by omega, ?_⟩
  unfold round
  rw [ho]
  show (if a ≥ b ∨ b > F.glyf.length then _ else if b - a < 10 then _ else _) = _
  rw [if_neg (by omega), if_neg (by omega), e1]
  have hsg : Spec.signed 65535 = -1 := by decide
  rw [hsg]
  show (if s.stack.length + 1 ≥ 16 then Except.error Err.invalidData
    else component F root mag (a + 10) (b - a - 10) s.stack s) = _
  rw [if_neg (by omega)]

/-- The components that remain at the current level. -/
def Rest (F : Font) (root : Mat) (mag : Rat → Rat → Rat) : List Entry → List (Mat × Nat) → Prop
  | [], l => l = []
  | e :: below, l =>
    (e.flags &&& 0x20 = 0 ∧ l = []) ∨
    (¬ e.flags &&& 0x20 = 0 ∧ ∃ body tail ks, F.glyf.drop e.p = body ++ tail ∧ body.length ≤ e.size ∧
      Components body ks ∧ l = ks.map (fun c => (Spec.after (c.mat mag) (top root below), c.gid)))

/-- The next component. -/
theorem rest_next {F : Font} {root : Mat} {mag : Rat → Rat → Rat} {s : St} {m : Mat} {gid : Nat}
    {l : List (Mat × Nat)} (h : Rest F root mag s.stack ((m, gid) :: l)) (hk : gid < F.count) :
    ∃ e below e2, s.stack = e :: below ∧ Rest F root mag (e2 :: below) l ∧ e2.m = m ∧
      afterGlyph F root mag s = .ok (.more { s with gid := gid, stack := e2 :: below }) := by
  cases hst : s.stack with
  | nil => rw [hst] at h; simp [Rest] at h
  | cons e below =>
    rw [hst] at h
    rcases h with ⟨-, h⟩ | ⟨hfl, body, tail, ks, hg, hsz, hks, hl⟩
    · simp at h
    · have hafter : afterGlyph F root mag s = component F root mag e.p e.size below s := by
        unfold afterGlyph
        rw [hst, List.dropWhile_cons, if_neg (by simpa using hfl)]
      rw [hafter]
      cases hks with
      | @last bs pad k hc =>
        simp only [List.map_cons, List.map_nil, List.cons.injEq, Prod.mk.injEq] at hl
        obtain ⟨⟨rfl, rfl⟩, rfl⟩ := hl
        rw [List.append_assoc] at hg
        rw [List.length_append] at hsz
        obtain ⟨flags, hfl2, hcomp⟩ := component_spec (root := root) (mag := mag) (size := e.size) (below := below) (s := s) hc hg (by omega) hk
        exact ⟨e, below, _, rfl, .inl ⟨by simpa using hfl2, rfl⟩, rfl, hcomp⟩
      | @cons bs cs k l2 hc hrest =>
        simp only [List.map_cons, List.cons.injEq, Prod.mk.injEq] at hl
        obtain ⟨⟨rfl, rfl⟩, rfl⟩ := hl
        rw [List.append_assoc] at hg
        rw [List.length_append] at hsz
        obtain ⟨flags, hfl2, hcomp⟩ := component_spec (root := root) (mag := mag) (size := e.size) (below := below) (s := s) hc hg (by omega) hk
        refine ⟨e, below, _, rfl, .inr ⟨by simpa using hfl2, cs, tail, l2, drop_of_append hg, ?_, hrest, rfl⟩, rfl, hcomp⟩
        simp only; omega

/-- Behind the glyphs `l` of the current level, with the path and the count. -/
theorem draws_run {F : Font} {root : Mat} {mag : Rat → Rat → Rat} {n : Nat} {l : List (Mat × Nat)} {p : List Vtx} {k : Nat}
    (h : Draws F mag n l p k) : ∀ s : St, Rest F root mag s.stack l → s.stack.length + n ≤ 15 →
    ∃ N g, ∀ fuel, run F root mag (fuel + N) (afterGlyph F root mag s) =
      run F root mag fuel (afterGlyph F root mag
        { gid := g, stack := s.stack.tail, path := s.path ++ p, total := s.total + k }) := by
  induction h with
  | nil =>
    intro s hr hl
    refine ⟨0, s.gid, fun fuel => ?_⟩
    have : afterGlyph F root mag { gid := s.gid, stack := s.stack.tail, path := s.path ++ [], total := s.total + 0 } =
        afterGlyph F root mag s := by
      rw [List.append_nil, Nat.add_zero]
      cases hst : s.stack with
      | nil => rw [List.tail_nil, ← hst]
      | cons e below =>
        rw [hst] at hr
        have hfl : e.flags &&& 0x20 = 0 := by
          rcases hr with ⟨h, -⟩ | ⟨-, body, tail, ks, -, -, hks, hn⟩
          · exact h
          · cases hks <;> simp at hn
        unfold afterGlyph
        rw [hst, List.dropWhile_cons, if_pos (by simpa using hfl), List.tail_cons]
        dsimp only
        generalize List.dropWhile (fun e : Entry => decide (e.flags &&& 0x20 = 0)) below = r
        cases r <;> rfl
    rw [this, Nat.add_zero]
  | @empty n gid a m l p k hk h1 h2 h3 _ ih =>
    intro s hr hl
    obtain ⟨e, below, e2, hst, hr2, hm, haf⟩ := rest_next hr hk
    obtain ⟨N, g, hN⟩ := ih { s with gid := gid, stack := e2 :: below } hr2 (by rw [hst] at hl; simpa using hl)
    refine ⟨N + 1, g, fun fuel => ?_⟩
    rw [haf]
    show loop F root mag (fuel + N + 1) _ = _
    rw [loop_run, round_empty (s := { s with gid := gid, stack := e2 :: below }) h1 h2 h3, hN, hst]
    rfl
  | @simple n gid m d cs l p k hk h1 h2 h3 h4 h5 _ ih =>
    intro s hr hl
    obtain ⟨e, below, e2, hst, hr2, hm, haf⟩ := rest_next hr hk
    obtain ⟨N, g, hN⟩ := ih { gid := gid, stack := e2 :: below, path := s.path ++ Spec.outline m cs, total := s.total + cs.length } hr2
      (by rw [hst] at hl; simpa using hl)
    refine ⟨N + 1, g, fun fuel => ?_⟩
    rw [haf]
    show loop F root mag (fuel + N + 1) _ = _
    rw [loop_run, round_simple (s := { s with gid := gid, stack := e2 :: below }) h1 h2 h3 h4 h5]
    simp only [top, hm]
    rw [hN, hst]
    simp only [List.tail_cons, List.append_assoc, Nat.add_assoc]
  | @compound n gid m d bbox body ks l p q k j hk h1 h2 h3 h4 _ _ ih1 ih2 =>
    intro s hr hl
    obtain ⟨e, below, e2, hst, hr2, hm, haf⟩ := rest_next hr hk
    have hl2 : below.length + 1 + (n + 1) ≤ 15 := by rw [hst] at hl; simpa using hl
    obtain ⟨pp, size, tail, g1, g2, g3⟩ := round_compound (root := root) (mag := mag)
      (s := { s with gid := gid, stack := e2 :: below }) h1 h2 h3 (by simp only [List.length_cons]; omega)
    obtain ⟨N1, gg, hN1⟩ := ih1 { s with gid := gid, stack := ⟨pp, size, 0x20, root⟩ :: e2 :: below }
      (.inr ⟨by show ¬ (0x20 &&& 0x20 = 0); decide, body, tail, ks, g1, by simp only [g2]; omega, h4, by simp only [top, hm]⟩)
      (by simp only [List.length_cons]; omega)
    obtain ⟨N2, g, hN2⟩ := ih2 { gid := gg, stack := e2 :: below, path := s.path ++ p, total := s.total + k } hr2
      (by simp only [List.length_cons]; omega)
    refine ⟨N2 + N1 + 1, g, fun fuel => ?_⟩
    rw [haf]
    show loop F root mag (fuel + (N2 + N1) + 1) _ = _
    rw [loop_run, g3]
    have hfake : component F root mag pp size (e2 :: below) { s with gid := gid, stack := e2 :: below } =
        afterGlyph F root mag { s with gid := gid, stack := ⟨pp, size, 0x20, root⟩ :: e2 :: below } := by
      unfold afterGlyph
      rw [List.dropWhile_cons, if_neg (by simp)]
      simp only [component]
    rw [hfake, ← Nat.add_assoc, hN1, List.tail_cons, hN2, hst]
    simp only [List.tail_cons, List.append_assoc, Nat.add_assoc]

/-- A glyph is decoded to what it draws. -/
theorem outlines_draws {F : Font} {root : Mat} {mag : Rat → Rat → Rat} {gid : Nat} {p : List Vtx} {k : Nat}
    (h : Draws F mag 15 [(root, gid)] p k) : ∃ N, ∀ fuel, N ≤ fuel → outlines F root mag fuel gid = some (.ok (p, k)) := by
  have main : ∃ N, ∀ fuel, N ≤ fuel → gid < F.count ∧ ∃ g, loop F root mag fuel ⟨gid, [], [], 0⟩ = some (.ok ⟨g, [], p, k⟩) := by
    cases h with
    | empty hk h1 h2 h3 hl =>
      cases hl
      refine ⟨1, fun fuel hf => ⟨hk, gid, ?_⟩⟩
      obtain ⟨f, rfl⟩ : ∃ f, fuel = f + 1 := ⟨fuel - 1, by omega⟩
      rw [loop_run, round_empty (s := ⟨gid, [], [], 0⟩) h1 h2 h3]
      rfl
    | simple hk h1 h2 h3 h4 h5 hl =>
      cases hl
      refine ⟨1, fun fuel hf => ⟨hk, gid, ?_⟩⟩
      obtain ⟨f, rfl⟩ : ∃ f, fuel = f + 1 := ⟨fuel - 1, by omega⟩
      rw [loop_run, round_simple (s := ⟨gid, [], [], 0⟩) h1 h2 h3 h4 h5]
      simp [afterGlyph, run, top]
    | @compound _ _ _ d bbox body ks _ p q k j hk h1 h2 h3 h4 hd hl =>
      cases hl
      obtain ⟨pp, size, tail, g1, g2, g3⟩ := round_compound (root := root) (mag := mag)
        (s := ⟨gid, [], [], 0⟩) h1 h2 h3 (by simp)
      obtain ⟨N1, gg, hN1⟩ := draws_run (root := root) hd { gid := gid, stack := [⟨pp, size, 0x20, root⟩], path := [], total := 0 }
        (.inr ⟨by show ¬ (0x20 &&& 0x20 = 0); decide, body, tail, ks, g1, by simp only [g2]; omega, h4, by simp only [top]⟩) (by simp)
      refine ⟨N1 + 1, fun fuel hf => ⟨hk, gg, ?_⟩⟩
      obtain ⟨f, rfl⟩ : ∃ f, fuel = f + N1 + 1 := ⟨fuel - N1 - 1, by omega⟩
      have hfake : component F root mag pp size [] ⟨gid, [], [], 0⟩ =
          afterGlyph F root mag { gid := gid, stack := [⟨pp, size, 0x20, root⟩], path := [], total := 0 } := by
        unfold afterGlyph
        rw [List.dropWhile_cons, if_neg (by simp)]
        simp only [component]
      rw [loop_run, g3, hfake, hN1]
      simp [afterGlyph, run]
  obtain ⟨N, hN⟩ := main
  refine ⟨N, fun fuel hf => ?_⟩
  obtain ⟨hk, g, hl⟩ := hN fuel hf
  rw [outlines, if_neg (by omega), hl]
  rfl

end Blend2D.Glyf
