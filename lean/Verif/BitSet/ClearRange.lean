import Verif.BitSet.AddRange

/-!
# Clearing a range of segments
-/

namespace Blend2D.BitSet

open Blend2D.BitOps

/-- `f` without the numbers from `a` up to `b`. -/
def minusR (f : Nat → Bool) (a b i : Nat) : Bool := !inRange a b i && f i

/-- Segments between the words `lo` and `hi` that contain the numbers from `p` up to `q`. -/
structure Piece (J : List Seg) (lo hi p q : Nat) : Prop where
  ok : SegsOK J
  lo : ∀ g ∈ J, lo ≤ g.startWord
  hi : ∀ g ∈ J, g.endWord ≤ hi
  bits : ∀ i, anyBit J i = inRange p q i

theorem Piece.nil (lo hi p : Nat) : Piece [] lo hi p p :=
  ⟨SegsOK.nil, by simp, by simp, fun i => by rw [anyBit_nil, inRange_empty]⟩

theorem Piece.single {g : Seg} (h : SegOK g) {p q : Nat} (hb : ∀ i, g.bit i = inRange p q i) : Piece [g] g.startWord g.endWord p q :=
  ⟨SegsOK.cons.2 ⟨h, SegsOK.nil, by simp⟩, by simp, by simp, fun i => by rw [anyBit_cons, anyBit_nil, Bool.or_false, hb]⟩

theorem piece_ones {x w : Nat} (h1 : x % 4 = 0) (h2 : w % 4 = 0) (h3 : x + 4 ≤ w) (h4 : w ≤ 134217728) :
    Piece [onesSeg x w] x w (x * 32) (w * 32) := by
  have e : onesSeg x w = rangeSeg x w := by
    unfold onesSeg
    split
    · rfl
    · unfold rangeSeg
      rw [if_pos (by rw [sub32_of_le (by omega) (by omega)]; omega)]
  obtain ⟨s1, s2, s3, s4⟩ := rangeSeg_spec h1 h2 h3 h4
  have := Piece.single s1 s4
  rw [s2, s3] at this
  rw [e]
  exact this

/-- A segment of ones in which the bits from `k` on are cleared. -/
theorem piece_head {w : Nat} (h1 : w % 4 = 0) (h2 : w + 4 ≤ 134217728) {k : Nat} (hk : k ≤ 128) : ∃ d, BitOps.clear .msb ones4 k (128 - k) = some d ∧
    Piece [.dense w d] w (w + 4) (w * 32) (w * 32 + k) := by
  obtain ⟨d, e, hl, hd⟩ := (C41_range .msb ones4 k (128 - k) (by simp only [ones4, List.length_replicate]; omega)).2
  refine ⟨d, e, Piece.single (g := .dense w d) ⟨h1, by omega, hl⟩ fun i => ?_⟩
  simp only [Seg.bit, hd, bitAt_ones4]
  rw [Bool.eq_iff_iff, inRange_iff]
  by_cases hi : w * 32 ≤ i
  · by_cases hi2 : k ≤ i - w * 32 ∧ i - w * 32 < k + (128 - k)
    · rw [if_pos hi2]; simp; omega
    · rw [if_neg hi2]; simp; omega
  · simp [hi]

/-- A segment of ones in which the first `k` bits are cleared. -/
theorem piece_tail {w : Nat} (h1 : w % 4 = 0) (h2 : w + 4 ≤ 134217728) {k : Nat} (hk : k ≤ 128) : ∃ d, BitOps.clear .msb ones4 0 k = some d ∧
    Piece [.dense w d] w (w + 4) (w * 32 + k) (w * 32 + 128) := by
  obtain ⟨d, e, hl, hd⟩ := (C41_range .msb ones4 0 k (by simp only [ones4, List.length_replicate]; omega)).2
  refine ⟨d, e, Piece.single (g := .dense w d) ⟨h1, by omega, hl⟩ fun i => ?_⟩
  simp only [Seg.bit, hd, bitAt_ones4]
  rw [Bool.eq_iff_iff, inRange_iff]
  by_cases hi : w * 32 ≤ i
  · by_cases hi2 : 0 ≤ i - w * 32 ∧ i - w * 32 < 0 + k
    · rw [if_pos hi2]; simp; omega
    · rw [if_neg hi2]; simp; omega
  · simp [hi]; omega

theorem Piece.append {J K : List Seg} {l1 h1 l2 h2 p q r : Nat} (hJ : Piece J l1 h1 p q) (hK : Piece K l2 h2 q r) (hhl : h1 ≤ l2) (hl : l1 ≤ l2) (hh : h1 ≤ h2)
    (hpq : p ≤ q) (hqr : q ≤ r) : Piece (J ++ K) l1 h2 p r := by
  refine ⟨SegsOK.append.2 ⟨hJ.ok, hK.ok, fun g hg k hk => ?_⟩, ?_, ?_, ?_⟩
  · have := hJ.hi g hg; have := hK.lo k hk; omega
  · intro g hg
    rcases List.mem_append.1 hg with hg | hg
    · exact hJ.lo g hg
    · have := hK.lo g hg; omega
  · intro g hg
    rcases List.mem_append.1 hg with hg | hg
    · have := hJ.hi g hg; omega
    · exact hK.hi g hg
  · intro i
    rw [anyBit_append, hJ.bits, hK.bits, ← inRange_split hpq hqr]

theorem push_of {ins : List Seg} (h : ins.length < 8) (g : Seg) : push ins g = some (ins ++ [g]) := if_pos h

/-- The end of the range lies in the run. -/
theorem clearStop_spec {y c b : Nat} {ins : List Seg} (hlen : ins.length ≤ 6) (hy4 : y % 4 = 0) (hy : y ≤ 134217728) (hcb : c < b) (hb : b < 4294967296)
    (hby : b ≤ y * 32) (hno : ¬ (b < y * 32 ∧ y * 32 < b + 128)) : ∃ c' J, clearStop y c b ins = some (c', ins ++ J) ∧ J.length ≤ 2 ∧
      Piece J (b / 128 * 4) y b (y * 32) ∧ (c / 32 < y → c' / 32 < y) := by
  unfold clearStop
  simp only
  by_cases h1 : b / 128 * 4 ≥ y
  · rw [if_pos h1]
    have : b = y * 32 := by omega
    exact ⟨c, [], by simp, by simp, by rw [← this]; exact Piece.nil _ _ _, fun h => h⟩
  · rw [if_neg h1, sub32_of_le (by omega) hb]
    by_cases h2 : b % 128 = 0
    · rw [if_neg (by simp [h2]), push_of (by omega)]
      refine ⟨c, _, rfl, by simp, ?_, fun h => h⟩
      have := piece_ones (x := b / 128 * 4) (w := y) (by omega) hy4 (by omega) hy
      rw [show b / 128 * 4 * 32 = b by omega] at this
      exact this
    · obtain ⟨d, e, hp⟩ := piece_tail (w := b / 128 * 4) (by omega) (by omega) (k := b % 128) (by omega)
      rw [if_pos ⟨h2, by omega⟩, e]
      simp only [Option.bind_eq_bind, Option.bind_some]
      rw [push_of (by omega)]
      simp only [Option.bind_some]
      rw [if_neg (by omega), push_of (by simp; omega)]
      refine ⟨wrap ((b / 128 * 4 + 4) * 32), [.dense (b / 128 * 4) d] ++ [onesSeg (b / 128 * 4 + 4) y], by simp, by simp, ?_, ?_⟩
      · have h5 := piece_ones (x := b / 128 * 4 + 4) (w := y) (by omega) hy4 (by omega) hy
        rw [show b / 128 * 4 * 32 + b % 128 = b by omega, show b / 128 * 4 * 32 + 128 = (b / 128 * 4 + 4) * 32 by omega] at hp
        exact Piece.append hp h5 (Nat.le_refl _) (by omega) (by omega) (by omega) (by omega)
      · intro _
        rw [wrap_of_lt (by omega)]
        omega

/-- The first part of the run, with `c` in it. -/
theorem clearStart_spec {w y c b : Nat} {ins : List Seg} (hlen : ins.length ≤ 5) (hw : w = c / 128 * 4) (hy4 : y % 4 = 0) (hy : y ≤ 134217728)
    (hcy : c < y * 32) (hcb : c < b) (hb : b < 4294967296) (hblk : c % 128 = 0 ∨ b % 128 = 0 ∨ c / 128 ≠ b / 128)
    (hno : ¬ (b < y * 32 ∧ y * 32 < b + 128)) : ∃ c' J, clearStart w y c b ins = some (c', ins ++ J) ∧ J.length ≤ 3 ∧ (y ≤ (b - 1) / 32 → J.length ≤ 1) ∧
      (c % 128 = 0 → J.length ≤ 2) ∧ (∃ K L, J = K ++ L ∧ Piece K w (w + 4) (w * 32) c ∧ (if b ≤ y * 32 then Piece L (b / 128 * 4) y b (y * 32) else L = []) ∧
        (c % 128 = 0 → K = [])) ∧ c' / 32 < y := by
  unfold clearStart
  by_cases h1 : c % 128 ≠ 0
  · rw [if_pos h1, sub32_of_le (by omega) hb, show min (128 - c % 128) (b - c) = 128 - c % 128 by omega]
    obtain ⟨d, e, hp⟩ := piece_head (w := w) (by omega) (by omega) (k := c % 128) (by omega)
    rw [e]
    simp only [Option.bind_eq_bind, Option.bind_some]
    rw [push_of (by omega)]
    simp only [Option.bind_some]
    rw [sub32_of_le (by omega) hb]
    rw [show w * 32 + c % 128 = c by omega] at hp
    by_cases h2 : w ≥ y ∨ (b - 1) / 32 ≥ y
    · rw [if_pos h2]
      refine ⟨_, _, rfl, by simp, by simp, fun h => absurd h h1, ⟨_, [], by simp, hp, ?_, fun h => absurd h h1⟩, ?_⟩
      · rw [if_neg (by omega)]
      · rw [wrap_of_lt (by omega)]; omega
    · rw [if_neg h2, wrap_of_lt (by omega)]
      obtain ⟨c', J, e1, e2, e3, e4⟩ := clearStop_spec (c := w * 32) (ins := ins ++ [.dense w d]) (by simp; omega) hy4 hy (by omega) hb (by omega) hno
      rw [e1]
      refine ⟨c', [.dense w d] ++ J, by simp, by simp; omega, by omega, fun h => absurd h h1, ⟨_, J, rfl, hp, ?_, fun h => absurd h h1⟩, e4 (by omega)⟩
      rw [if_pos (by omega)]; exact e3
  · rw [if_neg h1]
    by_cases hby : b ≤ y * 32
    · obtain ⟨c', J, e1, e2, e3, e4⟩ := clearStop_spec (c := c) (ins := ins) (by omega) hy4 hy (by omega) hb hby hno
      refine ⟨c', J, e1, by omega, by omega, fun _ => e2, ⟨[], J, rfl, ?_, by rw [if_pos hby]; exact e3, fun _ => rfl⟩, e4 (by omega)⟩
      rw [show w * 32 = c by omega]; exact Piece.nil _ _ _
    · refine ⟨c, [], ?_, by simp, by simp, by simp, ⟨[], [], rfl, ?_, by rw [if_neg hby], fun _ => rfl⟩, by omega⟩
      · unfold clearStop
        simp only
        rw [if_pos (by omega), List.append_nil]
      · rw [show w * 32 = c by omega]; exact Piece.nil _ _ _

theorem clearRun_spec {x y c b : Nat} {ins : List Seg} (hlen : ins.length ≤ 4) (hx4 : x % 4 = 0) (hy4 : y % 4 = 0) (hy : y ≤ 134217728)
    (hxc : x * 32 ≤ c) (hcy : c < y * 32) (hcb : c < b) (hb : b < 4294967296) (hblk : c % 128 = 0 ∨ b % 128 = 0 ∨ c / 128 ≠ b / 128)
    (hno : ¬ (b < y * 32 ∧ y * 32 < b + 128)) : ∃ c' J, clearRun x y c b ins = some (c', ins ++ J) ∧ J.length ≤ 4 ∧ (y ≤ (b - 1) / 32 → J.length ≤ 2) ∧
      (c = x * 32 → J.length ≤ 2) ∧
      SegsOK J ∧ (∀ g ∈ J, x ≤ g.startWord) ∧ (∀ g ∈ J, g.endWord ≤ y) ∧ (∀ i, anyBit J i = minusR (inRange (x * 32) (y * 32)) c b i) ∧ c' / 32 < y := by
  have key : ∀ (H : List Seg), Piece H x (c / 128 * 4) (x * 32) (c / 128 * 128) → ∀ K L, Piece K (c / 128 * 4) (c / 128 * 4 + 4) (c / 128 * 4 * 32) c →
      (if b ≤ y * 32 then Piece L (b / 128 * 4) y b (y * 32) else L = []) → (c % 128 = 0 → K = []) →
      SegsOK (H ++ (K ++ L)) ∧ (∀ g ∈ H ++ (K ++ L), x ≤ g.startWord) ∧ (∀ g ∈ H ++ (K ++ L), g.endWord ≤ y) ∧
      (∀ i, anyBit (H ++ (K ++ L)) i = minusR (inRange (x * 32) (y * 32)) c b i) := by
    intro H hH K L hK hL hKe
    have hHK : Piece (H ++ K) x (c / 128 * 4 + 4) (x * 32) c := by
      rw [show c / 128 * 128 = c / 128 * 4 * 32 by omega] at hH
      exact Piece.append hH hK (Nat.le_refl _) (by omega) (by omega) (by omega) (by omega)
    -- no segment in front of an aligned start reaches behind it
    have hhi : ∀ g ∈ H ++ K, g.endWord ≤ c / 128 * 4 + (if c % 128 = 0 then 0 else 4) := by
      intro g hg
      by_cases h : c % 128 = 0
      · rw [if_pos h]
        rw [hKe h, List.append_nil] at hg
        exact hH.hi g hg
      · rw [if_neg h]; exact hHK.hi g hg
    have hbits : ∀ i, minusR (inRange (x * 32) (y * 32)) c b i = (inRange (x * 32) c i || (if b ≤ y * 32 then inRange b (y * 32) i else false)) := by
      intro i
      rw [minusR, Bool.eq_iff_iff]
      by_cases hby : b ≤ y * 32
      · rw [if_pos hby]
        simp only [Bool.and_eq_true, Bool.or_eq_true, Bool.not_eq_true', ← Bool.not_eq_true, inRange_iff]
        omega
      · rw [if_neg hby]
        simp only [Bool.and_eq_true, Bool.or_eq_true, Bool.not_eq_true', ← Bool.not_eq_true, inRange_iff]
        simp
        omega
    by_cases hby : b ≤ y * 32
    · rw [if_pos hby] at hL
      rw [← List.append_assoc]
      refine ⟨SegsOK.append.2 ⟨hHK.ok, hL.ok, fun g hg k hk => ?_⟩, fun g hg => ?_, fun g hg => ?_, fun i => ?_⟩
      · have h1 := hhi g hg
        have h2 := hL.lo k hk
        by_cases h : c % 128 = 0
        · rw [if_pos h] at h1; omega
        · rw [if_neg h] at h1; omega
      · rcases List.mem_append.1 hg with hg | hg
        · exact hHK.lo g hg
        · have := hL.lo g hg; omega
      · rcases List.mem_append.1 hg with hg | hg
        · have h1 := hHK.hi g hg; omega
        · exact hL.hi g hg
      · rw [anyBit_append, hHK.bits, hL.bits, hbits, if_pos hby]
    · rw [if_neg hby] at hL
      rw [hL, List.append_nil]
      refine ⟨hHK.ok, hHK.lo, fun g hg => ?_, fun i => ?_⟩
      · have := hHK.hi g hg; omega
      · rw [hHK.bits, hbits, if_neg hby, Bool.or_false]
  unfold clearRun
  simp only
  by_cases h1 : x < c / 128 * 4
  · rw [if_pos h1, push_of (by omega)]
    simp only [Option.bind_eq_bind, Option.bind_some]
    obtain ⟨c', J, e1, e2, e3, e5, ⟨K, L, rfl, k1, k2, k3⟩, e4⟩ := clearStart_spec (w := c / 128 * 4) (ins := ins ++ [onesSeg x (c / 128 * 4)]) (by simp; omega) rfl hy4 hy
      hcy hcb hb hblk hno
    rw [e1]
    have hH := piece_ones hx4 (show c / 128 * 4 % 4 = 0 by omega) (by omega) (by omega)
    rw [show c / 128 * 4 * 32 = c / 128 * 128 by omega] at hH
    obtain ⟨q1, q2, q3, q4⟩ := key _ hH K L (by rw [show c / 128 * 4 * 32 = c / 128 * 128 by omega] at k1 ⊢; exact k1) k2 k3
    refine ⟨c', [onesSeg x (c / 128 * 4)] ++ (K ++ L), by simp, by simp at e2 ⊢; omega, ?_, by omega, q1, q2, q3, q4, e4⟩
    intro hyb
    have := e3 hyb
    simp at this ⊢
    omega
  · rw [if_neg h1]
    have hxw : x = c / 128 * 4 := by omega
    obtain ⟨c', J, e1, e2, e3, e5, ⟨K, L, rfl, k1, k2, k3⟩, e4⟩ := clearStart_spec (w := x) (ins := ins) (by omega) hxw hy4 hy hcy hcb hb hblk hno
    obtain ⟨q1, q2, q3, q4⟩ := key [] (by rw [show c / 128 * 128 = x * 32 by omega]; exact Piece.nil _ _ _) K L (by rw [← hxw]; exact k1) k2 k3
    exact ⟨c', K ++ L, e1, by omega, fun h => by have := e3 h; omega, fun hc => e5 (by omega), q1, q2, q3, q4, e4⟩

/-- The loop stops at once if the rest of the segments lies behind the range. -/
theorem loop_stop (mut' : Bool) (ii : Nat) {b : Nat} (hb : b < 4294967296) (hb0 : 0 < b) {gs : List Seg} {index c : Nat} {ins : List Seg}
    (h : ∀ g ∈ gs, c / 32 < g.startWord ∧ (b - 1) / 32 < g.startWord) : clearLoop mut' ii b gs index c ins = some (.replace index ins) := by
  cases gs with
  | nil => rfl
  | cons g r =>
    have := h g (by simp)
    rw [clearLoop]
    simp only
    rw [sub32_of_le (by omega) hb, if_pos (by omega)]

/-- What the segments from some index on are replaced by. -/
structure Replaced (gs : List Seg) (a b m : Nat) (J : List Seg) : Prop where
  le : m ≤ gs.length
  ok : SegsOK (J ++ gs.drop m)
  lo : ∀ w, (∀ g ∈ gs, w ≤ g.startWord) → ∀ g ∈ J, w ≤ g.startWord
  bits : ∀ i, anyBit (J ++ gs.drop m) i = minusR (anyBit gs) a b i

theorem minusR_or (f g : Nat → Bool) (a b i : Nat) : minusR (fun i => f i || g i) a b i = (minusR f a b i || minusR g a b i) := by
  simp only [minusR, Bool.and_or_distrib_left]

theorem minusR_eq {f : Nat → Bool} {a b : Nat} {i : Nat} (h : f i = true → i < a ∨ b ≤ i) : minusR f a b i = f i := by
  unfold minusR
  cases hf : f i with
  | false => simp
  | true =>
    have : inRange a b i = false := by
      rw [Bool.eq_false_iff, ne_eq, inRange_iff]
      have := h hf
      omega
    rw [this]; rfl

theorem minusR_false {f : Nat → Bool} {a b : Nat} {i : Nat} (h : f i = true → a ≤ i ∧ i < b) : minusR f a b i = false := by
  unfold minusR
  cases hf : f i with
  | false => simp
  | true => rw [inRange_iff.2 (h hf)]; rfl

theorem anyBit_ge {gs : List Seg} (hs : SegsOK gs) {w : Nat} (h : ∀ g ∈ gs, w ≤ g.startWord) {i : Nat} (hi : anyBit gs i = true) : w ≤ i / 32 := by
  unfold anyBit at hi
  rw [List.any_eq_true] at hi
  obtain ⟨g, hg, hgi⟩ := hi
  have h1 := Seg.bit_iff (hs.each g hg) hgi
  have h2 := h g hg
  omega

/-- The rest of the segments lies behind the range. -/
theorem replaced_stop {gs : List Seg} (hs : SegsOK gs) {a b : Nat} (hb0 : 0 < b) (h : ∀ g ∈ gs, (b - 1) / 32 < g.startWord) : Replaced gs a b 0 [] := by
  refine ⟨Nat.zero_le _, hs, by simp, fun i => ?_⟩
  simp only [List.nil_append, List.drop_zero]
  rw [minusR_eq]
  intro hi
  have := anyBit_ge hs (w := (b - 1) / 32 + 1) (fun g hg => h g hg) hi
  omega

/-- One segment more. -/
theorem replaced_cons {g : Seg} {gs : List Seg} (hs : SegsOK (g :: gs)) {a b m : Nat} {J K : List Seg} (hr : Replaced gs a b m J) (hK : SegsOK K)
    (hlo : ∀ k ∈ K, g.startWord ≤ k.startWord) (hhi : ∀ k ∈ K, k.endWord ≤ g.endWord) (hbits : ∀ i, anyBit K i = minusR g.bit a b i) :
    Replaced (g :: gs) a b (m + 1) (K ++ J) := by
  obtain ⟨okg, okr, hgr⟩ := SegsOK.cons.1 hs
  refine ⟨by have := hr.le; simp; omega, ?_, ?_, ?_⟩
  · rw [List.append_assoc, List.drop_succ_cons]
    refine SegsOK.append.2 ⟨hK, hr.ok, fun k hk r hrr => ?_⟩
    have h1 := hhi k hk
    rcases List.mem_append.1 hrr with h | h
    · have := hr.lo g.endWord hgr r h; omega
    · have := hgr r (List.mem_of_mem_drop h); omega
  · intro w hw k hk
    have h0 := hw g (by simp)
    rcases List.mem_append.1 hk with h | h
    · have := hlo k h; omega
    · exact hr.lo w (fun g' hg' => hw g' (by simp [hg'])) k h
  · intro i
    rw [List.append_assoc, List.drop_succ_cons, anyBit_append, hr.bits, hbits, ← minusR_or]
    rfl

/-- The words of a dense segment with the bits from `c` up to `b` cleared. -/
theorem dense_clear {w : Nat} {d : List Word} (hg : SegOK (.dense w d)) {c b : Nat} (hc1 : w ≤ c / 32) (hc2 : c / 32 < w + 4) (hcb : c < b) :
    ∃ d', BitOps.clear .msb d (c % 128) (if (b - 1) / 32 < w + 4 then b - c else 128 - c % 128) = some d' ∧ d'.length = 4 ∧
      ∀ i, (Seg.dense w d').bit i = minusR (Seg.dense w d).bit c b i := by
  have hw4 : w % 4 = 0 := hg.1
  have hn : c % 128 + (if (b - 1) / 32 < w + 4 then b - c else 128 - c % 128) ≤ 128 := by split <;> omega
  obtain ⟨d', e, hl, hd⟩ := (C41_range .msb d (c % 128) (if (b - 1) / 32 < w + 4 then b - c else 128 - c % 128) (by rw [hg.2.2]; omega)).2
  refine ⟨d', e, hl.trans hg.2.2, fun i => ?_⟩
  simp only [Seg.bit, hd, minusR]
  by_cases hi : w * 32 ≤ i
  · rw [decide_eq_true hi, Bool.true_and, Bool.true_and]
    by_cases hi3 : 128 ≤ i - w * 32
    · rw [bitAt_len4 hg.2.2 hi3, Bool.and_false, ite_self]
    · by_cases hi2 : c ≤ i ∧ i < b
      · rw [inRange_iff.2 hi2, if_pos]
        · rfl
        · split <;> omega
      · have : inRange c b i = false := by rw [Bool.eq_false_iff, ne_eq, inRange_iff]; exact hi2
        rw [this, if_neg]
        · rfl
        · split <;> omega
  · rw [decide_eq_false hi, Bool.false_and, Bool.false_and, Bool.and_false]

/-- What must hold for a run that meets the range. -/
def RunOK (a b x y : Nat) : Prop :=
  a < y * 32 → x * 32 < b → (a % 128 = 0 ∨ b % 128 = 0 ∨ a / 128 ≠ b / 128) ∧ ¬ (b < y * 32 ∧ y * 32 < b + 128)

theorem minusR_congr {f : Nat → Bool} {a c b i : Nat} (h : f i = true → (a ≤ i ↔ c ≤ i)) : minusR f a b i = minusR f c b i := by
  unfold minusR
  cases hf : f i with
  | false => simp
  | true =>
    have : inRange a b i = inRange c b i := by
      rw [Bool.eq_iff_iff, inRange_iff, inRange_iff, h hf]
    rw [this]

/-- The segments behind the first one. -/
theorem later_spec (mut' : Bool) {ii a b : Nat} (hab : a < b) (hb : b < 4294967296) : ∀ (gs : List Seg) (index c : Nat) (ins : List Seg), SegsOK gs →
    (∀ x y, Seg.range x y ∈ gs → RunOK a b x y) → (∀ g ∈ gs, c / 32 < g.startWord) → (∀ g ∈ gs, a / 32 < g.startWord) → ins.length ≤ 4 → ii < index →
    ∃ m J, clearLoop mut' ii b gs index c ins = some (.replace (index + m) (ins ++ J)) ∧ Replaced gs a b m J := by
  intro gs
  induction gs with
  | nil =>
    intro index c ins hs _ _ _ _ _
    exact ⟨0, [], by rw [List.append_nil]; rfl, replaced_stop hs (by omega) (by simp)⟩
  | cons g gs ih =>
    intro index c ins hs hrun hc ha hlen hii
    obtain ⟨okg, okr, hgr⟩ := SegsOK.cons.1 hs
    have hsl := okg.start_lt
    have hcg := hc g (by simp)
    have hag := ha g (by simp)
    by_cases hstop : (b - 1) / 32 < g.startWord
    · refine ⟨0, [], ?_, replaced_stop hs (by omega) ?_⟩
      · rw [List.append_nil]
        refine loop_stop mut' ii hb (by omega) fun g' hg' => ?_
        rcases List.mem_cons.1 hg' with rfl | hg'
        · exact ⟨hcg, hstop⟩
        · have := hgr g' hg'; omega
      · intro g' hg'
        rcases List.mem_cons.1 hg' with rfl | hg'
        · exact hstop
        · have := hgr g' hg'; omega
    have hsb : g.startBit = g.startWord * 32 := by
      have : g.startBit = wrap (g.startWord * 32) := rfl
      rw [this, wrap_of_lt (by omega)]
    have htail : ∀ c', c' / 32 < g.endWord → ∀ ins', ins'.length ≤ 4 →
        ∃ m J, clearLoop mut' ii b gs (index + 1) c' ins' = some (.replace (index + 1 + m) (ins' ++ J)) ∧ Replaced gs a b m J := by
      intro c' hc' ins' hl'
      exact ih (index + 1) c' ins' okr (fun x y hxy => hrun x y (by simp [hxy])) (fun g' hg' => by have := hgr g' hg'; omega)
        (fun g' hg' => by have := hgr g' hg'; omega) hl' (by omega)
    have hlast : (b - 1) / 32 < g.endWord → ∀ c', c' / 32 < g.endWord → ∀ ins',
        ∃ m J, clearLoop mut' ii b gs (index + 1) c' ins' = some (.replace (index + 1 + m) (ins' ++ J)) ∧ Replaced gs a b m J := by
      intro hbe c' hc' ins'
      refine ⟨0, [], ?_, replaced_stop okr (by omega) (fun g' hg' => by have := hgr g' hg'; omega)⟩
      rw [List.append_nil]
      exact loop_stop mut' ii hb (by omega) fun g' hg' => by have := hgr g' hg'; omega
    have finish : ∀ (K : List Seg) (c' : Nat), clearLoop mut' ii b (g :: gs) index c ins = clearLoop mut' ii b gs (index + 1) c' (ins ++ K) →
        (∃ m J, clearLoop mut' ii b gs (index + 1) c' (ins ++ K) = some (.replace (index + 1 + m) ((ins ++ K) ++ J)) ∧ Replaced gs a b m J) →
        SegsOK K → (∀ k ∈ K, g.startWord ≤ k.startWord) → (∀ k ∈ K, k.endWord ≤ g.endWord) → (∀ i, anyBit K i = minusR g.bit a b i) →
        ∃ m J, clearLoop mut' ii b (g :: gs) index c ins = some (.replace (index + m) (ins ++ J)) ∧ Replaced (g :: gs) a b m J := by
      intro K c' e ⟨m, J, e2, hr⟩ k1 k2 k3 k4
      refine ⟨m + 1, K ++ J, ?_, replaced_cons hs hr k1 k2 k3 k4⟩
      rw [e, e2, List.append_assoc, show index + 1 + m = index + (m + 1) by omega]
    have hbeg : ∀ i, g.bit i = true → (a ≤ i ↔ g.startWord * 32 ≤ i) := by
      intro i hi
      have := Seg.bit_iff okg hi
      omega
    by_cases hfull : (b - 1) / 32 ≥ g.endWord
    · refine finish [] g.startBit ?_ (by rw [List.append_nil]; exact htail _ (by rw [hsb]; omega) ins hlen) SegsOK.nil (by simp) (by simp) ?_
      · rw [clearLoop, List.append_nil]
        simp only
        rw [sub32_of_le (by omega) hb, if_neg (by omega), if_pos hcg, if_pos ⟨hfull, rfl⟩]
      · intro i
        rw [anyBit_nil, minusR_false]
        intro hi
        have := Seg.bit_iff okg hi
        omega
    · have hstep : clearLoop mut' ii b (g :: gs) index c ins = (match g with
          | .range a' b' => (clearRun a' b' (g.startWord * 32) b ins).bind fun p => clearLoop mut' ii b gs (index + 1) p.1 p.2
          | .dense w d => (BitOps.clear .msb d (g.startWord * 32 % 128) (b - g.startWord * 32)).bind fun d =>
              (push ins (.dense w d)).bind fun ins => clearLoop mut' ii b gs (index + 1) (g.startWord * 32) ins) := by
        rw [clearLoop]
        simp only
        rw [sub32_of_le (by omega) hb, if_neg (by omega), if_pos hcg, if_neg (by omega), hsb]
        cases g with
        | range => rfl
        | dense w d =>
          have he : (b - 1) / 32 < w + 4 := by
            have : ¬ (b - 1) / 32 ≥ w + 4 := hfull
            omega
          simp only
          rw [if_neg (by omega), if_pos he, sub32_of_le (by omega) hb]
          rfl
      cases g with
      | range x y =>
        have hok : x % 4 = 0 ∧ y % 4 = 0 ∧ x + 8 ≤ y ∧ y ≤ 134217728 := okg
        have h1 : ¬ (b - 1) / 32 < x := hstop
        have h2 : ¬ (b - 1) / 32 ≥ y := hfull
        have h3 : a / 32 < x := hag
        have hro := hrun x y (by simp) (by omega) (by omega)
        obtain ⟨c', J, e1, e2, e3, e4, e5, e6, e7, e8, e9⟩ := clearRun_spec (ins := ins) (by omega) hok.1 hok.2.1 hok.2.2.2 (Nat.le_refl (x * 32)) (by omega)
          (show x * 32 < b by omega) hb (.inl (by omega)) hro.2
        refine finish J c' ?_ (hlast (Nat.lt_of_not_le hfull) c' e9 _) e5 e6 e7 ?_
        · rw [hstep]
          simp only [Seg.startWord, e1, Option.bind_some]
        · intro i
          rw [e8]
          exact (minusR_congr (hbeg i)).symm
      | dense w d =>
        have h1 : ¬ (b - 1) / 32 < w := hstop
        have h2 : ¬ (b - 1) / 32 ≥ w + 4 := hfull
        obtain ⟨d', e1, e2, e3⟩ := dense_clear okg (c := w * 32) (b := b) (by omega) (by omega) (by omega)
        rw [if_pos (by omega)] at e1
        refine finish [.dense w d'] (w * 32) ?_ (hlast (Nat.lt_of_not_le hfull) (w * 32) (show w * 32 / 32 < w + 4 by omega) _) ?_ ?_ ?_ ?_
        · rw [hstep]
          simp only [Seg.startWord, e1, Option.bind_some]
          rw [push_of (by omega), Option.bind_some]
        · exact SegsOK.cons.2 ⟨⟨okg.1, okg.2.1, e2⟩, SegsOK.nil, by simp⟩
        · simp [Seg.startWord]
        · simp [Seg.endWord]
        · intro i
          rw [anyBit_cons, anyBit_nil, Bool.or_false, e3]
          exact (minusR_congr (hbeg i)).symm

theorem clearRangeSegs_spec {newCap : Nat → Nat} (hc : ∀ n, n ≤ newCap n) {s : BS} (h : OK s) {segs : List Seg} (hs : SegsOK segs)
    (hbits : ∀ i, anyBit segs i = member s i) {mut' : Bool} {cap : Nat} (hcap : mut' = true → segs.length ≤ cap) {a b : Nat} (hab : a < b)
    (hb : b < 4294967296) (hrun : ∀ x y, Seg.range x y ∈ segs → RunOK a b x y) :
    ∃ s', clearRangeSegs newCap s mut' segs cap a b = some (true, s') ∧ Holds s' (minusR (member s) a b) := by
  have hlast' : ∀ i, 4294967295 ≤ i → minusR (member s) a b i = false := by
    intro i hi
    rw [minusR, h.last i hi, Bool.and_false]
  obtain ⟨k, ek, f⟩ := lowerBound_spec hs (a / 32)
  unfold clearRangeSegs
  rw [ek]
  simp only [Option.bind_eq_bind, Option.bind_some]
  rcases Found.split hs f with ⟨hk, hbelow⟩ | ⟨l, g, r, e0, e1, e2, e3, e4, e5, e6, e7, okg, okl, okr⟩
  · rw [if_pos (by omega)]
    refine ⟨s, rfl, h, fun i => ?_⟩
    rw [minusR_eq]
    intro hi
    rw [← hbits] at hi
    unfold anyBit at hi
    rw [List.any_eq_true] at hi
    obtain ⟨g, hg, hgi⟩ := hi
    have := Seg.bit_iff (hs.each g hg) hgi
    have := hbelow g hg
    omega
  have hlen : k < segs.length := by rw [e0]; simp; omega
  rw [if_neg (by omega)]
  have hdrop : segs.drop k = g :: r := by rw [e0, ← e1]; simp
  have htake : segs.take k = l := by rw [e0, ← e1]; simp
  rw [hdrop]
  have hsd := hs.drop k
  rw [hdrop] at hsd
  have hsl := okg.start_lt
  -- bits in front of the segments
  have hl : ∀ i, anyBit l i = true → i < a := by
    intro i hi
    unfold anyBit at hi
    rw [List.any_eq_true] at hi
    obtain ⟨g', hg', hgi⟩ := hi
    have h1 := Seg.bit_iff (okl.each g' hg') hgi
    have h2 := e3 g' hg'
    omega
  have hall : ∀ i, minusR (member s) a b i = (anyBit l i || minusR (anyBit (g :: r)) a b i) := by
    intro i
    have : minusR (member s) a b i = minusR (fun i => anyBit l i || anyBit (g :: r) i) a b i := by
      unfold minusR
      rw [← hbits, e0, anyBit_append]
    rw [this, minusR_or]
    congr 1
    exact minusR_eq fun hi => .inl (hl i hi)
  have hrep : ∀ m J, Replaced (g :: r) a b m J → Holds (splice newCap s mut' segs k (k + m - k) J) (minusR (member s) a b) := by
    intro m J hr
    have hd2 : segs.drop (k + m) = (g :: r).drop m := by rw [← List.drop_drop, hdrop]
    refine splice_spec hc s mut' (Nat.le_add_right _ _) ?_ ?_ hlast'
    · rw [htake, hd2, List.append_assoc]
      refine SegsOK.append.2 ⟨okl, hr.ok, fun x hx y hy => ?_⟩
      rcases List.mem_append.1 hy with hy | hy
      · refine hr.lo x.endWord (fun z hz => ?_) y hy
        rcases List.mem_cons.1 hz with rfl | hz
        · exact e6 x hx
        · have := e7 z hz
          have := e6 x hx
          omega
      · rcases List.mem_cons.1 (List.mem_of_mem_drop hy) with rfl | hz
        · exact e6 x hx
        · have := e7 y hz
          have := e6 x hx
          omega
    · intro i
      rw [htake, hd2, List.append_assoc, anyBit_append, hr.bits, hall]
  have hstopr : (b - 1) / 32 < g.endWord → ∀ (index c' : Nat) (ins' : List Seg), c' / 32 < g.endWord →
      ∃ m J, clearLoop mut' k b r index c' ins' = some (.replace (index + m) (ins' ++ J)) ∧ Replaced r a b m J := by
    intro hbe index c' ins' hc'
    refine ⟨0, [], ?_, replaced_stop okr (by omega) (fun g' hg' => by have := e7 g' hg'; omega)⟩
    rw [List.append_nil]
    exact loop_stop mut' k hb (by omega) fun g' hg' => by have := e7 g' hg'; omega
  have hlater : ∀ (c' : Nat) (ins' : List Seg), ins'.length ≤ 4 → c' / 32 < g.endWord →
      ∃ m J, clearLoop mut' k b r (k + 1) c' ins' = some (.replace (k + 1 + m) (ins' ++ J)) ∧ Replaced r a b m J := by
    intro c' ins' hl' hc'
    refine later_spec mut' hab hb r (k + 1) c' ins' okr (fun x y hxy => hrun x y (by rw [e0]; simp [hxy])) (fun g' hg' => by have := e7 g' hg'; omega)
      (fun g' hg' => by have := e7 g' hg'; omega) hl' (by omega)
  by_cases hstop : a / 32 < g.startWord ∧ (b - 1) / 32 < g.startWord
  · have hloop := loop_stop mut' k hb (by omega) (gs := g :: r) (index := k) (c := a) (ins := []) (fun g' hg' => by
      rcases List.mem_cons.1 hg' with rfl | hg'
      · exact hstop
      · have := e7 g' hg'; omega)
    rw [hloop]
    refine ⟨_, rfl, hrep 0 [] (replaced_stop hsd (by omega) fun g' hg' => ?_)⟩
    rcases List.mem_cons.1 hg' with rfl | hg'
    · exact hstop.2
    · have := e7 g' hg'; omega
  -- the start of the range in the first segment
  have hsb : g.startWord ≤ (b - 1) / 32 → g.startBit = g.startWord * 32 := by
    intro hle
    have : g.startBit = wrap (g.startWord * 32) := rfl
    rw [this, wrap_of_lt (by omega)]
  have hle : g.startWord ≤ (b - 1) / 32 := by omega
  have hc1 : ∃ c, (if a / 32 < g.startWord then g.startBit else a) = c ∧ a ≤ c ∧ g.startWord * 32 ≤ c ∧ c < g.endWord * 32 ∧ c < b ∧
      (c = a ∨ c % 128 = 0) ∧ (∀ i, g.bit i = true → (a ≤ i ↔ c ≤ i)) := by
    by_cases hlt : a / 32 < g.startWord
    · rw [if_pos hlt, hsb hle]
      refine ⟨_, rfl, by omega, by omega, by omega, by omega, by omega, fun i hi => ?_⟩
      have := Seg.bit_iff okg hi
      omega
    · rw [if_neg hlt]
      exact ⟨a, rfl, by omega, by omega, by omega, by omega, by omega, fun i hi => Iff.rfl⟩
  obtain ⟨c, ec, c1, c2, c3, c4, c5, c6⟩ := hc1
  have finish : ∀ (K : List Seg) (c' : Nat), clearLoop mut' k b (g :: r) k a [] = clearLoop mut' k b r (k + 1) c' K →
      (∃ m J, clearLoop mut' k b r (k + 1) c' K = some (.replace (k + 1 + m) (K ++ J)) ∧ Replaced r a b m J) →
      SegsOK K → (∀ x ∈ K, g.startWord ≤ x.startWord) → (∀ x ∈ K, x.endWord ≤ g.endWord) → (∀ i, anyBit K i = minusR g.bit a b i) →
      ∃ m J, clearLoop mut' k b (g :: r) k a [] = some (.replace (k + m) J) ∧ Replaced (g :: r) a b m J := by
    intro K c' e ⟨m, J, e2, hr⟩ k1 k2 k3 k4
    refine ⟨m + 1, K ++ J, ?_, replaced_cons hsd hr k1 k2 k3 k4⟩
    rw [e, e2, show k + 1 + m = k + (m + 1) by omega]
  have conclude : (∃ m J, clearLoop mut' k b (g :: r) k a [] = some (.replace (k + m) J) ∧ Replaced (g :: r) a b m J) →
      ∃ s', ((clearLoop mut' k b (g :: r) k a []).bind fun x => match x with
        | .inPlace i d => match segs[i]? with
          | some (.dense w _) => some (true, BS.dyn (segs.set i (.dense w d)) cap 0)
          | _ => none
        | .replace i ins => some (true, splice newCap s mut' segs k (i - k) ins)) = some (true, s') ∧ Holds s' (minusR (member s) a b) := by
    intro ⟨m, J, e, hr⟩
    rw [e]
    exact ⟨_, rfl, hrep m J hr⟩
  by_cases hfull : (b - 1) / 32 ≥ g.endWord ∧ c = g.startBit
  · apply conclude
    rw [hsb hle] at hfull
    refine finish [] c ?_ (hlater c [] (by simp) (by omega)) SegsOK.nil (by simp) (by simp) ?_
    · rw [clearLoop]
      simp only
      rw [sub32_of_le (by omega) hb, if_neg (by omega), ec, hsb hle, if_pos hfull]
    · intro i
      rw [anyBit_nil, minusR_false]
      intro hi
      have h1 := Seg.bit_iff okg hi
      have h2 := c6 i hi
      omega
  have hstep : clearLoop mut' k b (g :: r) k a [] = (match g with
      | .range a' b' => (clearRun a' b' c b []).bind fun p => clearLoop mut' k b r (k + 1) p.1 p.2
      | .dense w d =>
        if (b - 1) / 32 < w + 4 ∧ mut' = true then
          (BitOps.clear .msb d (c % 128) (b - c)).bind fun d => some (.inPlace k d)
        else (BitOps.clear .msb d (c % 128) (if (b - 1) / 32 < w + 4 then b - c else 128 - c % 128)).bind fun d =>
          (push [] (.dense w d)).bind fun ins => clearLoop mut' k b r (k + 1) c ins) := by
    rw [clearLoop]
    simp only
    rw [sub32_of_le (by omega) hb, if_neg (by omega), ec, if_neg hfull]
    cases g with
    | range => rfl
    | dense w d =>
      simp only [and_true]
      rw [sub32_of_le (by omega) hb]
      rfl
  cases g with
  | range x y =>
    apply conclude
    have hok : x % 4 = 0 ∧ y % 4 = 0 ∧ x + 8 ≤ y ∧ y ≤ 134217728 := okg
    have h1 : a / 32 < y := e4
    have h2 : x * 32 ≤ c := c2
    have h3 : c < y * 32 := c3
    have hro := hrun x y (by rw [e0]; simp) (by omega) (by omega)
    obtain ⟨c', J, q1, q2, q3, q4, q5, q6, q7, q8, q9⟩ := clearRun_spec (ins := []) (by simp) hok.1 hok.2.1 hok.2.2.2 h2 h3 c4 hb
      (by
        rcases c5 with rfl | h
        · exact hro.1
        · exact .inl h) hro.2
    refine finish J c' ?_ (hlater c' J q2 q9) q5 q6 q7 ?_
    · rw [hstep]
      simp only [q1, Option.bind_some, List.nil_append]
    · intro i
      rw [q8]
      exact (minusR_congr (c6 i)).symm
  | dense w d =>
    have h2 : w * 32 ≤ c := c2
    have h3 : c < (w + 4) * 32 := c3
    obtain ⟨d', q1, q2, q3⟩ := dense_clear okg (c := c) (b := b) (by omega) (by omega) c4
    by_cases hin : (b - 1) / 32 < w + 4 ∧ mut' = true
    · rw [hstep]
      simp only
      rw [if_pos hin]
      rw [if_pos hin.1] at q1
      rw [q1]
      simp only [Option.bind_some, e2]
      rw [e0, set_split e1]
      refine ⟨_, rfl, holds_dyn ?_ ?_ ?_ hlast'⟩
      · exact segsOK_replace okl okr e6 e7 (Nat.le_add_right _ _) ⟨okg.1, okg.2.1, q2⟩ rfl rfl
      · have := hcap hin.2
        rw [e0] at this
        simpa using this
      · intro i
        rw [hall, anyBit_append, anyBit_cons, q3]
        have h5 : minusR (anyBit (Seg.dense w d :: r)) a b i = (minusR (Seg.dense w d).bit a b i || minusR (anyBit r) a b i) := minusR_or _ _ _ _ _
        have h6 : minusR (anyBit r) a b i = anyBit r i := by
          apply minusR_eq
          intro hi
          have h7 : w + 4 ≤ i / 32 := anyBit_ge okr (w := w + 4) (fun g' hg' => e7 g' hg') hi
          omega
        rw [h5, h6, minusR_congr (c6 i)]
    · apply conclude
      refine finish [.dense w d'] c ?_ (hlater c _ (by simp) (show c / 32 < w + 4 by omega)) ?_ ?_ ?_ ?_
      · rw [hstep]
        simp only
        rw [if_neg hin, q1]
        simp only [Option.bind_some]
        rw [push_of (by simp), Option.bind_some, List.nil_append]
      · exact SegsOK.cons.2 ⟨⟨okg.1, okg.2.1, q2⟩, SegsOK.nil, by simp⟩
      · simp [Seg.startWord]
      · simp [Seg.endWord]
      · intro i
        rw [anyBit_cons, anyBit_nil, Bool.or_false, q3]
        exact (minusR_congr (c6 i)).symm

/-- The calls of `clear_range` that do what they should: the range does not lie inside one segment of a run unless it reaches to an end of it,
and it does not end in the last segment of a run unless it reaches to the end of it.  (An in place set is first turned into segments.) -/
def Clearable (s : BS) (a b : Nat) : Prop :=
  match s with
  | .range p q => ∀ l, segsFromRange p q = some l → ∀ x y, Seg.range x y ∈ l → RunOK a b x y
  | .dense w _ => w ≤ ssoLastWord
  | .dyn segs _ _ => ∀ x y, Seg.range x y ∈ segs → RunOK a b x y

theorem clearRange_spec {newCap : Nat → Nat} (hc : ∀ n, n ≤ newCap n) {s : BS} (h : OK s) (mut' : Bool) {a b : Nat} (hab : a < b)
    (hb : b < 4294967296) (hclr : Clearable s a b) :
    ∃ s', clearRange newCap s mut' a b = some (true, s') ∧ Holds s' (minusR (member s) a b) := by
  have hr := h.rep
  have hlast' : ∀ i, 4294967295 ≤ i → minusR (member s) a b i = false := by
    intro i hi
    rw [minusR, h.last i hi, Bool.and_false]
  unfold clearRange
  rw [if_neg (by omega)]
  cases s with
  | range p q =>
    simp only
    have hq : q ≤ 4294967295 := by rcases hr with ⟨_, _⟩ | ⟨_, _⟩ <;> omega
    have hm : ∀ i, minusR (member (.range p q)) a b i = true ↔ ¬ (a ≤ i ∧ i < b) ∧ p ≤ i ∧ i < q := by
      intro i
      simp only [minusR, member, Bool.and_eq_true, decide_eq_true_eq, Bool.not_eq_true', ← Bool.not_eq_true, inRange_iff]
    by_cases h1 : max p a ≥ min q b
    · rw [if_pos h1]
      refine ⟨_, rfl, h, fun i => ?_⟩
      rw [Bool.eq_iff_iff, hm]
      simp only [member, Bool.and_eq_true, decide_eq_true_eq]
      omega
    rw [if_neg h1]
    by_cases h2 : max p a = p
    · rw [if_pos h2]
      by_cases h3 : min q b = q
      · rw [if_pos h3]
        refine ⟨_, rfl, holds_empty fun i => ?_⟩
        rw [Bool.eq_false_iff, ne_eq, hm]
        omega
      · rw [if_neg h3]
        refine ⟨_, rfl, holds_range (by omega) (by omega) fun i => ?_⟩
        rw [Bool.eq_iff_iff, hm, inRange_iff]
        omega
    rw [if_neg h2]
    by_cases h3 : min q b = q
    · rw [if_pos h3]
      refine ⟨_, rfl, holds_range (by omega) (by omega) fun i => ?_⟩
      rw [Bool.eq_iff_iff, hm, inRange_iff]
      omega
    rw [if_neg h3]
    by_cases h4 : sub32 (p / 32) (sub32 q 1 / 32) < 2
    · rw [if_pos h4]
      rw [sub32_of_le (show 1 ≤ q by omega) (by omega)] at h4
      have hsame : p / 32 = (q - 1) / 32 := by
        unfold sub32 at h4
        omega
      have e1 : max p a = a := by omega
      have e2 : min q b = b := by omega
      rw [e1, e2, sub32_of_le (show p ≤ q by omega) (by omega), sub32_of_le (show p / 32 * 32 ≤ a by omega) (by omega), sub32_of_le (show a ≤ b by omega) hb]
      obtain ⟨d, e, hl, hd⟩ := (C41_range .msb ([0, 0] : List Word) (p % 32) (q - p) (by simp only [List.length_cons, List.length_nil]; omega)).1
      have hl2 : d.length = 2 := hl
      obtain ⟨d', e', hl', hd'⟩ := (C41_range .msb d (a - p / 32 * 32) (b - a) (by rw [hl2]; omega)).2
      rw [e]
      simp only [Option.bind_eq_bind, Option.bind_some, e']
      refine ⟨_, rfl, holds_dense (j := p) (by omega) (hl'.trans hl2) (by rw [hm]; omega) ?_ hlast'⟩
      intro i
      rw [hd', hd, bitAt_zeros2, Bool.eq_iff_iff, hm, Bool.and_eq_true, decide_eq_true_eq]
      by_cases hi : p / 32 * 32 ≤ i
      · by_cases hi1 : a ≤ i ∧ i < b
        · rw [if_pos (by omega)]; simp [hi1]
        · rw [if_neg (by omega)]
          by_cases hi2 : p % 32 ≤ i - p / 32 * 32 ∧ i - p / 32 * 32 < p % 32 + (q - p)
          · rw [if_pos hi2]; simp only [hi1, hi, not_false_eq_true, true_and, true_iff]; omega
          · rw [if_neg hi2]; simp only [hi1, Bool.false_eq_true, and_false, not_false_eq_true, true_and, false_iff]; omega
      · constructor
        · intro h; exact absurd h.1 hi
        · intro h; omega
    · rw [if_neg h4]
      obtain ⟨segs, e, g1, g2, g3⟩ := makeSegs_spec h (by simp) (by simp [empty]; omega)
      rw [e]
      exact clearRangeSegs_spec hc h g1 g3 (by simp) hab hb (hclr segs e)
  | dense w d =>
    obtain ⟨r1, r2, r3⟩ := hr
    have hw6 : w ≤ 134217726 := hclr
    have hlb : ssoLastBit w = w * 32 + 63 := by
      unfold ssoLastBit wrap sub32
      omega
    simp only
    rw [wrap_of_lt (show w * 32 < 4294967296 by omega), hlb, sub32_of_le (show 1 ≤ b by omega) hb]
    by_cases h1 : max a (w * 32) > min (b - 1) (w * 32 + 63)
    · rw [if_pos h1]
      refine ⟨_, rfl, h, fun i => ?_⟩
      rw [minusR_eq]
      intro hi
      rw [member, Bool.and_eq_true, decide_eq_true_eq] at hi
      have : ¬ 64 ≤ i - w * 32 := fun hc => by rw [bitAt_len2 r2 hc] at hi; simp at hi
      omega
    · rw [if_neg h1, sub32_of_le (show w * 32 ≤ max a (w * 32) by omega) (by omega), sub32_of_le (by omega) (by omega), wrap_of_lt (by omega)]
      obtain ⟨d', e', hl', hd'⟩ := (C41_range .msb d (max a (w * 32) - w * 32) (min (b - 1) (w * 32 + 63) - max a (w * 32) + 1)
        (by rw [r2]; omega)).2
      rw [e']
      simp only [Option.bind_eq_bind, Option.bind_some]
      obtain ⟨s', e2, hs'⟩ := normalizeSso_spec (w := w) (d := d') r1 (hl'.trans r2) (f := minusR (member (.dense w d)) a b) (fun i => by
        rw [hd', minusR, member]
        by_cases hi : w * 32 ≤ i
        · rw [decide_eq_true hi, Bool.true_and, Bool.true_and]
          by_cases hi3 : 64 ≤ i - w * 32
          · rw [bitAt_len2 r2 hi3, Bool.and_false, ite_self]
          · by_cases hi2 : a ≤ i ∧ i < b
            · rw [inRange_iff.2 hi2, if_pos (by omega)]; rfl
            · have : inRange a b i = false := by rw [Bool.eq_false_iff, ne_eq, inRange_iff]; exact hi2
              rw [this, if_neg (by omega)]; rfl
        · rw [decide_eq_false hi, Bool.false_and, Bool.false_and, Bool.and_false]) hlast'
      rw [e2]
      exact ⟨s', rfl, hs'⟩
  | dyn segs cap card =>
    obtain ⟨r1, r2, _⟩ := hr
    exact clearRangeSegs_spec hc h r1 (fun i => rfl) (fun _ => r2) hab hb hclr

end Blend2D.BitSet
