import Verif.Draw.Writes
import Verif.Draw.Closed
import Verif.Fill.Props

/-! # The pixels of a band -/

namespace Blend2D.Draw
open Raster Raster.Spec Spec
open BitOps (Order bitAt)
open Fill (Comp Row Args)

variable {P : Type}

/-- The buffers have the right size and are zero. -/
structure Clean (w bh : Nat) (b : Bufs) : Prop where
  bitsLen : b.bits.length = bh
  cellsLen : b.cells.length = bh
  bits : ∀ row ∈ b.bits, row.length = wordCount w ∧ ∀ x ∈ row, x = 0
  cells : ∀ row ∈ b.cells, row.length = cellCount w ∧ ∀ x ∈ row, x = 0

theorem getD_zero {row : List (BitVec 32)} (h : ∀ x ∈ row, x = 0) (k : Nat) : (row[k]?).getD 0 = 0 := by
  by_cases c : k < row.length
  · rw [List.getElem?_eq_getElem c]
    exact h _ (List.getElem_mem c)
  · rw [List.getElem?_eq_none (by omega)]; rfl

theorem sum_zero {row : List (BitVec 32)} (h : ∀ x ∈ row, x = 0) (n : Nat) : Fill.Spec.sum row n = 0 := by
  induction n with
  | zero => rfl
  | succ n ih => rw [Fill.Spec.sum, ih, getD_zero h]; rfl

theorem bitAt_zero (o : Order) {row : List (BitVec 64)} (h : ∀ x ∈ row, x = 0) (g : Nat) : bitAt o row g = false := by
  unfold bitAt
  by_cases c : g / 64 < row.length
  · rw [List.getElem?_eq_getElem c]
    simp only []
    rw [h _ (List.getElem_mem c)]
    exact BitOps.hasBit_zero o _
  · rw [List.getElem?_eq_none (by omega)]

theorem clean_holds (o : Order) {w bh : Nat} (off m : Nat) {b : Bufs} (h : Clean w bh b) :
    Holds o w bh off [] { b with minX := m, maxX := 0 } := by
  refine ⟨h.bitsLen, h.cellsLen, ?_, ?_, fun _ h => by simp at h, fun _ h => by simp at h, Or.inl rfl⟩
  · intro r row hr
    obtain ⟨h1, h2⟩ := h.bits row (List.mem_of_getElem? hr)
    refine ⟨h1, fun g => ?_⟩
    rw [bitAt_zero o h2]
    simp [marked]
  · intro r row hr
    obtain ⟨h1, h2⟩ := h.cells row (List.mem_of_getElem? hr)
    refine ⟨h1, fun x => ?_, fun k hk => absurd (getD_zero h2 k) hk⟩
    rw [sum_zero h2]
    simp [acc]

/-- Rows without writes are zero. -/
theorem BitRow.clean {o : Order} {w : Nat} {y : Int} {log : List Ev} {row : List (BitVec 64)} (h : BitRow o w y log row)
    (hn : ∀ a b, Ev.mark y a b ∉ log) : ∀ x ∈ row, x = 0 := by
  intro x hx
  obtain ⟨k, hk, e⟩ := List.getElem_of_mem hx
  refine BitOps.zero_of_no_bit o fun i hi => ?_
  have h1 : ¬ bitAt o row (k * 64 + i) = true := by
    rw [h.2]
    rintro ⟨a, b, hm, _⟩
    exact hn a b hm
  rw [BitOps.bitAt_word o row hi, List.getElem?_eq_getElem hk] at h1
  simp only [e] at h1
  simpa using h1

theorem CellRow.clean {w : Nat} {y : Int} {log : List Ev} {row : List (BitVec 32)} (h : CellRow w y log row)
    (hn : ∀ x v, Ev.cell y x v ∉ log) : ∀ x ∈ row, x = 0 := by
  intro x hx
  obtain ⟨k, hk, e⟩ := List.getElem_of_mem hx
  by_contra hc
  obtain ⟨v, hv⟩ := h.2.2 k (by rw [List.getElem?_eq_getElem hk]; simpa [e] using hc)
  exact hn _ _ hv

/-- Behind the last cell that is written nothing changes. -/
theorem acc_const {y X : Int} : ∀ (log : List Ev), (∀ x v, Ev.cell y x v ∈ log → x ≤ X) → ∀ {x : Int}, X ≤ x → acc y x log = acc y X log := by
  intro log
  induction log with
  | nil => intro _ _ _; rfl
  | cons e l ih =>
    intro h x hx
    have hl := ih (fun x v hm => h x v (List.mem_cons_of_mem _ hm)) hx
    cases e with
    | cell y' x' v =>
      simp only [acc, hl]
      by_cases c : y' = y
      · subst c
        have := h x' v (by simp)
        rw [if_pos ⟨rfl, by omega⟩, if_pos ⟨rfl, this⟩]
      · rw [if_neg (fun a => c a.1), if_neg (fun a => c a.1)]
    | _ => simpa [acc] using hl

/-- Where the fill stops (rendercommandprocsync_p.h:242). -/
def fillEnd (w maxX : Nat) : Nat := min w (align4 (maxX + 1))

section
variable {o : Order} {W : Box} {w bh off : Nat} {log : List Ev} {b : Bufs}

/-- Right of the end of the fill there is no coverage. -/
theorem acc_right (hw : W.w = w) (H : Holds o w bh off log b) (hl : LogIn W log) {y : Int} (hc : ∀ x : Int, (w : Int) ≤ x → acc y x log = 0)
    {x : Int} (hx : (fillEnd w b.maxX : Int) ≤ x) : acc y x log = 0 := by
  by_cases c : (w : Int) ≤ x
  · exact hc x c
  · have hs : ∀ x' v, Ev.cell y x' v ∈ log → x' ≤ (fillEnd w b.maxX : Int) := by
      intro x' v hm
      obtain ⟨_, hi, h1, h2⟩ := hl.cells y x' v hm
      have := H.right hi h1
      unfold fillEnd align4 at *
      omega
    rw [acc_const log hs hx, ← acc_const log hs (x := w) (by omega)]
    exact hc w (by omega)

theorem sum_diff (row : List (BitVec 32)) (k : Nat) : (row[k]?).getD 0 = Fill.Spec.sum row (k + 1) - Fill.Spec.sum row k := by
  rw [Fill.Spec.sum]
  rw [BitVec.add_comm, BitVec.add_sub_cancel]

/-- What the rasterizer leaves is what the fill needs. -/
theorem fill_ready (hw : W.w = w) (H : Holds o w bh off log b) (hl : LogIn W log) {r : Nat} {bits : List (BitVec 64)}
    {cells : List (BitVec 32)} (hb : b.bits[r]? = some bits) (hcl : b.cells[r]? = some cells)
    (hc : ∀ x : Int, (w : Int) ≤ x → acc (off + r : Int) x log = 0) : Fill.Spec.Ready o (fillEnd w b.maxX) bits cells := by
  have B := H.bits r bits hb
  have C := H.cells r cells hcl
  refine ⟨?_, ?_, ?_, ?_, ?_, ?_⟩
  · intro k hk
    obtain ⟨v, hv⟩ := C.2.2 k hk
    rcases hl.covered _ _ _ hv with m | ⟨m1, m2⟩
    · left
      refine (B.2 _).2 ?_
      rwa [show ((k / 4 : Nat) : Int) = (k : Int) / 4 by omega]
    · right
      have h1 : 0 < k := by
        obtain ⟨a, b', n1, n2, n3⟩ := m2
        obtain ⟨_, ⟨lo, n4, n5⟩, _⟩ := hl.marks _ _ _ n1
        have := hl.left lo n4
        omega
      refine ⟨by omega, h1, (B.2 _).2 ?_⟩
      rwa [show ((k / 4 - 1 : Nat) : Int) = (k : Int) / 4 - 1 by omega]
  · intro g hg
    obtain ⟨a, b', n1, n2, n3⟩ := (B.2 g).1 hg
    obtain ⟨_, _, hi, n4, n5⟩ := hl.marks _ _ _ n1
    have h1 := hl.right hi n4
    have h2 := H.right hi n4
    unfold fillEnd align4
    omega
  · intro k hk
    obtain ⟨j, rfl⟩ : ∃ j, k = j + 1 := ⟨k - 1, by omega⟩
    rw [sum_diff, C.2.1, C.2.1, acc_right hw H hl hc (by omega), acc_right hw H hl hc (by omega)]
    simp
  · rw [B.1]
    unfold fillEnd wordCount cellCount align4
    omega
  · rw [C.1]
    unfold fillEnd cellCount align4
    omega
  · rw [C.2.1, acc_right hw H hl hc (Int.le_refl _)]
    rfl
end

/-- The mask of the coverage `a`: see C47. -/
def maskOf (rule : BitVec 32) (a : Int) (alpha : Nat) : Nat :=
  if rule = 0x1FF#32 then Fill.Spec.evenOdd a alpha else Fill.Spec.nonZero a alpha

theorem maskOf_zero (rule : BitVec 32) (alpha : Nat) : maskOf rule 0 alpha = 0 := by
  have := Fill.C47_mask_range 0 (alpha := alpha)
  unfold maskOf
  split
  · exact this.2.2.2.1
  · exact this.2.2.1

theorem calc_maskOf {rule : BitVec 32} (hr : rule = BitVec.allOnes 32 ∨ rule = 0x1FF#32) {cells : List (BitVec 32)} {n : Nat} {a : Int}
    (h1 : -(2 ^ 31) ≤ 0x20000 + a) (h2 : 0x20000 + a < 2 ^ 31) {alpha : Nat} (ha : alpha ≤ 255)
    (hs : Fill.Spec.sum cells n = BitVec.ofInt 32 a) : Fill.calcMask (0x20000#32 + Fill.Spec.sum cells n) rule alpha = maskOf rule a alpha := by
  rcases hr with hr | hr
  · subst hr
    rw [Fill.C47_mask_nonzero h1 h2 ha hs, maskOf, if_neg (by decide)]
  · subst hr
    rw [Fill.C47_mask_evenodd h1 h2 ha hs, maskOf, if_pos rfl]

theorem rowsAt_ok (b : Bufs) (img : List (List P)) (off : Nat) : ∀ n, n ≤ b.bits.length → n ≤ b.cells.length →
    off + n ≤ img.length ∨ n = 0 → ∃ rows, rowsAt b img off n = some rows ∧ rows.length = n ∧
      ∀ (i : Nat) r, rows[i]? = some r → b.bits[i]? = some r.bits ∧ b.cells[i]? = some r.cells ∧ img[off + i]? = some r.dst := by
  intro n
  induction n with
  | zero => intro _ _ _; exact ⟨[], rfl, rfl, fun i r h => by simp at h⟩
  | succ n ih =>
    intro h1 h2 h3
    obtain ⟨rows, a1, a2, a3⟩ := ih (by omega) (by omega) (by omega)
    refine ⟨rows ++ [⟨b.bits[n], b.cells[n], img[off + n], 0⟩], ?_, by simp [a2], ?_⟩
    · simp only [rowsAt, a1, rowAt, List.getElem?_eq_getElem (show n < b.bits.length by omega),
        List.getElem?_eq_getElem (show n < b.cells.length by omega),
        List.getElem?_eq_getElem (show off + n < img.length by omega), Option.bind_eq_bind, Option.bind_some]
    · intro i r hr
      by_cases c : i < rows.length
      · rw [List.getElem?_append_left c] at hr
        exact a3 i r hr
      · rw [List.getElem?_append_right (by omega)] at hr
        have hi : i = n := by
          have := (List.getElem?_eq_some_iff.1 hr).1
          simp at this
          omega
        subst hi
        rw [show i - rows.length = 0 by omega] at hr
        simp only [List.getElem?_cons_zero, Option.some.injEq] at hr
        subst hr
        exact ⟨List.getElem?_eq_getElem _, List.getElem?_eq_getElem _, List.getElem?_eq_getElem _⟩

/-- The pixels of row `y` are composed with the masks of the coverage `a`. -/
def Painted (F : Cfg) (C : Nat → Comp P) (a : Int → Int → Int) (y : Nat) (row row' : List P) : Prop :=
  row'.length = row.length ∧ ∀ x (hx : x < row.length), row'[x]? = some ((C y).masked x row[x] (maskOf F.rule (a y x) F.alpha))

theorem painted_zero {F : Cfg} {C : Nat → Comp P} (hC : ∀ y, Fill.Good (C y)) {a : Int → Int → Int} {y : Nat} {row : List P}
    (h : ∀ x : Nat, x < row.length → a y x = 0) : Painted F C a y row row := by
  refine ⟨rfl, fun x hx => ?_⟩
  rw [h x hx, maskOf_zero, (hC y).zero, List.getElem?_eq_getElem hx]

variable {F : Cfg} {C : Nat → Comp P} {W : Box} {off n : Nat} {log : List Ev} {b : Bufs} {img : List (List P)}

/-- The fill of a band paints its rows, and leaves clean buffers. -/
theorem fillBand_ok (hC : ∀ y, Fill.Good (C y)) (hr : F.rule = BitVec.allOnes 32 ∨ F.rule = 0x1FF#32) (ha : F.alpha ≤ 255)
    (hw : W.w = F.w) (H : Holds F.o F.w F.bh off log b) (hl : LogIn W log) (hrows : InRows off ((off : Int) + n - 1) log)
    (hc : ∀ y x : Int, (F.w : Int) ≤ x → acc y x log = 0)
    (hra : ∀ y x : Nat, -(2 ^ 31) ≤ 0x20000 + acc y x log ∧ 0x20000 + acc y x log < 2 ^ 31)
    (hn : n ≤ F.bh) (hi : off + n ≤ img.length ∨ n = 0) (hwid : ∀ row ∈ img, row.length = F.w) :
    ∃ b' img', fillBand F C off n b img = some (b', img') ∧ Clean F.w F.bh b' ∧ img'.length = img.length ∧
      ∀ y row, img[y]? = some row → ∃ row', img'[y]? = some row' ∧
        (if off ≤ y ∧ y < off + n then Painted F C (fun y x => acc y x log) y row row' else row' = row) := by
  by_cases hb : b.minX ≤ b.maxX
  · obtain ⟨rows, r1, r2, r3⟩ := rowsAt_ok b img off n (by rw [H.bitsLen]; exact hn) (by rw [H.cellsLen]; exact hn) hi
    have hready : ∀ r ∈ rows, Fill.Spec.Ready F.o (fillEnd F.w b.maxX) r.bits r.cells ∧ fillEnd F.w b.maxX ≤ r.dst.length := by
      intro r hm
      obtain ⟨i, hi1, hi2⟩ := List.getElem_of_mem hm
      obtain ⟨k1, k2, k3⟩ := r3 i r (by rw [← hi2]; exact List.getElem?_eq_getElem hi1)
      refine ⟨fill_ready hw H hl k1 k2 (hc _), ?_⟩
      rw [hwid _ (List.mem_of_getElem? k3)]
      unfold fillEnd
      omega
    obtain ⟨rows', f1, f2, f3⟩ := Fill.C47_fill (o := F.o) (A := { rule := F.rule, alpha := F.alpha, xEnd := fillEnd F.w b.maxX }) hC hr rows
      off hready
    have get : ∀ (i : Nat) r', rows'[i]? = some r' → ∃ r, rows[i]? = some r := by
      intro i r' h
      have := (List.getElem?_eq_some_iff.1 h).1
      exact ⟨_, List.getElem?_eq_getElem (by omega)⟩
    refine ⟨{ b with bits := rows'.map Row.bits ++ b.bits.drop n, cells := rows'.map Row.cells ++ b.cells.drop n },
      img.take off ++ rows'.map Row.dst ++ img.drop (off + n), ?_, ⟨?_, ?_, ?_, ?_⟩, ?_, ?_⟩
    · simp only [fillBand, if_pos hb, r1, Option.bind_eq_bind, Option.bind_some]
      unfold fillEnd at f1
      simp only [f1, Option.bind_some]
    · show (rows'.map Row.bits ++ b.bits.drop n).length = F.bh
      have := H.bitsLen
      simp
      omega
    · show (rows'.map Row.cells ++ b.cells.drop n).length = F.bh
      have := H.cellsLen
      simp
      omega
    · intro row hrow
      rcases List.mem_append.1 hrow with hrow | hrow
      · obtain ⟨r', hr', e⟩ := List.mem_map.1 hrow
        obtain ⟨i, hi1, hi2⟩ := List.getElem_of_mem hr'
        have hi3 : rows'[i]? = some r' := by rw [← hi2]; exact List.getElem?_eq_getElem hi1
        obtain ⟨r, hr⟩ := get i r' hi3
        obtain ⟨z1, z2, z3, z4, _⟩ := f3 i r r' hr hi3
        rw [← e]
        exact ⟨by rw [z3]; exact (H.bits i _ (r3 i r hr).1).1, z1⟩
      · obtain ⟨i, hi1, hi2⟩ := List.getElem_of_mem hrow
        rw [List.getElem_drop] at hi2
        have B := H.bits (n + i) row (by rw [← hi2]; exact List.getElem?_eq_getElem _)
        refine ⟨B.1, B.clean fun a b' hm => ?_⟩
        have := hrows.2 _ _ _ hm
        omega
    · intro row hrow
      rcases List.mem_append.1 hrow with hrow | hrow
      · obtain ⟨r', hr', e⟩ := List.mem_map.1 hrow
        obtain ⟨i, hi1, hi2⟩ := List.getElem_of_mem hr'
        have hi3 : rows'[i]? = some r' := by rw [← hi2]; exact List.getElem?_eq_getElem hi1
        obtain ⟨r, hr⟩ := get i r' hi3
        obtain ⟨z1, z2, z3, z4, _⟩ := f3 i r r' hr hi3
        rw [← e]
        exact ⟨by rw [z4]; exact (H.cells i _ (r3 i r hr).2.1).1, z2⟩
      · obtain ⟨i, hi1, hi2⟩ := List.getElem_of_mem hrow
        rw [List.getElem_drop] at hi2
        have B := H.cells (n + i) row (by rw [← hi2]; exact List.getElem?_eq_getElem _)
        refine ⟨B.1, B.clean fun a b' hm => ?_⟩
        have := hrows.1 _ _ _ hm
        omega
    · simp
      omega
    · intro y row hrow
      have hy := (List.getElem?_eq_some_iff.1 hrow).1
      by_cases c1 : y < off
      · refine ⟨row, ?_, by rw [if_neg (by omega)]⟩
        rw [List.append_assoc, List.getElem?_append_left (by simp; omega), List.getElem?_take_of_lt c1]
        exact hrow
      · have htake : (img.take off).length = off := by simp; omega
        rw [List.append_assoc, List.getElem?_append_right (by omega), htake]
        by_cases c2 : y < off + n
        · have hlt : y - off < rows'.length := by omega
          have hi3 : rows'[y - off]? = some rows'[y - off] := List.getElem?_eq_getElem hlt
          obtain ⟨r, hr'⟩ := get _ _ hi3
          obtain ⟨_, k2, k3⟩ := r3 _ r hr'
          rw [show off + (y - off) = y by omega, hrow] at k3
          have k3 := Option.some.inj k3
          obtain ⟨_, _, _, _, z5, z6, z7⟩ := f3 _ r _ hr' hi3
          refine ⟨rows'[y - off].dst, ?_, ?_⟩
          · rw [List.getElem?_append_left (by simp; omega), List.getElem?_map, hi3]
            rfl
          rw [if_pos (by omega)]
          subst k3
          refine ⟨z5, fun x hx => ?_⟩
          have hcell := H.cells _ _ k2
          have hoff : ((off : Int) + ((y - off : Nat) : Int)) = y := by omega
          by_cases c3 : x < fillEnd F.w b.maxX
          · rw [z6 x hx c3, show off + (y - off) = y by omega, calc_maskOf hr (hra y x).1 (hra y x).2 ha]
            have := hcell.2.1 x
            rw [hoff] at this
            exact this
          · rw [z7 x (Nat.not_lt.1 c3), List.getElem?_eq_getElem hx]
            simp only []
            rw [acc_right hw H hl (hc (y : Int)) (x := (x : Int)) (by omega), maskOf_zero, (hC y).zero]
        · refine ⟨row, ?_, by rw [if_neg (by omega)]⟩
          rw [List.getElem?_append_right (by simp; omega), List.getElem?_drop]
          simp only [List.length_map]
          rw [show off + n + (y - off - rows'.length) = y by omega]
          exact hrow
  · have hlog : log = [] := by
      by_contra hne
      obtain ⟨lo, hi, h1, h2, h3⟩ := hl.bounds hne
      have := H.left lo h1
      have := H.right hi h2
      omega
    subst hlog
    refine ⟨b, img, by simp [fillBand, hb], ⟨H.bitsLen, H.cellsLen, ?_, ?_⟩, rfl, ?_⟩
    · intro row hrow
      obtain ⟨r, hr1, hr2⟩ := List.getElem_of_mem hrow
      have B := H.bits r row (by rw [← hr2]; exact List.getElem?_eq_getElem hr1)
      exact ⟨B.1, B.clean (by simp)⟩
    · intro row hrow
      obtain ⟨r, hr1, hr2⟩ := List.getElem_of_mem hrow
      have B := H.cells r row (by rw [← hr2]; exact List.getElem?_eq_getElem hr1)
      exact ⟨B.1, B.clean (by simp)⟩
    · intro y row hrow
      refine ⟨row, hrow, ?_⟩
      split
      · exact painted_zero hC fun x _ => rfl
      · rfl

end Blend2D.Draw
