import Verif.Draw.Bits
import Verif.Draw.Edges
import Verif.Fill.Spec

/-! # The buffers after the writes of a band -/

namespace Blend2D.Draw
open Raster Raster.Spec Spec
open BitOps (Order bitAt)

/-- Cells of a row (`required_width`, rendercommandprocsync_p.h:102). -/
def cellCount (w : Nat) : Nat := align4 (w + 5)

/-- Words of a row of bits (`bit_stride`, rendercommandprocsync_p.h:106). -/
def wordCount (w : Nat) : Nat := (cellCount w / 4 + 63) / 64

/-- Row `y` of the bits says what `log` marked. -/
def BitRow (o : Order) (w : Nat) (y : Int) (log : List Ev) (row : List (BitVec 64)) : Prop :=
  row.length = wordCount w ∧ ∀ g : Nat, bitAt o row g = true ↔ marked y g log

/-- Row `y` of the cells holds what `log` wrote. -/
def CellRow (w : Nat) (y : Int) (log : List Ev) (row : List (BitVec 32)) : Prop :=
  row.length = cellCount w ∧ (∀ x : Nat, Fill.Spec.sum row (x + 1) = BitVec.ofInt 32 (acc y x log)) ∧
    ∀ k : Nat, (row[k]?).getD 0 ≠ 0 → ∃ v, Ev.cell y k v ∈ log

/-- The buffers of a band that starts at scanline `off` after the writes `log`. -/
structure Holds (o : Order) (w bh off : Nat) (log : List Ev) (b : Bufs) : Prop where
  bitsLen : b.bits.length = bh
  cellsLen : b.cells.length = bh
  bits : ∀ (r : Nat) row, b.bits[r]? = some row → BitRow o w (off + r : Int) log row
  cells : ∀ (r : Nat) row, b.cells[r]? = some row → CellRow w (off + r : Int) log row
  left : ∀ lo, Ev.minX lo ∈ log → (b.minX : Int) ≤ lo
  right : ∀ hi, Ev.maxX hi ∈ log → hi ≤ b.maxX
  top : b.maxX = 0 ∨ Ev.maxX b.maxX ∈ log

/-- A write that is inside of the buffers. -/
def Fit (w bh off : Nat) : Ev → Prop
  | .cell y x _ => (off : Int) ≤ y ∧ y < (off : Int) + bh ∧ 0 ≤ x ∧ x < cellCount w
  | .mark y g h => (off : Int) ≤ y ∧ y < (off : Int) + bh ∧ 0 ≤ g ∧ g ≤ h ∧ h / 64 < wordCount w
  | .minX m => 0 ≤ m
  | .maxX m => 0 ≤ m

theorem sum_set (row : List (BitVec 32)) {i : Nat} (hi : i < row.length) (v : BitVec 32) : ∀ n,
    Fill.Spec.sum (row.set i (row[i] + v)) n = Fill.Spec.sum row n + if i < n then v else 0 := by
  intro n
  induction n with
  | zero => simp [Fill.Spec.sum]
  | succ n ih =>
    rw [Fill.Spec.sum, ih, Fill.Spec.sum, List.getElem?_set]
    by_cases c : i = n
    · subst c
      rw [if_pos rfl, if_pos hi, if_neg (by omega), if_pos (by omega), List.getElem?_eq_getElem hi]
      simp [BitVec.add_assoc]
    · rw [if_neg c]
      by_cases d : i < n
      · rw [if_pos d, if_pos (by omega), BitVec.add_assoc, BitVec.add_assoc, BitVec.add_comm v]
      · rw [if_neg d, if_neg (by omega)]; simp

theorem nat?_some {i : Int} (h : 0 ≤ i) : nat? i = some i.toNat := by simp [nat?, h]

theorem marked_other {y g : Int} {log : List Ev} {ev : Ev} (h : ∀ y' a b, ev = .mark y' a b → y' ≠ y) :
    marked y g (log ++ [ev]) ↔ marked y g log := by
  constructor
  · rintro ⟨a, b, hm, h1, h2⟩
    rcases List.mem_append.1 hm with hm | hm
    · exact ⟨a, b, hm, h1, h2⟩
    · exact absurd rfl (h y a b (List.mem_singleton.1 hm).symm)
  · exact marked_append_left _

theorem acc_other {y x : Int} {log : List Ev} {ev : Ev} (h : ∀ y' a b, ev = .cell y' a b → y' ≠ y) :
    acc y x (log ++ [ev]) = acc y x log := by
  rw [acc_append]
  cases ev with
  | cell y' a b => simp [acc, h y' a b rfl]
  | _ => simp [acc]

theorem BitRow.other {o : Order} {w : Nat} {y : Int} {log : List Ev} {row : List (BitVec 64)} {ev : Ev}
    (h : BitRow o w y log row) (he : ∀ y' a b, ev = .mark y' a b → y' ≠ y) : BitRow o w y (log ++ [ev]) row :=
  ⟨h.1, fun g => (h.2 g).trans (marked_other he).symm⟩

theorem CellRow.other {w : Nat} {y : Int} {log : List Ev} {row : List (BitVec 32)} {ev : Ev}
    (h : CellRow w y log row) (he : ∀ y' a b, ev = .cell y' a b → y' ≠ y) : CellRow w y (log ++ [ev]) row :=
  ⟨h.1, fun x => by rw [h.2.1, acc_other he], fun k hk => by
    obtain ⟨v, hv⟩ := h.2.2 k hk
    exact ⟨v, List.mem_append_left _ hv⟩⟩

theorem mem_snoc_min {log : List Ev} {ev : Ev} {lo : Int} (h : Ev.minX lo ∈ log ++ [ev]) (he : ev ≠ .minX lo) : Ev.minX lo ∈ log := by
  rcases List.mem_append.1 h with h | h
  · exact h
  · exact absurd (List.mem_singleton.1 h).symm he

theorem mem_snoc_max {log : List Ev} {ev : Ev} {lo : Int} (h : Ev.maxX lo ∈ log ++ [ev]) (he : ev ≠ .maxX lo) : Ev.maxX lo ∈ log := by
  rcases List.mem_append.1 h with h | h
  · exact h
  · exact absurd (List.mem_singleton.1 h).symm he

theorem write_cell {o : Order} {w bh off : Nat} {log : List Ev} {b : Bufs} {y x v : Int} (h : Holds o w bh off log b)
    (hf : Fit w bh off (.cell y x v)) : ∃ b', write o off b (.cell y x v) = some b' ∧ Holds o w bh off (log ++ [.cell y x v]) b' := by
  obtain ⟨f1, f2, f3, f4⟩ := hf
  have hr : (y - off).toNat < b.cells.length := by rw [h.cellsLen]; omega
  have hrow := h.cells _ _ (List.getElem?_eq_getElem hr)
  have hy : ((off : Int) + ((y - off).toNat : Nat)) = y := by omega
  rw [hy] at hrow
  have hx : x.toNat < b.cells[(y - off).toNat].length := by rw [hrow.1]; omega
  refine ⟨{ b with cells := b.cells.set (y - off).toNat (b.cells[(y - off).toNat].set x.toNat
    (b.cells[(y - off).toNat][x.toNat] + BitVec.ofInt 32 v)) }, ?_, ?_⟩
  · simp only [write, nat?_some (show 0 ≤ y - (off : Int) by omega), nat?_some f3, List.getElem?_eq_getElem hr,
      List.getElem?_eq_getElem hx, Option.bind_eq_bind, Option.bind_some]
  · refine ⟨h.bitsLen, by simp [h.cellsLen], ?_, ?_, ?_, ?_, ?_⟩
    · intro r row hr'
      exact (h.bits r row hr').other (fun _ _ _ hh => by simp at hh)
    · intro r row hr'
      simp only [List.getElem?_set] at hr'
      by_cases c : (y - off).toNat = r
      · rw [if_pos c, if_pos hr] at hr'
        have hr' := Option.some.inj hr'
        subst c
        rw [hy, ← hr']
        refine ⟨by rw [List.length_set]; exact hrow.1, ?_, ?_⟩
        · intro k
          rw [sum_set _ hx, hrow.2.1, acc_append]
          by_cases d : x.toNat < k + 1
          · rw [if_pos d]
            simp only [acc]
            rw [if_pos ⟨trivial, by omega⟩, Int.add_zero, BitVec.ofInt_add]
          · rw [if_neg d]
            simp only [acc]
            rw [if_neg (by omega)]
            simp
        · intro k hk
          by_cases d : x.toNat = k
          · refine ⟨v, ?_⟩
            have : (k : Int) = x := by omega
            rw [this]
            simp
          · rw [List.getElem?_set, if_neg d] at hk
            obtain ⟨v, hv⟩ := hrow.2.2 k hk
            exact ⟨v, List.mem_append_left _ hv⟩
      · rw [if_neg c] at hr'
        exact (h.cells r row hr').other (fun y' _ _ hh => by cases hh; omega)
    · exact fun lo hm => h.left lo (mem_snoc_min hm (by simp))
    · exact fun lo hm => h.right lo (mem_snoc_max hm (by simp))
    · exact h.top.imp id (List.mem_append_left _)

theorem write_mark {o : Order} {w bh off : Nat} {log : List Ev} {b : Bufs} {y g g' : Int} (h : Holds o w bh off log b)
    (hf : Fit w bh off (.mark y g g')) :
    ∃ b', write o off b (.mark y g g') = some b' ∧ Holds o w bh off (log ++ [.mark y g g']) b' := by
  obtain ⟨f1, f2, f3, f4, f5⟩ := hf
  have hr : (y - off).toNat < b.bits.length := by rw [h.bitsLen]; omega
  have hrow := h.bits _ _ (List.getElem?_eq_getElem hr)
  have hy : ((off : Int) + ((y - off).toNat : Nat)) = y := by omega
  rw [hy] at hrow
  obtain ⟨nrow, n1, n2, n3⟩ := bitFill_spec o b.bits[(y - off).toNat] (first := g.toNat) (last := g'.toNat) (by omega)
    (by rw [hrow.1]; omega)
  refine ⟨{ b with bits := b.bits.set (y - off).toNat nrow }, ?_, ?_⟩
  · simp only [write, nat?_some (show 0 ≤ y - (off : Int) by omega), nat?_some f3, nat?_some (show 0 ≤ g' by omega),
      List.getElem?_eq_getElem hr, n1, Option.bind_eq_bind, Option.bind_some]
  · refine ⟨by simp [h.bitsLen], h.cellsLen, ?_, ?_, ?_, ?_, ?_⟩
    · intro r row hr'
      simp only [List.getElem?_set] at hr'
      by_cases c : (y - off).toNat = r
      · rw [if_pos c, if_pos hr] at hr'
        have hr' := Option.some.inj hr'
        subst c
        rw [hy, ← hr']
        refine ⟨by rw [n2, hrow.1], fun k => ?_⟩
        rw [n3]
        by_cases d : g.toNat ≤ k ∧ k ≤ g'.toNat
        · rw [if_pos d]
          exact ⟨fun _ => ⟨g, g', by simp, by omega, by omega⟩, fun _ => rfl⟩
        · rw [if_neg d, hrow.2 k]
          constructor
          · exact marked_append_left _
          · rintro ⟨a, a', hm, h1, h2⟩
            rcases List.mem_append.1 hm with hm | hm
            · exact ⟨a, a', hm, h1, h2⟩
            · have := List.mem_singleton.1 hm
              cases this
              omega
      · rw [if_neg c] at hr'
        exact (h.bits r row hr').other (fun y' _ _ hh => by cases hh; omega)
    · intro r row hr'
      exact (h.cells r row hr').other (fun _ _ _ hh => by simp at hh)
    · exact fun lo hm => h.left lo (mem_snoc_min hm (by simp))
    · exact fun lo hm => h.right lo (mem_snoc_max hm (by simp))
    · exact h.top.imp id (List.mem_append_left _)

theorem write_ok {o : Order} {w bh off : Nat} {log : List Ev} {b : Bufs} {ev : Ev} (h : Holds o w bh off log b)
    (hf : Fit w bh off ev) : ∃ b', write o off b ev = some b' ∧ Holds o w bh off (log ++ [ev]) b' := by
  cases ev with
  | cell y x v => exact write_cell h hf
  | mark y g g' => exact write_mark h hf
  | minX m =>
    have hm : 0 ≤ m := hf
    refine ⟨{ b with minX := min b.minX m.toNat }, by simp [write, nat?_some hm], h.bitsLen, h.cellsLen,
      fun r row hr => (h.bits r row hr).other (fun _ _ _ hh => by simp at hh),
      fun r row hr => (h.cells r row hr).other (fun _ _ _ hh => by simp at hh), ?_,
      fun lo hm => h.right lo (mem_snoc_max hm (by simp)), h.top.imp id (List.mem_append_left _)⟩
    intro lo hl
    show ((min b.minX m.toNat : Nat) : Int) ≤ lo
    by_cases c : m = lo
    · omega
    · have := h.left lo (mem_snoc_min hl (by simpa using c))
      omega
  | maxX m =>
    have hm : 0 ≤ m := hf
    refine ⟨{ b with maxX := max b.maxX m.toNat }, by simp [write, nat?_some hm], h.bitsLen, h.cellsLen,
      fun r row hr => (h.bits r row hr).other (fun _ _ _ hh => by simp at hh),
      fun r row hr => (h.cells r row hr).other (fun _ _ _ hh => by simp at hh),
      fun lo hm => h.left lo (mem_snoc_min hm (by simp)), ?_, ?_⟩
    · intro lo hl
      show lo ≤ ((max b.maxX m.toNat : Nat) : Int)
      by_cases c : m = lo
      · omega
      · have := h.right lo (mem_snoc_max hl (by simpa using c))
        omega
    · show max b.maxX m.toNat = 0 ∨ Ev.maxX ((max b.maxX m.toNat : Nat) : Int) ∈ _
      by_cases c : b.maxX ≤ m.toNat
      · right
        have : ((max b.maxX m.toNat : Nat) : Int) = m := by omega
        rw [this]
        simp
      · rcases h.top with t | t
        · omega
        · right
          have : ((max b.maxX m.toNat : Nat) : Int) = b.maxX := by omega
          rw [this]
          exact List.mem_append_left _ t

theorem writes_ok {o : Order} {w bh off : Nat} : ∀ (l log : List Ev) (b : Bufs), Holds o w bh off log b →
    (∀ ev ∈ l, Fit w bh off ev) → ∃ b', writes o off b l = some b' ∧ Holds o w bh off (log ++ l) b' := by
  intro l
  induction l with
  | nil => intro log b h _; exact ⟨b, rfl, by simpa using h⟩
  | cons ev l ih =>
    intro log b h hf
    obtain ⟨b1, w1, h1⟩ := write_ok h (hf ev (by simp))
    obtain ⟨b2, w2, h2⟩ := ih _ b1 h1 fun e he => hf e (List.mem_cons_of_mem _ he)
    refine ⟨b2, ?_, by simpa using h2⟩
    simp only [writes, w1, Option.bind_eq_bind, Option.bind_some]
    exact w2

/-- The writes of a band fit. -/
theorem fit_of {W : Box} {w bh off : Nat} {e : Int} {log : List Ev} (hw : W.w = w) (hl : LogIn W log) (hr : InRows off e log)
    (he : e < (off : Int) + bh) : ∀ ev ∈ log, Fit w bh off ev := by
  intro ev hm
  cases ev with
  | cell y x v =>
    obtain ⟨⟨lo, l1, l2⟩, hi, r1, r2⟩ := hl.cells y x v hm
    have h1 := hl.left lo l1
    have h2 := hl.right hi r1
    have h3 := hr.1 y x v hm
    refine ⟨by omega, by omega, by omega, ?_⟩
    unfold cellCount align4
    omega
  | mark y g g' =>
    obtain ⟨h0, ⟨lo, l1, l2⟩, hi, r1, r2⟩ := hl.marks y g g' hm
    have h1 := hl.left lo l1
    have h2 := hl.right hi r1
    have h3 := hr.2 y g g' hm
    refine ⟨by omega, by omega, by omega, h0, ?_⟩
    unfold wordCount cellCount align4
    omega
  | minX m => exact (hl.left m hm).1
  | maxX m => exact (hl.right m hm).1

end Blend2D.Draw
