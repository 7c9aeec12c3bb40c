import Verif.Async.Edges
import Verif.Draw.Loop

/-! # A command in a band -/

namespace Blend2D.Async
open Draw Draw.Spec Raster Raster.Spec
open Fill (Comp Row Args)

variable {P : Type}

/-! ## Scanlines below the image -/

/-- A scanline without marks is left alone. -/
theorem scan_zero (o : BitOps.Order) (A : Args) (C : Comp P) (r : Row P) (hz : ∀ w ∈ r.bits, w = 0) : ∀ (n p x : Nat),
    p + n ≤ r.bits.length → Fill.scan o A C r n p x = some r := by
  intro n
  induction n with
  | zero => intro p x _; rfl
  | succ n ih =>
    intro p x hp
    have : r.bits[p]? = some r.bits[p] := List.getElem?_eq_getElem (by omega)
    have hw := hz r.bits[p] (List.getElem_mem _)
    simp only [Fill.scan, this, Option.bind_eq_bind, Option.bind_some, hw]
    rw [if_neg (by simp)]
    exact ih _ _ (by omega)

theorem fill_zero (o : BitOps.Order) (A : Args) (C : Nat → Comp P) : ∀ (extra : List (Row P)) (y : Nat),
    (∀ r ∈ extra, ∀ w ∈ r.bits, w = 0) → Fill.fill o A C y extra = some extra := by
  intro extra
  induction extra with
  | nil => intro _ _; rfl
  | cons r rs ih =>
    intro y h
    have h1 : Fill.scanline o A (C y) r = some r := scan_zero o A (C y) r (h r (by simp)) _ _ _ (by omega)
    simp only [Fill.fill, h1, ih (y + 1) (fun r hr => h r (List.mem_cons_of_mem _ hr)), Option.bind_eq_bind, Option.bind_some]
    rfl

theorem fill_append (o : BitOps.Order) (A : Args) (C : Nat → Comp P) (extra : List (Row P)) (hz : ∀ r ∈ extra, ∀ w ∈ r.bits, w = 0) :
    ∀ (rows : List (Row P)) (y : Nat), Fill.fill o A C y (rows ++ extra) = (Fill.fill o A C y rows).map (· ++ extra) := by
  intro rows
  induction rows with
  | nil => intro y; rw [List.nil_append, fill_zero o A C extra y hz]; rfl
  | cons r rs ih =>
    intro y
    simp only [List.cons_append, Fill.fill, ih, Option.bind_eq_bind]
    cases Fill.scanline o A (C y) r with
    | none => rfl
    | some r' =>
      simp only [Option.bind_some]
      cases Fill.fill o A C (y + 1) rs <;> rfl

theorem fill_length (o : BitOps.Order) (A : Args) (C : Nat → Comp P) : ∀ (rows : List (Row P)) (y : Nat) {rows' : List (Row P)},
    Fill.fill o A C y rows = some rows' → rows'.length = rows.length := by
  intro rows
  induction rows with
  | nil => intro y rows' h; simp only [Fill.fill, Option.some.injEq] at h; rw [← h]
  | cons r rs ih =>
    intro y rows' h
    simp only [Fill.fill, Option.bind_eq_bind, Option.bind_eq_some_iff] at h
    obtain ⟨r', _, rs', h2, h3⟩ := h
    have h3 := Option.some.inj h3
    rw [← h3, List.length_cons, List.length_cons, ih (y + 1) h2]

/-- The scanlines in the image, and those below it. -/
theorem rowsAt_split (b : Bufs) (img : List (List P)) (off m : Nat) {rows : List (Row P)} (hr : Draw.rowsAt b img off m = some rows)
    (hm : off + m = img.length) : ∀ n, m + n ≤ b.bits.length → m + n ≤ b.cells.length →
    ∃ extra, rowsAt b img off (m + n) = some (rows ++ extra) ∧ extra.map Row.bits = (b.bits.drop m).take n ∧
      extra.map Row.cells = (b.cells.drop m).take n ∧ ∀ r ∈ extra, r.dst = [] := by
  intro n
  induction n with
  | zero =>
    intro _ _
    refine ⟨[], ?_, by simp, by simp, by simp⟩
    rw [List.append_nil, Nat.add_zero]
    have : ∀ (k : Nat) rs, k ≤ m → Draw.rowsAt b img off k = some rs → rowsAt b img off k = some rs := by
      intro k
      induction k with
      | zero => intro rs _ h; exact h
      | succ k ih =>
        intro rs hk h
        simp only [Draw.rowsAt, Option.bind_eq_bind, Option.bind_eq_some_iff, Draw.rowAt] at h
        obtain ⟨rs0, a1, r, ⟨bb, a2, cc, a3, dd, a4, a5⟩, a6⟩ := h
        simp only [rowsAt, ih rs0 (by omega) a1, rowAt, a2, a3, a4, Option.bind_eq_bind, Option.bind_some, Option.getD_some]
        rw [Option.some.inj a5]
        exact a6
    exact this m rows (Nat.le_refl _) hr
  | succ n ih =>
    intro h1 h2
    obtain ⟨extra, i1, i2, i3, i4⟩ := ih (by omega) (by omega)
    have e1 : b.bits[m + n]? = some b.bits[m + n] := List.getElem?_eq_getElem (by omega)
    have e2 : b.cells[m + n]? = some b.cells[m + n] := List.getElem?_eq_getElem (by omega)
    have e3 : img[off + (m + n)]? = none := List.getElem?_eq_none (by omega)
    refine ⟨extra ++ [⟨b.bits[m + n], b.cells[m + n], [], 0⟩], ?_, ?_, ?_, ?_⟩
    · rw [← Nat.add_assoc]
      simp only [rowsAt, i1, rowAt, e1, e2, e3, Option.bind_eq_bind, Option.bind_some, Option.getD_none, List.append_assoc]
    · rw [List.map_append, i2, List.take_add_one, List.getElem?_drop, e1]
      rfl
    · rw [List.map_append, i3, List.take_add_one, List.getElem?_drop, e2]
      rfl
    · intro r hr
      rcases List.mem_append.1 hr with hr | hr
      · exact i4 r hr
      · simp only [List.mem_singleton] at hr
        rw [hr]

theorem drop_take {α : Type} (l : List α) (m n : Nat) : (l.drop m).take n ++ l.drop (m + n) = l.drop m := by
  rw [← List.drop_drop]
  exact List.take_append_drop n _

/-- A band that reaches below the image is filled as if it ended there, if nothing is marked below. -/
theorem fillBand_eq (F : Cfg) (C : Nat → Comp P) (off n : Nat) (b : Bufs) (img : List (List P)) (hoff : off ≤ img.length)
    (h1 : n ≤ b.bits.length) (h2 : n ≤ b.cells.length)
    (hz : ∀ (i : Nat) row, img.length ≤ off + i → b.bits[i]? = some row → ∀ w ∈ row, w = 0) :
    fillBand F C off n b img = Draw.fillBand F C off (min n (img.length - off)) b img := by
  unfold fillBand Draw.fillBand
  by_cases hb : b.minX ≤ b.maxX
  swap
  · rw [if_neg hb, if_neg hb]
  rw [if_pos hb, if_pos hb]
  generalize ({ rule := F.rule, alpha := F.alpha, xEnd := min F.w (align4 (b.maxX + 1)) } : Args) = A
  by_cases c : off + n ≤ img.length
  · rw [Nat.min_eq_left (by omega)]
    have same : ∀ k, k ≤ n → rowsAt b img off k = Draw.rowsAt b img off k := by
      intro k
      induction k with
      | zero => intro _; rfl
      | succ k ih =>
        intro hk
        simp only [rowsAt, Draw.rowsAt, ih (by omega), rowAt, Draw.rowAt, List.getElem?_eq_getElem (show off + k < img.length by omega),
          Option.bind_eq_bind, Option.bind_some, Option.getD_some]
    rw [same n (Nat.le_refl _)]
    obtain ⟨rows, r1, r2, r3⟩ := rowsAt_ok b img off n h1 h2 (Or.inl c)
    rw [r1]
    simp only [Option.bind_eq_bind, Option.bind_some]
    cases hfill : Fill.fill F.o A C off rows with
    | none => rfl
    | some rows' =>
      simp only [Option.bind_some]
      have hlen : rows'.length = n := by
        rw [← r2]
        exact fill_length F.o A C rows off hfill
      rw [List.take_of_length_le]
      simp
      omega
  · rw [Nat.min_eq_right (by omega)]
    obtain ⟨m, hm⟩ : ∃ m, img.length - off = m := ⟨_, rfl⟩
    rw [hm]
    obtain ⟨rows, r1, r2, r3⟩ := rowsAt_ok b img off m (by omega) (by omega) (by omega)
    obtain ⟨extra, s1, s2, s3, s4⟩ := rowsAt_split b img off m r1 (by omega) (n - m) (by omega) (by omega)
    rw [show m + (n - m) = n by omega] at s1
    rw [s1, r1]
    simp only [Option.bind_eq_bind, Option.bind_some]
    have hze : ∀ r ∈ extra, ∀ w ∈ r.bits, w = 0 := by
      intro r hr
      have : r.bits ∈ (b.bits.drop m).take (n - m) := by rw [← s2]; exact List.mem_map_of_mem hr
      obtain ⟨i, hi1, hi2⟩ := List.getElem_of_mem (List.mem_of_mem_take this)
      rw [List.getElem_drop] at hi2
      exact hz (m + i) r.bits (by omega) (by rw [← hi2]; exact List.getElem?_eq_getElem _)
    rw [fill_append F.o A C extra hze]
    cases hfill : Fill.fill F.o A C off rows with
    | none => rfl
    | some rows' =>
      have hlen : rows'.length = m := by
        rw [← r2]
        exact fill_length F.o A C rows off hfill
      simp only [Option.map_some, Option.bind_some, List.map_append, s2, s3, List.append_assoc]
      have d1 := drop_take b.bits m (n - m)
      have d2 := drop_take b.cells m (n - m)
      rw [show m + (n - m) = n by omega] at d1 d2
      rw [d1, d2]
      congr 2
      rw [List.drop_of_length_le (show img.length ≤ off + n by omega), List.drop_of_length_le (show img.length ≤ off + m by omega),
        List.append_nil, List.append_nil, ← List.append_assoc, List.take_append_of_le_length (by simp; omega), List.take_of_length_le]
      simp
      omega

end Blend2D.Async
