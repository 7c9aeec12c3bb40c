import Verif.Bmp.Header

/-!
# Pixels of files
-/
namespace Blend2D.Bmp
open Spec PixConv PixConv.Spec

/-! ## More memory does not matter -/

theorem put_mono {w m : Nat} {c c' : Canvas} {py px : Nat} {v : UInt32} (h : put w m c py px v = .ok c') : put w (m + 1) c py px v = .ok c' := by
  unfold put at h ⊢
  split at h
  · rename_i hk
    rw [if_pos ⟨by omega, hk.2⟩]; exact h
  · simp at h

theorem putRun_mono {w m : Nat} {vs : List UInt32} {c c' : Canvas} {py px : Nat} (h : putRun w m c py px vs = .ok c') :
    putRun w (m + 1) c py px vs = .ok c' := by
  induction vs generalizing c px with
  | nil => exact h
  | cons v vs ih =>
    simp only [putRun] at h ⊢
    rw [Res.bind_ok] at h ⊢
    obtain ⟨c1, h1, h2⟩ := h
    exact ⟨c1, put_mono h1, ih h2⟩

theorem finishRows_mono {w m : Nat} {n : Nat} {c : Canvas} {s : Pen} {r : Canvas × Pen} (h : finishRows w m n c s = .ok r) :
    finishRows w (m + 1) n c s = .ok r := by
  induction n generalizing c s with
  | zero => exact h
  | succ n ih =>
    simp only [finishRows] at h ⊢
    rw [Res.bind_ok] at h ⊢
    obtain ⟨c1, h1, h2⟩ := h
    exact ⟨c1, putRun_mono h1, ih h2⟩

theorem skipTurn_mono {w m h : Nat} {c : Canvas} {s : Pen} {x y : Nat} {stop : Bool} {p : List UInt8} {t : Turn}
    (e : skipTurn w m h c s x y stop p = .ok t) : skipTurn w (m + 1) h c s x y stop p = .ok t := by
  unfold skipTurn skipTo at e ⊢
  rw [Res.bind_ok] at e ⊢
  obtain ⟨r, h1, h2⟩ := e
  refine ⟨r, ?_, h2⟩
  rw [Res.bind_ok] at h1 ⊢
  obtain ⟨r1, h3, h4⟩ := h1
  refine ⟨r1, finishRows_mono h3, ?_⟩
  rw [Res.bind_ok] at h4 ⊢
  obtain ⟨c1, h5, h6⟩ := h4
  exact ⟨c1, putRun_mono h5, h6⟩

theorem turn_mono {four : Bool} {w m h : Nat} {pal : Nat → UInt32} {c : Canvas} {s : Pen} {p : List UInt8} {t : Turn}
    (e : turn four w m h pal c s p = .ok t) : turn four w (m + 1) h pal c s p = .ok t := by
  match p with
  | [] => exact e
  | [b] => exact e
  | b0 :: b1 :: p =>
    rw [turn_cons] at e ⊢
    split at e
    · rename_i h0
      rw [if_pos h0]
      unfold fillTurn at e ⊢
      rw [Res.bind_ok] at e ⊢
      obtain ⟨c1, h1, h2⟩ := e
      exact ⟨c1, putRun_mono h1, h2⟩
    · rename_i h0
      rw [if_neg h0]
      split at e
      · rename_i h3
        rw [if_pos h3]
        unfold absoluteTurn at e ⊢
        simp only at e ⊢
        rw [Res.bind_ok] at e ⊢
        obtain ⟨u, h1, h2⟩ := e
        refine ⟨u, h1, ?_⟩
        rw [Res.bind_ok] at h2 ⊢
        obtain ⟨l, h4, h5⟩ := h2
        refine ⟨l, h4, ?_⟩
        rw [Res.bind_ok] at h5 ⊢
        obtain ⟨c1, h6, h7⟩ := h5
        exact ⟨c1, putRun_mono h6, h7⟩
      · rename_i h3
        rw [if_neg h3]
        split at e
        · rename_i h1
          rw [if_pos h1]
          exact skipTurn_mono e
        · rename_i h1
          rw [if_neg h1]
          split at e
          · rename_i h2
            rw [if_pos h2]
            match p with
            | [] => exact e
            | [b] => exact e
            | dx :: dy :: p =>
              rw [moveTurn_cons] at e ⊢
              split at e
              · simp at e
              · rename_i hg
                rw [if_neg hg]
                exact skipTurn_mono e
          · rename_i h2
            rw [if_neg h2]
            exact skipTurn_mono e

theorem rleLoop_mono {four : Bool} {w m h : Nat} {pal : Nat → UInt32} {n : Nat} {c c' : Canvas} {s : Pen} {p : List UInt8}
    (e : rleLoop four w m h pal n c s p = .ok c') : rleLoop four w (m + 1) h pal n c s p = .ok c' := by
  induction n generalizing c s p with
  | zero => simp [rleLoop] at e
  | succ n ih =>
    unfold rleLoop at e ⊢
    rw [Res.bind_ok] at e ⊢
    obtain ⟨t, h1, h2⟩ := e
    refine ⟨t, turn_mono h1, ?_⟩
    cases t with
    | done c1 => exact h2
    | go c1 s1 p1 => exact ih h2

/-- Every pixel of a decoded image is written. -/
theorem rle_complete {four : Bool} {w h : Nat} (hw : w < 2 ^ 32) (hh : 0 < h) {pal : Nat → UInt32} {c : Canvas} {p : List UInt8}
    (e : rle four w h h pal p = .ok c) : ∀ y x, y < h → x < w → (c y x).isSome :=
  (rleLoop_safe four hw pal _ _ _ _ (at_start w h) hh).2 c (rleLoop_mono e)

/-! ## The palette -/

theorem readPalette_spec (d : List UInt8) (k : Nat) (hk : 3 ≤ k) (n i : Nat) (h : i + n * k ≤ d.length) :
    ∃ l, readPalette d k i n = .ok l ∧ l.length = n ∧
      ∀ j < n, (l.getD j 0).toNat = 0xFF000000 + u8 d (i + j * k + 2) * 65536 + u8 d (i + j * k + 1) * 256 + u8 d (i + j * k) := by
  induction n generalizing i with
  | zero => exact ⟨[], rfl, rfl, fun j hj => by omega⟩
  | succ n ih =>
    rw [Nat.succ_mul] at h
    obtain ⟨l, h1, h2, h3⟩ := ih (i + k) (by omega)
    unfold readPalette
    rw [rd8_ok (by omega), Res.ok_bind, rd8_ok (by omega), Res.ok_bind, rd8_ok (by omega), Res.ok_bind, h1, Res.ok_bind]
    refine ⟨_, rfl, by simp [h2], fun j hj => ?_⟩
    cases j with
    | zero =>
      have := u8_lt d i
      have := u8_lt d (i + 1)
      have := u8_lt d (i + 2)
      simp only [List.getD_cons_zero, Nat.zero_mul, Nat.add_zero, UInt32.toNat_ofNat']
      omega
    | succ j =>
      rw [List.getD_cons_succ, h3 j (by omega), Nat.succ_mul]
      rw [show i + k + j * k = i + (j * k + k) by omega]

theorem native_opaque (r g b : Nat) : native ⟨r, g, b, 255⟩ = 0xFF000000 + r * 65536 + g * 256 + b := by
  unfold native
  show 255 * 2 ^ 24 + r * 2 ^ 16 + g * 2 ^ 8 + b = _
  omega

/-- The palette of a file. -/
theorem palette_spec {d : List UInt8} {t : Info} (h8 : t.depth ≤ 8) (ho : 14 + t.hdr ≤ t.offset) (e1 : t.hdr = headerSize d) (e2 : t.offset = offset d)
    {l : List UInt32} (e : palette d t = .ok l) :
    l.length = 256 ∧ ∀ i < 256, (l.getD i 0).toNat = native (paletteColor d i) := by
  unfold palette at e
  rw [if_pos h8, Res.bind_ok] at e
  obtain ⟨u, hn, e⟩ := e
  rw [need_ok, decide_eq_true_iff] at hn
  have hk : (if t.hdr = 12 then 3 else 4) = entrySize d := by unfold entrySize; rw [e1]
  unfold paletteSize at hn e
  rw [hk] at hn e
  have hk3 : 3 ≤ entrySize d := by unfold entrySize; split <;> omega
  generalize hsz : min ((t.offset - (14 + t.hdr)) / entrySize d) 256 = n at hn e
  obtain ⟨q, q1, q2, q3⟩ := readPalette_spec d (entrySize d) hk3 n (14 + t.hdr) hn
  rw [q1, Res.ok_bind, Res.ok.injEq] at e
  have hn256 : n ≤ 256 := by omega
  refine ⟨by rw [← e]; simp [q2]; omega, fun i hi => ?_⟩
  rw [← e]
  unfold paletteColor
  simp only
  have key : 14 + headerSize d + i * entrySize d + entrySize d ≤ offset d ↔ i < n := by
    rw [← hsz, Nat.lt_min, ← e1, ← e2]
    have : i + 1 ≤ (t.offset - (14 + t.hdr)) / entrySize d ↔ (i + 1) * entrySize d ≤ t.offset - (14 + t.hdr) :=
      Nat.le_div_iff_mul_le (by omega)
    rw [Nat.succ_mul] at this
    omega
  by_cases hin : i < n
  · rw [if_pos (key.2 hin), List.getD_eq_getElem?_getD, List.getElem?_append_left (by omega), ← List.getD_eq_getElem?_getD, q3 i hin, e1, native_opaque]
  · rw [if_neg (fun h => hin (key.1 h)), List.getD_eq_getElem?_getD, List.getElem?_append_right (by omega), q2]
    rw [List.getElem?_replicate, if_pos (by omega), native_opaque]
    rfl

theorem palette_safe {d : List UInt8} {t : Info} : palette d t ≠ .outside := by
  unfold palette
  split
  · intro e
    rw [Res.bind_outside] at e
    rcases e with e | ⟨u, hn, e⟩
    · exact need_outside e
    rw [need_ok, decide_eq_true_iff] at hn
    obtain ⟨q, q1, -⟩ := readPalette_spec d (if t.hdr = 12 then 3 else 4) (by split <;> omega) (paletteSize t) (14 + t.hdr) hn
    rw [q1, Res.ok_bind] at e
    simp at e
  · simp

/-! ## Rows -/

theorem convertRows_spec (c : Conv) (w : Nat) (rows : List (List UInt8)) (P : List UInt8 → List UInt8 → Prop)
    (h : ∀ r ∈ rows, ∃ o, c.row w r = some o ∧ P r o) :
    ∃ os, convertRows c w rows = .ok os ∧ os.length = rows.length ∧ ∀ k < rows.length, P (rows.getD k []) (os.getD k []) := by
  induction rows with
  | nil => exact ⟨[], rfl, rfl, fun k hk => by simp at hk⟩
  | cons r rs ih =>
    obtain ⟨os, h1, h2, h3⟩ := ih (fun r hr => h r (List.mem_cons_of_mem _ hr))
    obtain ⟨o, h4, h5⟩ := h r List.mem_cons_self
    unfold convertRows
    rw [h4, h1]
    refine ⟨o :: os, rfl, by simp [h2], fun k hk => ?_⟩
    cases k with
    | zero => exact h5
    | succ k => exact h3 k (by simpa using hk)

theorem stride_eq (d : List UInt8) : strideOf (width d).toNat (depth d) = stride d := by
  unfold strideOf stride
  omega

theorem slice_take (n i m : Nat) (l : List UInt8) (h : (i + 1) * n ≤ m) : slice n i (l.take m) = slice n i l := by
  unfold slice
  rw [List.drop_take, List.take_take]
  congr 1
  rw [Nat.succ_mul] at h
  omega

theorem pixel_take (f : Fmt) (i m : Nat) (l : List UInt8) (h : (i + 1) * (f.depth / 8) ≤ m) : pixel f (l.take m) i = pixel f l i := by
  unfold pixel
  rw [slice_take _ _ _ _ h]

theorem index_take (dep i m : Nat) (l : List UInt8) (h : i * dep / 8 < m) : index dep (l.take m) i = index dep l i := by
  unfold index
  rw [List.getD_eq_getElem?_getD, List.getElem?_take, if_pos h, ← List.getD_eq_getElem?_getD]

theorem flip_getD (b : Bool) (os : List (List UInt8)) (y : Nat) (h : y < os.length) :
    (if b then os.reverse else os).getD y [] = os.getD (if b then os.length - 1 - y else y) [] := by
  cases b with
  | false => rfl
  | true =>
    simp only [if_true]
    rw [List.getD_eq_getElem?_getD, List.getElem?_reverse h, ← List.getD_eq_getElem?_getD]

theorem range_map_getD {α : Type} (n k : Nat) (g : Nat → α) (x : α) (h : k < n) : ((List.range n).map g).getD k x = g k := by
  rw [List.getD_eq_getElem?_getD, List.getElem?_map, List.getElem?_range h]; rfl

/-! ## Files -/

/-- What is known after the headers. -/
def infoOf (d : List UInt8) (f : Fmt) : Info :=
  ⟨headerSize d, offset d, (width d).toNat, (height d).natAbs, decide (0 < height d), depth d, (headOf d).rle,
    strideOf (width d).toNat (depth d), (headOf d).size, f⟩

/-- What the checks of headers give. -/
structure Facts (d : List UInt8) : Prop where
  w : 0 < width d ∧ width d ≤ 65535
  h : (height d).natAbs ≤ 65535
  dep : depth d = 1 ∨ depth d = 4 ∨ depth d = 8 ∨ depth d = 16 ∨ depth d = 24 ∨ depth d = 32
  off : 14 + headerSize d ≤ offset d
  size : (headOf d).rle = true ∨ stride d * (height d).natAbs ≤ (headOf d).size
  comp : compression d = 0 ∨ 8 < depth d ∨ (headOf d).rle = true

theorem Accepted.facts {d : List UInt8} (A : Accepted d) : Facts d := by
  have h := A.head
  unfold Head.accepted at h
  rw [decide_eq_true_iff] at h
  obtain ⟨h1, h2, h3, h4, h5, h6, h7, h8, h9, h10, h11⟩ := h
  refine ⟨⟨h2, h6⟩, h7, ?_, h5, ?_, h4⟩
  · have h8 : [1, 4, 8, 16, 24, 32].contains (depth d) = true := h8
    simpa only [List.contains_cons, List.contains_nil, Bool.or_false, Bool.or_eq_true, beq_iff_eq] using h8
  · rw [← stride_eq]; exact h11

/-- The format of the image. -/
def imageFmt (f : Fmt) : Fmt := if f.a.size ≠ 0 then prgb32 else xrgb32

/-- What a file that is decoded goes through. -/
structure Decoded (d : List UInt8) (img : Image) (f : Fmt) (pal : List UInt32) (rows : List (List UInt8)) : Prop where
  acc : Accepted d
  fmt : readFmt d (headOf d) = .ok f
  colors : palette d (infoOf d f) = .ok pal
  len : offset d < d.length ∧ (headOf d).size ≤ d.length - offset d
  h : (height d).natAbs ≠ 0
  read : readRows d (infoOf d f) pal (imageFmt f) = .ok rows
  img : img = ⟨imageFmt f, (width d).toNat, (height d).natAbs, if decide (0 < height d) then rows.reverse else rows⟩

theorem decode_ok {d : List UInt8} {img : Image} (h : decode d = .ok img) : ∃ f pal rows, Decoded d img f pal rows := by
  unfold decode at h
  rw [Res.bind_ok] at h
  obtain ⟨t, h1, h2⟩ := h
  rcases readInfo_spec d with e | ⟨f, A, ef, e⟩
  · rw [e] at h1; cases h1
  · rw [e, Res.ok.injEq] at h1
    subst h1
    unfold readFrame at h2
    rw [Res.bind_ok] at h2
    obtain ⟨-, -, h2⟩ := h2
    simp only at h2
    rw [Res.bind_ok] at h2
    obtain ⟨pal, h3, h2⟩ := h2
    rw [Res.bind_ok] at h2
    obtain ⟨u4, h4, h2⟩ := h2
    rw [need_ok, decide_eq_true_iff] at h4
    rw [Res.bind_ok] at h2
    obtain ⟨u5, h5, h2⟩ := h2
    rw [need_ok, decide_eq_true_iff] at h5
    rw [Res.bind_ok] at h2
    obtain ⟨rows, h6, h2⟩ := h2
    rw [Res.ok.injEq] at h2
    exact ⟨f, pal, rows, A, ef, h3, h4, h5, h6, h2.symm⟩

/-- A row of the file is where the specification has it. -/
theorem rowOf_eq (d : List UInt8) (f : Fmt) (y : Nat) (hy : y < (height d).natAbs) :
    fileRow d (infoOf d f) (if decide (0 < height d) then (height d).natAbs - 1 - y else y) =
      (rowOf d y).take (((width d).toNat * depth d + 7) / 8) := by
  unfold fileRow rowOf infoOf
  simp only [stride_eq, decide_eq_true_iff]

/-- The rows of a file without compression are there. -/
theorem fileRow_length {d : List UInt8} {f : Fmt} (F : Facts d) (hr : (headOf d).rle = false)
    (hlen : offset d < d.length ∧ (headOf d).size ≤ d.length - offset d) (k : Nat) (hk : k < (height d).natAbs) :
    (fileRow d (infoOf d f) k).length = ((width d).toNat * depth d + 7) / 8 := by
  have hs := F.size
  rw [hr] at hs
  have hs : stride d * (height d).natAbs ≤ (headOf d).size := by simpa using hs
  have h1 : k * stride d + stride d ≤ (height d).natAbs * stride d := by
    rw [← Nat.succ_mul]; exact Nat.mul_le_mul_right _ hk
  rw [Nat.mul_comm] at hs
  have h2 : ((width d).toNat * depth d + 7) / 8 ≤ stride d := by unfold stride; omega
  unfold fileRow infoOf
  simp only [stride_eq]
  rw [List.length_take, List.length_drop]
  omega

/-- Pixels without palette. -/
theorem readRows_direct {d : List UInt8} {f : Fmt} {pal : List UInt32} {rows : List (List UInt8)} (F : Facts d) (h8 : 8 < depth d)
    (D : Describes d f) (ha : f.a.size ≠ 0 ↔ f.alpha = true)
    (hlen : offset d < d.length ∧ (headOf d).size ≤ d.length - offset d)
    (hrow : readRows d (infoOf d f) pal (imageFmt f) = .ok rows) :
    rows.length = (height d).natAbs ∧ ∀ k < (height d).natAbs, (rows.getD k []).length = (width d).toNat * 4 ∧
      ∀ x < (width d).toNat, pixel (imageFmt f) (rows.getD k []) x % (if f.alpha then 2 ^ 32 else 2 ^ 24) =
        native (color f (pixel f (fileRow d (infoOf d f) k) x)) % (if f.alpha then 2 ^ 32 else 2 ^ 24) := by
  have hr : (headOf d).rle = false := by
    unfold Head.rle
    rw [decide_eq_false_iff_not]
    show ¬ ((depth d = 4 ∧ _) ∨ (depth d = 8 ∧ _))
    omega
  unfold readRows at hrow
  rw [if_neg (show ¬ (infoOf d f).rle = true by show ¬ (headOf d).rle = true; rw [hr]; simp)] at hrow
  rw [if_neg (show ¬ (infoOf d f).depth ≤ 8 by show ¬ depth d ≤ 8; omega)] at hrow
  change (match create (imageFmt f) f true with | none => Res.error | some c => convertRows c (width d).toNat ((List.range (height d).natAbs).map (fileRow d (infoOf d f)))) = _ at hrow
  cases hc : create (imageFmt f) f true with
  | none => rw [hc] at hrow; simp at hrow
  | some c =>
    rw [hc] at hrow
    simp only at hrow
    have hsw : SwapOk f := fun h => by rw [D.plain.2.2] at h; simp at h
    have hP : ∀ r ∈ (List.range (height d).natAbs).map (fileRow d (infoOf d f)), ∃ o, c.row (width d).toNat r = some o ∧
        (o.length = (width d).toNat * 4 ∧ ∀ x < (width d).toNat,
          pixel (imageFmt f) o x % (if f.alpha then 2 ^ 32 else 2 ^ 24) = native (color f (pixel f r x)) % (if f.alpha then 2 ^ 32 else 2 ^ 24)) := by
      intro r hr'
      obtain ⟨k, hk, rfl⟩ := List.mem_map.1 hr'
      have hl := fileRow_length (f := f) F hr hlen k (List.mem_range.1 hk)
      have hl : (fileRow d (infoOf d f) k).length = (width d).toNat * (f.depth / 8) := by
        rw [hl, D.depth]
        rcases F.dep with h | h | h | h | h | h <;> rw [h] at h8 ⊢ <;> omega
      cases hal : f.alpha with
      | true =>
        have hf : imageFmt f = prgb32 := by unfold imageFmt; rw [if_pos (ha.2 hal)]
        rw [hf] at hc ⊢
        obtain ⟨o, o1, o2, o3⟩ := C52_to_prgb32_partial f true c hc D.plain.1 hsw (Or.inl D.rgb) _ _ hl
        refine ⟨o, o1, o2, fun x hx => ?_⟩
        obtain ⟨q, q1, q2⟩ := o3 x hx
        rw [q2, q1.1 ⟨hal, by rw [D.prem, hal], Or.inl D.rgb⟩]
      | false =>
        have hf : imageFmt f = xrgb32 := by unfold imageFmt; rw [if_neg (by rw [ha, hal]; simp)]
        rw [hf] at hc ⊢
        obtain ⟨o, o1, o2, o3⟩ := C52_to_xrgb32_partial f true c hc D.plain.1 hsw (Or.inl D.rgb) _ _ hl
        refine ⟨o, o1, o2, fun x hx => ?_⟩
        obtain ⟨q, q1, q2⟩ := o3 x hx
        have q1 := q1.2 (by rintro ⟨h, -⟩; rw [hal] at h; simp at h)
        rw [if_neg (by simp)]
        rw [q2]
        obtain ⟨t1, t2, t3, t4⟩ := q1
        have hca : (color f (pixel f (fileRow d (infoOf d f) k) x)).a = 255 := by unfold color; simp [hal]
        rw [hca] at t1 t2 t3 t4
        unfold Pixel.Spec.Nearest at t1 t2 t3
        unfold native
        have e1 : q.r = (color f (pixel f (fileRow d (infoOf d f) k) x)).r := by omega
        have e2 : q.g = (color f (pixel f (fileRow d (infoOf d f) k) x)).g := by omega
        have e3 : q.b = (color f (pixel f (fileRow d (infoOf d f) k) x)).b := by omega
        rw [e1, e2, e3, t4, hca]
    obtain ⟨os, e1, e2, e3⟩ := convertRows_spec c (width d).toNat _ _ hP
    rw [e1, Res.ok.injEq] at hrow
    subst hrow
    rw [List.length_map, List.length_range] at e2 e3
    refine ⟨e2, fun k hk => ?_⟩
    have := e3 k hk
    rw [range_map_getD _ _ _ _ hk] at this
    exact this

/-- Pixels with a palette. -/
theorem readRows_indexed {d : List UInt8} {f : Fmt} {pal : List UInt32} {rows : List (List UInt8)} (F : Facts d) (h8 : depth d ≤ 8)
    (hr : (headOf d).rle = false) (D : f = { depth := depth d, rgb := true, indexed := true })
    (hpal : palette d (infoOf d f) = .ok pal)
    (hlen : offset d < d.length ∧ (headOf d).size ≤ d.length - offset d)
    (hrow : readRows d (infoOf d f) pal (imageFmt f) = .ok rows) :
    rows.length = (height d).natAbs ∧ ∀ k < (height d).natAbs, (rows.getD k []).length = (width d).toNat * 4 ∧
      ∀ x < (width d).toNat, pixel xrgb32 (rows.getD k []) x = native (paletteColor d (index (depth d) (fileRow d (infoOf d f) k) x)) := by
  have hfm : imageFmt f = xrgb32 := by rw [D]; rfl
  obtain ⟨p1, p2⟩ := palette_spec (t := infoOf d f) h8 F.off rfl rfl hpal
  have hdep : 2 ^ depth d ≤ 256 := by
    calc 2 ^ depth d ≤ 2 ^ 8 := Nat.pow_le_pow_right (by omega) h8
      _ = 256 := rfl
  unfold readRows at hrow
  rw [if_neg (show ¬ (infoOf d f).rle = true by show ¬ (headOf d).rle = true; rw [hr]; simp)] at hrow
  rw [if_pos (show (infoOf d f).depth ≤ 8 from h8), hfm] at hrow
  change (match create xrgb32 { f with palette := pal } true with | none => Res.error | some c => convertRows c (width d).toNat ((List.range (height d).natAbs).map (fileRow d (infoOf d f)))) = _ at hrow
  have hpf : ({ f with palette := pal } : Fmt) = { depth := depth d, rgb := true, indexed := true, palette := pal } := by rw [D]
  rw [hpf] at hrow
  cases hc : create xrgb32 { depth := depth d, rgb := true, indexed := true, palette := pal } true with
  | none => rw [hc] at hrow; simp at hrow
  | some c =>
    rw [hc] at hrow
    simp only at hrow
    have hP : ∀ r ∈ (List.range (height d).natAbs).map (fileRow d (infoOf d f)), ∃ o, c.row (width d).toNat r = some o ∧
        (o.length = (width d).toNat * 4 ∧ ∀ x < (width d).toNat, pixel xrgb32 o x = native (paletteColor d (index (depth d) r x))) := by
      intro r hr'
      obtain ⟨k, hk, rfl⟩ := List.mem_map.1 hr'
      have hl := fileRow_length (f := f) F hr hlen k (List.mem_range.1 hk)
      obtain ⟨o, o1, o2, o3⟩ := C52_indexed_to_xrgb32 _ true c hc rfl rfl rfl (by simp only [p1]; exact hdep) (width d).toNat
        (fileRow d (infoOf d f) k) (by rw [hl]; simp only; omega)
      refine ⟨o, o1, o2, fun x hx => ?_⟩
      rw [o3 x hx]
      simp only
      have hi : index (depth d) (fileRow d (infoOf d f) k) x < 256 :=
        Nat.lt_of_lt_of_le (Nat.mod_lt _ (Nat.two_pow_pos _)) hdep
      rw [p2 _ hi]
      generalize index (depth d) (fileRow d (infoOf d f) k) x = i
      have hb : (paletteColor d i).a = 255 ∧ (paletteColor d i).r < 256 ∧ (paletteColor d i).g < 256 ∧ (paletteColor d i).b < 256 := by
        unfold paletteColor
        simp only
        split
        · exact ⟨rfl, u8_lt _ _, u8_lt _ _, u8_lt _ _⟩
        · exact ⟨rfl, by decide, by decide, by decide⟩
      obtain ⟨b1, b2, b3, b4⟩ := hb
      have hpar : ∀ v : Fin 256, scale 8 8 v.val = v.val := by decide +kernel
      have fr : field ⟨8, 16⟩ (native (paletteColor d i)) = (paletteColor d i).r := by unfold field native; simp only; omega
      have fg : field ⟨8, 8⟩ (native (paletteColor d i)) = (paletteColor d i).g := by unfold field native; simp only; omega
      have fb : field ⟨8, 0⟩ (native (paletteColor d i)) = (paletteColor d i).b := by unfold field native; simp only; omega
      have : color (entry { depth := depth d, rgb := true, indexed := true, palette := pal }) (native (paletteColor d i)) = paletteColor d i := by
        unfold color entry
        simp only [prgb32, Bool.false_eq_true, if_false, true_or, if_true, fr, fg, fb]
        rw [hpar ⟨_, b2⟩, hpar ⟨_, b3⟩, hpar ⟨_, b4⟩]
        rw [← b1]
      rw [this]
    obtain ⟨os, e1, e2, e3⟩ := convertRows_spec c (width d).toNat _ _ hP
    rw [e1, Res.ok.injEq] at hrow
    subst hrow
    rw [List.length_map, List.length_range] at e2 e3
    refine ⟨e2, fun k hk => ?_⟩
    have := e3 k hk
    rw [range_map_getD _ _ _ _ hk] at this
    exact this

/-- The rows of files without run-length encoding are read within the file. -/
theorem readRows_safe {d : List UInt8} {f : Fmt} {pal : List UInt32} (A : Accepted d) (ef : readFmt d (headOf d) = .ok f)
    (hr : (headOf d).rle = false) (hp : palette d (infoOf d f) = .ok pal)
    (hlen : offset d < d.length ∧ (headOf d).size ≤ d.length - offset d) :
    readRows d (infoOf d f) pal (imageFmt f) ≠ .outside := by
  have F := A.facts
  intro e
  unfold readRows at e
  rw [if_neg (show ¬ (infoOf d f).rle = true by show ¬ (headOf d).rle = true; rw [hr]; simp)] at e
  change (match create (imageFmt f) (if depth d ≤ 8 then { f with palette := pal } else f) true with | none => Res.error | some c => convertRows c (width d).toNat ((List.range (height d).natAbs).map (fileRow d (infoOf d f)))) = _ at e
  cases hc : create (imageFmt f) (if depth d ≤ 8 then { f with palette := pal } else f) true with
  | none => rw [hc] at e; simp at e
  | some c =>
    rw [hc] at e
    simp only at e
    rcases readFmt_spec A.hdr A.len with e0 | ⟨f', e0, D8, D, ha⟩
    · rw [e0] at ef; cases ef
    rw [ef, Res.ok.injEq] at e0
    subst e0
    have hP : ∀ r ∈ (List.range (height d).natAbs).map (fileRow d (infoOf d f)), ∃ o, c.row (width d).toNat r = some o ∧ True := by
      intro r hr'
      obtain ⟨k, hk, rfl⟩ := List.mem_map.1 hr'
      have hl := fileRow_length (f := f) F hr hlen k (List.mem_range.1 hk)
      by_cases h8 : depth d ≤ 8
      · rw [if_pos h8] at hc
        have D := D8 h8
        obtain ⟨p1, -⟩ := palette_spec (t := infoOf d f) h8 F.off rfl rfl hp
        have hdep : 2 ^ depth d ≤ 256 := by
          calc 2 ^ depth d ≤ 2 ^ 8 := Nat.pow_le_pow_right (by omega) h8
            _ = 256 := rfl
        have hpf : ({ f with palette := pal } : Fmt) = { depth := depth d, rgb := true, indexed := true, palette := pal } := by rw [D]
        have hfm : imageFmt f = xrgb32 := by rw [D]; rfl
        rw [hpf, hfm] at hc
        obtain ⟨o, o1, -⟩ := C52_indexed_to_xrgb32 _ true c hc rfl rfl rfl (by simp only [p1]; exact hdep) (width d).toNat
          (fileRow d (infoOf d f) k) (by rw [hl]; simp only; omega)
        exact ⟨o, o1, trivial⟩
      · rw [if_neg h8] at hc
        have D := D (by omega)
        have hsw : SwapOk f := fun h => by rw [D.plain.2.2] at h; simp at h
        have hl : (fileRow d (infoOf d f) k).length = (width d).toNat * (f.depth / 8) := by
          rw [hl, D.depth]
          rcases F.dep with h | h | h | h | h | h <;> rw [h] at h8 ⊢ <;> omega
        cases hal : f.alpha with
        | true =>
          have hf : imageFmt f = prgb32 := by unfold imageFmt; rw [if_pos (ha.2 hal)]
          rw [hf] at hc
          obtain ⟨o, o1, -⟩ := C52_to_prgb32_partial f true c hc D.plain.1 hsw (Or.inl D.rgb) _ _ hl
          exact ⟨o, o1, trivial⟩
        | false =>
          have hf : imageFmt f = xrgb32 := by unfold imageFmt; rw [if_neg (by rw [ha, hal]; simp)]
          rw [hf] at hc
          obtain ⟨o, o1, -⟩ := C52_to_xrgb32_partial f true c hc D.plain.1 hsw (Or.inl D.rgb) _ _ hl
          exact ⟨o, o1, trivial⟩
    obtain ⟨os, e1, -⟩ := convertRows_spec c (width d).toNat _ (fun _ _ => True) hP
    rw [e1] at e
    cases e

/-- The format of pixels with a palette. -/
theorem fmt_indexed {d : List UInt8} {img : Image} {f : Fmt} {pal : List UInt32} {rows : List (List UInt8)} (K : Decoded d img f pal rows)
    (h8 : depth d ≤ 8) : f = { depth := depth d, rgb := true, indexed := true } := by
  rcases readFmt_spec K.acc.hdr K.acc.len with e | ⟨f', e, D, -⟩
  · have := K.fmt; rw [e] at this; cases this
  · have := K.fmt
    rw [e, Res.ok.injEq] at this
    rw [← this]; exact D h8

/-- The rows of a run-length encoded file. -/
theorem readRows_rle {d : List UInt8} {img : Image} {f : Fmt} {pal : List UInt32} {rows : List (List UInt8)} (K : Decoded d img f pal rows)
    (hr : (headOf d).rle = true) :
    ∃ c, rle (decide (depth d = 4)) (width d).toNat (height d).natAbs (height d).natAbs (fun i => pal.getD i 0)
      ((d.drop (offset d)).take (headOf d).size) = .ok c ∧ rows = canvasRows (width d).toNat (height d).natAbs c := by
  have h := K.read
  unfold readRows at h
  rw [if_pos (show (infoOf d f).rle = true from hr), Res.bind_ok] at h
  obtain ⟨c, h1, h2⟩ := h
  rw [Res.ok.injEq] at h2
  exact ⟨c, h1, h2.symm⟩

/-- The rows of a run-length encoded image. -/
theorem canvasRows_spec (w h : Nat) (c : Canvas) (hc : ∀ y x, y < h → x < w → (c y x).isSome) :
    (canvasRows w h c).length = h ∧ ∀ y < h, ((canvasRows w h c).getD y []).length = w * 4 ∧
      ∀ x < w, some (UInt32.ofNat (pixel xrgb32 ((canvasRows w h c).getD y []) x)) = c y x := by
  unfold canvasRows
  refine ⟨by simp, fun y hy => ?_⟩
  rw [range_map_getD _ _ _ _ hy]
  have e : ((List.range w).flatMap fun x => written (c y x)) =
      (List.range w).flatMap fun x => store 4 false ((c y x).getD 0) := by
    apply flatMap_congr'
    intro x hx
    obtain ⟨v, hv⟩ := Option.isSome_iff_exists.1 (hc y x hy (List.mem_range.1 hx))
    rw [hv]; rfl
  rw [e]
  refine ⟨by rw [flatMap_length 4 _ (fun x => store_length 4 false _), List.length_range], fun x hx => ?_⟩
  obtain ⟨v, hv⟩ := Option.isSome_iff_exists.1 (hc y x hy hx)
  show some (UInt32.ofNat (number false (slice 4 x _))) = _
  rw [slice_flatMap 4 _ (fun x => store_length 4 false _) _ x 0 (by rw [List.length_range]; exact hx), number_store,
    show (List.range w).getD x 0 = x by rw [List.getD_eq_getElem?_getD, List.getElem?_range hx]; rfl, hv]
  simp only [Option.getD_some, Option.some.injEq]
  rw [show (256 : Nat) ^ 4 = 2 ^ 32 from rfl, Nat.mod_eq_of_lt v.toNat_lt]
  simp

/-- All rows are there. -/
theorem rows_spec {d : List UInt8} {img : Image} {f : Fmt} {pal : List UInt32} {rows : List (List UInt8)} (K : Decoded d img f pal rows) :
    rows.length = (height d).natAbs ∧ ∀ k < rows.length, (rows.getD k []).length = (width d).toNat * 4 := by
  have F := K.acc.facts
  have hw := F.w
  cases hr : (headOf d).rle with
  | true =>
    obtain ⟨c, c1, c2⟩ := readRows_rle K hr
    have hh := K.h
    obtain ⟨s1, s2⟩ := canvasRows_spec (width d).toNat (height d).natAbs c (rle_complete (by omega) (by omega) c1)
    rw [c2]
    exact ⟨s1, fun k hk => (s2 k (by rw [s1] at hk; exact hk)).1⟩
  | false =>
    by_cases h8 : depth d ≤ 8
    · obtain ⟨r1, r2⟩ := readRows_indexed F h8 hr (fmt_indexed K h8) K.colors K.len K.read
      exact ⟨r1, fun k hk => (r2 k (by rw [r1] at hk; exact hk)).1⟩
    · rcases readFmt_spec K.acc.hdr K.acc.len with e | ⟨f', e, -, D, ha⟩
      · have := K.fmt; rw [e] at this; cases this
      have := K.fmt
      rw [e, Res.ok.injEq] at this
      subst this
      obtain ⟨r1, r2⟩ := readRows_direct F (by omega) (D (by omega)) ha K.len K.read
      exact ⟨r1, fun k hk => (r2 k (by rw [r1] at hk; exact hk)).1⟩

/-- Only the colours of the palette matter. -/
theorem Spec.Draws.congr {four : Bool} {w h : Nat} {pal pal' : Nat → UInt32} {s t : State} {l : List Code} (D : Draws four w h pal s l t)
    (e : ∀ i < 256, pal' i = pal i) : Draws four w h pal' s l t := by
  induction D with
  | nil s => exact .nil s
  | cons s k l t V D ih =>
    have hk : k.draw four w pal' s = k.draw four w pal s := by
      cases k with
      | fill n b =>
        simp only [Code.draw]
        congr 1
        funext y x
        rw [e]
        unfold fillIndex
        have := b.toNat_lt
        split
        · split <;> omega
        · exact this
      | run l =>
        simp only [Code.draw]
        congr 1
        funext y x
        rw [e]
        obtain ⟨-, -, -, hl⟩ := V
        rw [List.getD_eq_getElem?_getD]
        cases hg : l[x - s.x]? with
        | none => simp
        | some v =>
          have := hl v (List.mem_of_getElem? hg)
          simp only [Option.getD_some]
          split at this <;> omega
      | line => rfl
      | move dx dy => rfl
    exact .cons s k l t V (hk ▸ ih)

end Blend2D.Bmp
