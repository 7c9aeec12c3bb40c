import Verif.Path.Spec
import Verif.Cow.Touch
/-! # Instances, impls and values of paths -/
namespace Blend2D.Path
open Cow Spec
open Blend2D.Arr (implMaxSize expand masked rd wr ModifyOp)

abbrev Cells := List (Option Item)

def okS (_ : Unit) (v : Cells) : Prop := v = []

/-- What is cached was computed from the items, except if there are none. -/
def CacheOk (E : Ext) (x : Impl) : Prop :=
  (x.flags.dirty = true → x.flags.invalid = false) ∧ (x.size ≠ 0 → x.flags.dirty = false → ∃ xs, x.cells.take x.size = xs.map some ∧ computeInfo E xs = some ⟨x.flags, x.cbox, x.bbox⟩)

structure okB (E : Ext) (x : Impl) (v : Cells) : Prop where
  fits : x.size ≤ x.cells.length
  val : x.cells.take x.size = v
  cap : 104 + x.cells.length * 17 ≤ implMaxSize
  cache : CacheOk E x

theorem okB.size {E : Ext} {x : Impl} {v : Cells} (h : okB E x v) : x.size = v.length := by
  have := congrArg List.length h.val
  rw [List.length_take, Nat.min_eq_left h.fits] at this
  exact this

abbrev R (E : Ext) (s : St) (L : List Cells) : Prop := Rel okS (okB E) s L []

variable {E : Ext} {s : St} {L : List Cells} {i : Nat}

theorem okB_def (E : Ext) : okB E defImpl [] := ⟨by simp [defImpl], by simp [defImpl], by simp [defImpl, implMaxSize], fun _ => rfl, by
  intro h; exact absurd rfl h⟩

theorem view (h : R E s L) (hi : i < L.length) : ∃ x m, look s i = some (x, m) ∧ okB E x L[i] ∧ (m = false ∨ ∃ a b, s.vars[i]? = some (.dyn a) ∧ s.block? a = some b ∧ b.rc = 1 ∧ b.val = x) := by
  have hl : i < s.vars.length := by rw [h.len]; exact hi
  have hv : s.vars[i]? = some s.vars[i] := List.getElem?_eq_getElem hl
  have hh := h.hold i _ L[i] hv (List.getElem?_eq_getElem hi)
  cases hc : s.vars[i] with
  | sso u =>
    rw [hc] at hv hh
    refine ⟨defImpl, false, by simp only [look, hv, Option.bind_eq_bind, Option.bind_some], ?_, .inl rfl⟩
    rw [show L[i] = [] from hh]; exact okB_def E
  | dyn a =>
    rw [hc] at hv hh
    obtain ⟨b, hb, hok⟩ := hh
    refine ⟨b.val, b.rc == 1, by simp only [look, hv, Option.bind_eq_bind, Option.bind_some, hb, Option.map_some], hok, ?_⟩
    by_cases hr : b.rc = 1
    · exact .inr ⟨a, b, hv, hb, hr, rfl⟩
    · exact .inl (by simpa using hr)

theorem renew_ok (h : R E s L) (hi : i < L.length) (y : Impl) (v : Cells) (hy : okB E y v) :
    ∃ s', renew s i y = some s' ∧ R E s' (L.set i v) ∧ look s' i = some (y, true) := by
  obtain ⟨w', h1, h2, h3, h4⟩ := rel_replace_new h 1 y (by omega) i hi v hy
  have hl : i < s.vars.length := by rw [h.len]; exact hi
  refine ⟨w', h1, h2, ?_⟩
  have hv : w'.vars[i]? = some (.dyn s.heap.length) := by rw [h3, List.getElem?_set_self hl]
  simp only [look, hv, Option.bind_eq_bind, Option.bind_some, h4, Option.map_some]
  rfl

theorem store_ok (h : R E s L) (hi : i < L.length) {x : Impl} (hl : look s i = some (x, true)) (y : Impl) (v : Cells) (hy : okB E y v) :
    ∃ s', store s i y = some s' ∧ R E s' (L.set i v) ∧ look s' i = some (y, true) := by
  obtain ⟨x', m, h1, _, h3⟩ := view h hi
  rw [hl] at h1
  simp only [Option.some.injEq, Prod.mk.injEq] at h1
  obtain ⟨rfl, rfl⟩ := h1
  rcases h3 with h3 | ⟨a, b, hv, hb, hr, _⟩
  · simp at h3
  · obtain ⟨m1, m2, m3⟩ := rel_mutate h i a hv b hb hr y v hy
    refine ⟨s.setVal a y, ?_, m1, ?_⟩
    · simp only [store, hv, Option.bind_eq_bind, Option.bind_some, hb]; rfl
    · simp only [look, m2, hv, Option.bind_eq_bind, Option.bind_some, m3, Option.map_some, hr]; rfl

/-- A path that is not shared and whose info is not up to date. -/
def Own (s : St) (i : Nat) : Prop := ∃ y, look s i = some (y, true) ∧ y.flags.dirty = true

theorem cacheOk_dirty {E : Ext} {x : Impl} (h : x.flags.dirty = true) (h0 : x.flags.invalid = false) : CacheOk E x := by
  refine ⟨fun _ => h0, ?_⟩
  intro _ h2; rw [h] at h2; simp at h2

/-- Writing over a part of a list. -/
def splice {α : Type} (l : List α) (off : Nat) (xs : List α) : List α := l.take off ++ xs ++ l.drop (off + xs.length)

theorem splice_length {α : Type} (l : List α) (off : Nat) (xs : List α) (h : off + xs.length ≤ l.length) :
    (splice l off xs).length = l.length := by
  simp only [splice, List.length_append, List.length_take, List.length_drop]; omega

theorem take_splice {α : Type} (l : List α) (n off : Nat) (xs : List α) (h : off + xs.length ≤ n) (hn : n ≤ l.length) :
    (splice l off xs).take n = splice (l.take n) off xs := by
  apply List.ext_getElem?
  intro k
  simp only [splice, List.getElem?_take, List.getElem?_append, List.getElem?_drop, List.length_append, List.length_take]
  have e1 : min off l.length = off := by omega
  have e2 : min off (min n l.length) = off := by omega
  rw [e1, e2]
  by_cases h1 : k < off
  · have : k < n := by omega
    have h2 : k < off + xs.length := by omega
    simp [h1, this, h2]
  · by_cases h2 : k < off + xs.length
    · have : k < n := by omega
      simp [h1, h2, this]
    · have : off + xs.length + (k - (off + xs.length)) = k := by omega
      simp only [h2, if_false, this]

theorem splice_end {α : Type} (l junk xs : List α) (h : junk.length = xs.length) : splice (l ++ junk) l.length xs = l ++ xs := by
  simp only [splice, List.take_left]
  rw [List.drop_of_length_le (by simp [h]), List.append_nil]

theorem wr_eq (cells : Cells) (off : Nat) (xs : Cells) (h : off + xs.length ≤ cells.length) :
    wr cells off xs = some (splice cells off xs) := by
  unfold wr; rw [if_pos h]; rfl

theorem rd_eq (cells : Cells) (off n : Nat) (h : off + n ≤ cells.length) : rd cells off n = some ((cells.drop off).take n) := by
  unfold rd; rw [if_pos h]

theorem pokeCells_ok (h : R E s L) (hi : i < L.length) (ho : Own s i) (off : Nat) (xs : Cells) (hl : off + xs.length ≤ L[i].length) :
    ∃ s', pokeCells s i off xs = some s' ∧ R E s' (L.set i (splice L[i] off xs)) ∧ Own s' i := by
  obtain ⟨y, hy, hd⟩ := ho
  obtain ⟨x', m, h1, h2, _⟩ := view h hi
  rw [hy] at h1
  simp only [Option.some.injEq, Prod.mk.injEq] at h1
  obtain ⟨rfl, rfl⟩ := h1
  have hs := h2.size
  have hf := h2.fits
  have hw := wr_eq y.cells off xs (by omega)
  obtain ⟨s', g1, g2, g3⟩ := store_ok h hi hy { y with cells := splice y.cells off xs } (splice L[i] off xs)
    ⟨by show y.size ≤ _; rw [splice_length _ _ _ (by omega)]; exact hf,
     by show (splice y.cells off xs).take y.size = _; rw [take_splice _ _ _ _ (by omega) hf, h2.val],
     by show 104 + (splice y.cells off xs).length * 17 ≤ _; rw [splice_length _ _ _ (by omega)]; exact h2.cap,
     cacheOk_dirty hd (h2.cache.1 hd)⟩
  refine ⟨s', ?_, g2, ⟨_, g3, hd⟩⟩
  simp only [pokeCells, hy, hw, Option.bind_eq_bind, Option.bind_some]
  exact g1

theorem poke_ok (h : R E s L) (hi : i < L.length) (ho : Own s i) (off : Nat) (xs : List Item) (hl : off + xs.length ≤ L[i].length) :
    ∃ s', poke s i off xs = some s' ∧ R E s' (L.set i (splice L[i] off (xs.map some))) ∧ Own s' i := by
  have := pokeCells_ok h hi ho off (xs.map some) (by rw [List.length_map]; exact hl)
  exact this

/-! ### Memory -/

theorem maxCap_bound {n : Nat} (h : 104 + n * 17 ≤ implMaxSize) : n < 2 ^ 59 := by
  unfold implMaxSize at h; omega

theorem implSize_eq {n : Nat} (h : 104 + n * 17 < 2 ^ 64) : implSize n = 104 + n * 17 := by
  exact Nat.mod_eq_of_lt h

theorem capOf_ge {n b : Nat} (h : 104 + n * 17 ≤ b) (hb : b ≤ implMaxSize) : n ≤ capOf b ∧ 104 + capOf b * 17 ≤ implMaxSize := by
  unfold capOf; unfold implMaxSize at *; omega

theorem expand_ge (n : Nat) : n ≤ expand n := by unfold expand; simp only; omega

theorem expandSize_ge (n : Nat) : n ≤ expandSize n := Nat.le_trans Nat.left_le_or (expand_ge _)

/-- Copying to a new impl. -/
theorem copyTo_ok {x y : Impl} (src dst n : Nat) (h1 : src + n ≤ x.cells.length) (h2 : dst + n ≤ y.cells.length) :
    x.copyTo y src dst n = some { y with cells := splice y.cells dst ((x.cells.drop src).take n) } := by
  have hl : ((x.cells.drop src).take n).length = n := by rw [List.length_take, List.length_drop]; omega
  simp only [Impl.copyTo, rd_eq _ _ _ h1, Option.bind_eq_bind, Option.bind_some]
  rw [wr_eq _ _ _ (by rw [hl]; exact h2)]
  rfl

/-- A new impl with `size` items; those of `x` are copied. -/
theorem allocCopy {ok : Bool} {size bytes : Nat} {x y : Impl} (v : Cells) (hx : okB E x v) (n : Nat) (hn : n ≤ x.size) (hns : n ≤ size)
    (hb : 104 + size * 17 ≤ bytes) (ha : allocImpl ok size bytes = some y) :
    ∃ z, x.copyTo y 0 0 n = some z ∧ z.flags.dirty = true ∧ ∃ junk : Cells, junk.length = size - n ∧ okB E z (v.take n ++ junk) := by
  unfold allocImpl at ha
  split at ha
  · simp at ha
  · rename_i hc
    simp only [Option.some.injEq] at ha
    subst ha
    have hbm : bytes ≤ implMaxSize := by omega
    obtain ⟨c1, c2⟩ := capOf_ge hb hbm
    have hf := hx.fits
    have e := copyTo_ok (x := x) (y := ⟨size, List.replicate (capOf bytes) none, { dirty := true }, Box.zero, Box.zero⟩) 0 0 n (by omega)
      (by simp only [List.length_replicate]; omega)
    have hlen : (x.cells.take n).length = n := by rw [List.length_take]; omega
    refine ⟨_, e, rfl, List.replicate (size - n) none, by simp, ?_⟩
    rw [List.drop_zero]
    have hsl : (splice (List.replicate (capOf bytes) none) 0 (x.cells.take n)).length = capOf bytes := by
      rw [splice_length _ _ _ (by rw [hlen, List.length_replicate]; omega), List.length_replicate]
    refine ⟨by show size ≤ _; rw [hsl]; exact c1, ?_, by show 104 + List.length _ * 17 ≤ _; rw [hsl]; exact c2, cacheOk_dirty rfl rfl⟩
    show (splice (List.replicate (capOf bytes) none) 0 (x.cells.take n)).take size = _
    rw [take_splice _ _ _ _ (by rw [hlen]; omega) (by rw [List.length_replicate]; exact c1), ← hx.val]
    simp only [splice, hlen, Nat.zero_add, List.take_replicate, List.drop_replicate, List.take_take]
    rw [Nat.min_eq_left c1, Nat.min_eq_left hn, Nat.zero_min]; rfl

/-- Out of memory, and nothing changed. -/
def Oom (ok : Bool) (n : Nat) (r : Result) (s s' : St) : Prop := r = .outOfMemory ∧ s' = s ∧ (ok = false ∨ 2 ^ 57 < n)

theorem expand_small {n : Nat} (h : n ≤ 2 ^ 62) : expand n ≤ implMaxSize := by
  unfold expand
  simp only
  apply Nat.max_le.2
  constructor
  · split
    · have h5 := Nat.mod_le (n + n / 4 + n / 8) (2 ^ 64)
      have h6 : n + n / 4 + n / 8 ≤ 2 ^ 62 + 2 ^ 60 + 2 ^ 59 := by omega
      refine Nat.le_trans h5 (Nat.le_trans h6 ?_)
      unfold implMaxSize; decide
    · rename_i h2
      have : Nat.log2 (n + 1) < 24 := by
        rw [Nat.log2_lt (by omega)]; omega
      have h3 : 2 ^ (Nat.log2 (n + 1) + 1) ≤ 2 ^ 24 := Nat.pow_le_pow_right (by omega) (by omega)
      unfold implMaxSize; omega
  · unfold implMaxSize; omega

theorem alloc_none {ok : Bool} {size n bytes : Nat} (hb : bytes = 104 + n * 17 ∨ bytes = expandSize (104 + n * 17))
    (h : allocImpl ok size bytes = none) : ok = false ∨ 2 ^ 57 < n := by
  unfold allocImpl at h
  split at h
  · rename_i hc
    rcases hc with hc | hc
    · right
      rcases Nat.lt_or_ge (2 ^ 57) n with hn | hn
      · exact hn
      exfalso
      rcases hb with rfl | rfl
      · unfold implMaxSize at hc; omega
      · have h2 : 104 + n * 17 ||| 1008 < 2 ^ 62 := Nat.or_lt_two_pow (by omega) (by omega)
        have := expand_small (Nat.le_of_lt h2)
        unfold expandSize at hc; omega
    · exact .inl hc
  · simp at h

theorem masked_gt {n c : Nat} {m : Bool} (hc : c < 2 ^ 59) (h : ¬ masked n m > c) : m = true ∧ n ≤ c := by
  unfold masked at h
  cases m <;> simp at h ⊢ <;> omega

theorem prepareAdd_ok (h : R E s L) (hi : i < L.length) (ok : Bool) (n : Nat) (hs : 104 + (L[i].length + n) * 17 < 2 ^ 64) :
    ∃ r off s', prepareAdd ok s i n = some (r, off, s') ∧
      (Oom ok (L[i].length + n) r s s' ∨
       (r = .success ∧ off = L[i].length ∧ ∃ junk : Cells, junk.length = n ∧ R E s' (L.set i (L[i] ++ junk)) ∧ Own s' i)) := by
  obtain ⟨x, m, h1, h2, h3⟩ := view h hi
  have hsz := h2.size
  have hcap := maxCap_bound h2.cap
  have hf := h2.fits
  have hmod : (x.size + n) % 2 ^ 64 = x.size + n := Nat.mod_eq_of_lt (by omega)
  simp only [prepareAdd, h1, Option.bind_eq_bind, Option.bind_some, hmod]
  by_cases hg : masked (x.size + n) m > x.cells.length
  · rw [if_pos hg]
    have hi2 : implSize (x.size + n) = 104 + (x.size + n) * 17 := implSize_eq (by omega)
    simp only [reallocPathToAdd, h1, Option.bind_eq_bind, Option.bind_some, hi2]
    cases ha : allocImpl ok (x.size + n) (expandSize (104 + (x.size + n) * 17)) with
    | none => exact ⟨_, _, _, rfl, .inl ⟨rfl, rfl, by rw [← hsz]; exact alloc_none (.inr rfl) ha⟩⟩
    | some y =>
      obtain ⟨z, e1, e2, junk, e3, e4⟩ := allocCopy L[i] h2 x.size (Nat.le_refl _) (by omega) (expandSize_ge _) ha
      rw [hsz, List.take_length] at e4
      obtain ⟨s', g1, g2, g3⟩ := renew_ok h hi z _ e4
      simp only [e1, g1, Option.bind_some]
      exact ⟨_, _, _, rfl, .inr ⟨rfl, hsz, junk, by omega, g2, z, g3, e2⟩⟩
  · rw [if_neg hg]
    obtain ⟨rfl, hle⟩ := masked_gt hcap hg
    obtain ⟨s', g1, g2, g3⟩ := store_ok h hi h1 { x with flags := { dirty := true }, size := x.size + n }
      (L[i] ++ (x.cells.drop x.size).take n)
      ⟨hle, by show x.cells.take (x.size + n) = _; rw [List.take_add, h2.val], h2.cap, cacheOk_dirty rfl rfl⟩
    rw [g1]
    exact ⟨_, _, _, rfl, .inr ⟨rfl, hsz, _, by rw [List.length_take, List.length_drop]; omega, g2, _, g3, rfl⟩⟩

theorem set_self {α : Type} (l : List α) (i : Nat) (h : i < l.length) : l.set i l[i] = l := List.set_getElem_self h

theorem reallocPath_ok (h : R E s L) (hi : i < L.length) (ok : Bool) (n : Nat) (hn : n ≤ 2 ^ 59) (hs : L[i].length ≤ n) :
    ∃ r s', reallocPath ok s i (implSize n) = some (r, s') ∧ (Oom ok n r s s' ∨ (r = .success ∧ R E s' L ∧ Own s' i)) := by
  obtain ⟨x, m, h1, h2, h3⟩ := view h hi
  have hsz := h2.size
  simp only [reallocPath, h1, Option.bind_eq_bind, Option.bind_some, implSize_eq (show 104 + n * 17 < 2 ^ 64 by omega)]
  cases ha : allocImpl ok x.size (104 + n * 17) with
  | none => exact ⟨_, _, rfl, .inl ⟨rfl, rfl, alloc_none (.inl rfl) ha⟩⟩
  | some y =>
    obtain ⟨z, e1, e2, junk, e3, e4⟩ := allocCopy L[i] h2 x.size (Nat.le_refl _) (Nat.le_refl _) (by omega) ha
    have : junk = [] := List.length_eq_zero_iff.1 (by omega)
    rw [hsz, List.take_length, this, List.append_nil] at e4
    obtain ⟨s', g1, g2, g3⟩ := renew_ok h hi z _ e4
    simp only [e1, g1, Option.bind_some]
    rw [set_self] at g2
    exact ⟨_, _, rfl, .inr ⟨rfl, g2, z, g3, e2⟩⟩

theorem makeMutable_ok (h : R E s L) (hi : i < L.length) (ok : Bool) :
    ∃ r s', makeMutable ok s i = some (r, s') ∧ (Oom ok L[i].length r s s' ∨ (r = .success ∧ R E s' L ∧ Own s' i)) := by
  obtain ⟨x, m, h1, h2, h3⟩ := view h hi
  have hsz := h2.size
  have hcap := maxCap_bound h2.cap
  have hf := h2.fits
  simp only [makeMutable, h1, Option.bind_eq_bind, Option.bind_some]
  cases m with
  | true =>
    obtain ⟨s', g1, g2, g3⟩ := store_ok h hi h1 { x with flags := { dirty := true } } L[i] ⟨hf, h2.val, h2.cap, cacheOk_dirty rfl rfl⟩
    rw [set_self] at g2
    simp only [if_true, g1, Option.bind_some]
    exact ⟨_, _, rfl, .inr ⟨rfl, g2, _, g3, rfl⟩⟩
  | false =>
    obtain ⟨r, s1, e1, e2⟩ := reallocPath_ok h hi ok x.size (by omega) (by omega)
    simp only [Bool.false_eq_true, if_false, e1, Option.bind_some]
    rcases e2 with e2 | ⟨rfl, e2, y, e3, e4⟩
    · rw [if_pos (by rw [e2.1]; decide)]
      exact ⟨_, _, rfl, .inl (by rw [← hsz]; exact e2)⟩
    · obtain ⟨y', m', g1, g2, _⟩ := view e2 hi
      rw [e3] at g1
      simp only [Option.some.injEq, Prod.mk.injEq] at g1
      obtain ⟨rfl, rfl⟩ := g1
      obtain ⟨s', k1, k2, k3⟩ := store_ok e2 hi e3 { y with flags := { dirty := true } } L[i] ⟨g2.fits, g2.val, g2.cap, cacheOk_dirty rfl rfl⟩
      rw [set_self] at k2
      rw [if_neg (by decide)]
      simp only [e3, Option.bind_some, k1]
      exact ⟨_, _, rfl, .inr ⟨rfl, k2, _, k3, rfl⟩⟩

end Blend2D.Path
