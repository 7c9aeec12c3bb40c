import Verif.Str.Model
import Verif.Arr.Lemmas
/-! # Lemmas about `BLString` -/
namespace Blend2D.Str
open Cow
open Blend2D.Arr (Result Src ModifyOp rd wr move copy masked uaddSat expand implMaxSize implMaxSize_eq)

abbrev Cells := List (Option UInt8)

/-! ### Buffers, cell by cell -/

theorem wr_spec (cells xs : Cells) (off : Nat) (h : off + xs.length ≤ cells.length) :
    ∃ r, wr cells off xs = some r ∧ r.length = cells.length ∧
      ∀ k, r[k]? = if off ≤ k ∧ k < off + xs.length then xs[k - off]? else cells[k]? := by
  refine ⟨cells.take off ++ xs ++ cells.drop (off + xs.length), by unfold wr; rw [if_pos h], ?_, ?_⟩
  · simp only [List.length_append, List.length_take, List.length_drop]; omega
  · intro k
    have e : (cells.take off).length = off := by rw [List.length_take]; omega
    rw [List.append_assoc, List.getElem?_append, e]
    by_cases h1 : k < off
    · rw [if_pos h1, if_neg (by omega), List.getElem?_take, if_pos h1]
    · rw [if_neg h1, List.getElem?_append]
      by_cases h2 : k - off < xs.length
      · rw [if_pos h2, if_pos (by omega)]
      · rw [if_neg h2, if_neg (by omega), List.getElem?_drop]
        congr 1; omega

theorem rd_spec (cells : Cells) (off n : Nat) (h : off + n ≤ cells.length) :
    ∃ r, rd cells off n = some r ∧ r.length = n ∧ ∀ k, r[k]? = if k < n then cells[off + k]? else none := by
  refine ⟨(cells.drop off).take n, by unfold rd; rw [if_pos h], ?_, ?_⟩
  · rw [List.length_take, List.length_drop]; omega
  · intro k; rw [List.getElem?_take, List.getElem?_drop]

theorem move_spec (cells : Cells) (dst src n : Nat) (h1 : src + n ≤ cells.length) (h2 : dst + n ≤ cells.length) :
    ∃ r, move cells dst src n = some r ∧ r.length = cells.length ∧
      ∀ k, r[k]? = if dst ≤ k ∧ k < dst + n then cells[src + (k - dst)]? else cells[k]? := by
  obtain ⟨x, a1, a2, a3⟩ := rd_spec cells src n h1
  obtain ⟨r, b1, b2, b3⟩ := wr_spec cells x dst (by omega)
  refine ⟨r, by simp only [move, a1, Option.bind_eq_bind, Option.bind_some]; exact b1, b2, ?_⟩
  intro k
  rw [b3 k, a2]
  by_cases hk : dst ≤ k ∧ k < dst + n
  · rw [if_pos hk, if_pos hk, a3, if_pos (by omega)]
  · rw [if_neg hk, if_neg hk]

theorem copy_spec (cells : Cells) (dst src n : Nat) (h1 : src + n ≤ cells.length) (h2 : dst + n ≤ cells.length)
    (h3 : n = 0 ∨ src + n ≤ dst ∨ dst + n ≤ src) :
    ∃ r, copy cells dst src n = some r ∧ r.length = cells.length ∧
      ∀ k, r[k]? = if dst ≤ k ∧ k < dst + n then cells[src + (k - dst)]? else cells[k]? := by
  obtain ⟨r, a1, a2, a3⟩ := move_spec cells dst src n h1 h2
  exact ⟨r, by unfold copy; rw [if_neg (by omega)]; exact a1, a2, a3⟩

/-! ### Sizes -/

theorem ssoCode_xor (n : Nat) (h : n ≤ 14) : (ssoCode n ^^^ 14).toNat = n := by
  have : ∀ n : Fin 15, (ssoCode n.1 ^^^ 14).toNat = n.1 := by decide +kernel
  exact this ⟨n, by omega⟩

theorem ssoCode_full : ssoCode 14 = 0 := by decide +kernel

theorem ssoSize_of (s : Sso) (n : Nat) (h : n ≤ 14) (hs : s[14]? = some (some (ssoCode n))) : ssoSize s = some n := by
  simp only [ssoSize, hs, Option.bind_eq_bind, Option.bind_some, ssoCode_xor n h]; rfl

theorem maxSize_eq : maxSize = 9223372036854771694 := rfl

/-! ### The relation -/

/-- The shape of a buffer that holds `n` characters: the NUL, and in place the size. -/
def Shape (sso : Bool) (cells : Cells) (n : Nat) : Prop :=
  cells[n]? = some (some 0) ∧
  if sso then cells.length = 15 ∧ n ≤ 14 ∧ cells[14]? = some (some (ssoCode n)) else cells.length ≤ 2 ^ 63

/-- The data hold the string `v`. -/
structure Ok (sso : Bool) (d : Data) (v : Cells) : Prop where
  size : d.size = v.length
  shape : Shape sso d.cells v.length
  val : ∀ k, k < v.length → d.cells[k]? = v[k]?

def okS (s : Sso) (v : Cells) : Prop := Ok true ⟨v.length, s⟩ v
def okB (d : Data) (v : Cells) : Prop := Ok false d v

abbrev R (w : Wld) (L : List Cells) : Prop := Rel okS okB w L []

theorem Shape.len {sso : Bool} {cells : Cells} {n : Nat} (h : Shape sso cells n) : n < cells.length ∧ cells.length ≤ 2 ^ 63 := by
  obtain ⟨h1, h2⟩ := h
  have := (List.getElem?_eq_some_iff.1 h1).1
  cases sso
  · exact ⟨this, by simpa using h2⟩
  · simp only [if_true] at h2; omega

/-- What an operation sees of variable `i`. -/
structure View (w : Wld) (i : Nat) (l : Cells) where
  v : Core Sso
  u : Data
  m : Bool
  hv : w.vars[i]? = some v
  hu : unpack w v = some u
  hm : w.isMutable v = some m
  hok : Ok (isSso v) u l
  hsm : isSso v = true → m = true

theorem view {w : Wld} {L : List Cells} (h : R w L) (i : Nat) (hi : i < L.length) : Nonempty (View w i L[i]) := by
  have hlt : i < w.vars.length := by rw [h.len]; exact hi
  have hvar : w.vars[i]? = some w.vars[i] := List.getElem?_eq_getElem hlt
  have hh := h.hold i _ _ hvar (List.getElem?_eq_getElem hi)
  generalize hg : w.vars[i] = v at *
  cases v with
  | sso s =>
    obtain ⟨h1, h2, h3⟩ := hh
    have h14 := h2.2
    simp only [if_true] at h14
    exact ⟨⟨.sso s, ⟨L[i].length, s⟩, true, hvar, by simp only [unpack, ssoSize_of s _ h14.2.1 h14.2.2, Option.map_some], rfl, ⟨rfl, h2, h3⟩, fun _ => rfl⟩⟩
  | dyn a =>
    obtain ⟨b, hb, h1⟩ := hh
    exact ⟨⟨.dyn a, b.val, b.rc == 1, hvar, by simp [unpack, hb], by simp [World.isMutable, hb], h1, fun h => by simp [isSso] at h⟩⟩

theorem View.len {w : Wld} {i : Nat} {l : Cells} (V : View w i l) :
    l.length < V.u.cells.length ∧ V.u.cells.length ≤ 2 ^ 63 ∧ V.u.cap = V.u.cells.length - 1 ∧ V.u.size = l.length :=
  ⟨V.hok.shape.len.1, V.hok.shape.len.2, rfl, V.hok.size⟩

theorem View.sso {w : Wld} {i : Nat} {l : Cells} (V : View w i l) (h : isSso V.v = true) :
    V.u.cells.length = 15 ∧ l.length ≤ 14 ∧ V.u.cells[14]? = some (some (ssoCode l.length)) := by
  have := V.hok.shape.2
  rw [h] at this
  simpa using this

/-- What is known about variable `i` after an operation. -/
structure Now (w : Wld) (i : Nat) (sso : Bool) (d : Data) : Prop where
  ex : ∃ v, w.vars[i]? = some v ∧ unpack w v = some d ∧ w.isMutable v = some true ∧ isSso v = sso

/-- Changing a mutable instance in place. -/
theorem commit_ok {w : Wld} {L : List Cells} (h : R w L) {i : Nat} (hi : i < L.length) (V : View w i L[i]) (hm : V.m = true)
    (d : Data) (x : Cells) (hx : Ok (isSso V.v) d x) :
    ∃ w', commit w i d = some w' ∧ R w' (L.set i x) ∧ Now w' i (isSso V.v) d := by
  have hlt : i < w.vars.length := by rw [h.len]; exact hi
  have hhold := h.hold i _ _ V.hv (List.getElem?_eq_getElem hi)
  obtain ⟨v, u, m, hv, hu, hmm, hok, _⟩ := V
  simp only at hm hx hhold
  subst hm
  cases v with
  | sso s =>
    have hd : (⟨x.length, d.cells⟩ : Data) = d := by cases d; simp only [Data.mk.injEq, and_true]; exact hx.size.symm
    refine ⟨_, by simp only [commit, hv, Option.bind_eq_bind, Option.bind_some]; rfl,
      rel_set_sso h s d.cells i hv x (by unfold okS; rw [hd]; exact hx), ⟨.sso d.cells, ?_, ?_, rfl, rfl⟩⟩
    · simp only [World.setVar]; rw [List.getElem?_set_self hlt]
    · have h14 := hx.shape.2
      simp only [isSso, if_true] at h14
      simp only [unpack, ssoSize_of d.cells _ h14.2.1 h14.2.2, Option.map_some, hd]
  | dyn a =>
    obtain ⟨b, hbk, h1⟩ := hhold
    have hrc : b.rc = 1 := by simpa [World.isMutable, hbk] using hmm
    obtain ⟨r1, r2, r3⟩ := rel_mutate h i a hv b hbk hrc d x hx
    refine ⟨_, by simp only [commit, hv, Option.bind_eq_bind, Option.bind_some, hbk]; rfl, r1, ⟨.dyn a, by rw [r2]; exact hv, ?_, ?_, rfl⟩⟩
    · simp only [unpack, r3, Option.map_some]
    · simp only [World.isMutable, r3, Option.map_some, hrc]; rfl

/-- `x` is a new instance that holds `v`. -/
def New.ok (x : New) (v : Cells) : Prop :=
  match x with
  | .sso s => okS s v
  | .dyn d => okB d v

/-- The data of a new instance. -/
def New.data (x : New) (v : Cells) : Data :=
  match x with
  | .sso s => ⟨v.length, s⟩
  | .dyn d => d

def New.isSso : New → Bool
  | .sso _ => true
  | .dyn _ => false

theorem install_ok {w : Wld} {L : List Cells} (h : R w L) {i : Nat} (hi : i < L.length) (x : New) (v : Cells) (hx : x.ok v) :
    ∃ w', install w i x = some w' ∧ R w' (L.set i v) ∧ Now w' i x.isSso (x.data v) := by
  have hlt : i < w.vars.length := by rw [h.len]; exact hi
  cases x with
  | sso s =>
    obtain ⟨w', r1, r2, r3⟩ := rel_replace_sso h s i hi v hx
    refine ⟨w', r1, r2, ⟨.sso s, ?_, ?_, rfl, rfl⟩⟩
    · rw [r3, List.getElem?_set_self hlt]
    · have h14 := hx.shape.2
      simp only [if_true] at h14
      simp only [unpack, ssoSize_of s _ h14.2.1 h14.2.2, Option.map_some, New.data]
  | dyn d =>
    obtain ⟨w', r1, r2, r3, r4⟩ := rel_replace_new h 1 d (by omega) i hi v hx
    refine ⟨w', r1, r2, ⟨.dyn w.heap.length, ?_, ?_, ?_, rfl⟩⟩
    · rw [r3, List.getElem?_set_self hlt]
    · simp only [unpack, r4, Option.map_some, New.data]
    · simp only [World.isMutable, r4, Option.map_some]; rfl

/-- What is known after `init_dynamic`. -/
theorem initDynamic_cases (ok : Bool) (s size : Nat) (hs : 17 + size ≤ s) :
    (initDynamic ok s size = some none ∧ (ok = false ∨ implMaxSize < s)) ∨
    (∃ d, initDynamic ok s size = some (some d) ∧ d.size = size ∧ Shape false d.cells size ∧ d.cells.length = s - 16) := by
  unfold initDynamic
  by_cases h1 : s > implMaxSize
  · rw [if_pos h1]; exact .inl ⟨rfl, .inr h1⟩
  · rw [if_neg h1]
    cases ok with
    | false => exact .inl ⟨rfl, .inl rfl⟩
    | true =>
      right
      obtain ⟨r, a1, a2, a3⟩ := wr_spec (List.replicate (s - 16) none) [some 0] size (by simp; omega)
      rw [implMaxSize_eq] at h1
      simp only [List.length_replicate] at a2
      refine ⟨⟨size, r⟩, by simp only [if_true, a1, Option.bind_eq_bind, Option.bind_some]; rfl, rfl, ⟨?_, ?_⟩, a2⟩
      · rw [a3]; simp
      · simp only [Bool.false_eq_true, if_false]; omega

theorem initSso_get (n k : Nat) : (initSso n)[k]? = if k < 14 then some (some 0) else if k = 14 then some (some (ssoCode n)) else none := by
  unfold initSso
  rw [List.getElem?_append]
  simp only [List.length_replicate]
  by_cases h : k < 14
  · rw [if_pos h, if_pos h, List.getElem?_replicate, if_pos h]
  · by_cases h2 : k = 14
    · subst h2; simp
    · have : k - 14 ≠ 0 := by omega
      simp only [h, h2, if_false]
      rw [List.getElem?_eq_none]; simp; omega

theorem initSso_len (n : Nat) : (initSso n).length = 15 := by simp [initSso]

theorem initSso_shape (n : Nat) (h : n ≤ 14) : Shape true (initSso n) n := by
  refine ⟨?_, ?_⟩
  · rw [initSso_get]
    by_cases h1 : n < 14
    · rw [if_pos h1]
    · have : n = 14 := by omega
      subst this; simp [ssoCode_full]
  · simp only [if_true]
    exact ⟨initSso_len n, h, by rw [initSso_get]; simp⟩

/-- Cells up to the end of the string may be overwritten. -/
theorem Shape.mono {sso : Bool} {c c' : Cells} {n : Nat} (h : Shape sso c n) (hl : c'.length = c.length)
    (hk : ∀ k, n ≤ k → c'[k]? = c[k]?) : Shape sso c' n := by
  obtain ⟨h1, h2⟩ := h
  refine ⟨by rw [hk n (Nat.le_refl _)]; exact h1, ?_⟩
  cases sso
  · simpa [hl] using h2
  · simp only [if_true] at h2 ⊢
    exact ⟨by rw [hl]; exact h2.1, h2.2.1, by rw [hk 14 h2.2.1]; exact h2.2.2⟩

/-- What is known after `init_string`. -/
theorem initString_cases (ok : Bool) (n : Nat) (hn : n < 2 ^ 63) :
    (initString ok n n = some none ∧ (ok = false ∨ implMaxSize < 17 + n)) ∨
    (∃ x, initString ok n n = some (some x) ∧ Shape x.isSso x.cells n ∧ n < x.cells.length ∧
      ∀ (c : Cells) (v : Cells), v.length = n → c.length = x.cells.length → Shape x.isSso c n → (∀ k, k < n → c[k]? = v[k]?) → (x.withCells c).ok v) := by
  unfold initString
  by_cases h : n ≤ ssoCap
  · rw [if_pos h]
    right
    refine ⟨.sso (initSso n), rfl, initSso_shape n h, (by simp only [New.cells, initSso_len]; unfold ssoCap at h; omega), ?_⟩
    intro c v hv hc hs hk
    exact ⟨rfl, by rw [hv]; exact hs, by rw [hv]; exact hk⟩
  · rw [if_neg h]
    have e : implSize n = 17 + n := by unfold implSize; omega
    rw [e]
    rcases initDynamic_cases ok (17 + n) n (Nat.le_refl _) with ⟨h1, h2⟩ | ⟨d, h1, h2, h3, h4⟩
    · left; simp only [h1, Option.bind_eq_bind, Option.bind_some]; exact ⟨rfl, h2⟩
    · right
      refine ⟨.dyn d, by simp only [h1, Option.bind_eq_bind, Option.bind_some]; rfl, h3, h3.len.1, ?_⟩
      intro c v hv hc hs hk
      exact ⟨by simp only; rw [hv]; exact h2, by simp only; rw [hv]; exact hs, by simp only; rw [hv]; exact hk⟩

end Blend2D.Str
