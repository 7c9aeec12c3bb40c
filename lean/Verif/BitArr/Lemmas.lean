import Verif.BitArr.Step
import Verif.Arr.Ops2
/-! # Lemmas about bit arrays -/
namespace Blend2D.BitArr
open Cow Spec
open Blend2D.BitOps (bitAt bitAt_ge hasBit hasBit_zero hasBit_and hasBit_or)
open Blend2D.Arr (Result expand le_expand)

/-- Bit `i` of a bit list; there are no set bits behind the end. -/
def lb (l : List Bool) (i : Nat) : Bool := (l[i]?).getD false

theorem lb_ge (l : List Bool) (i : Nat) (h : l.length ≤ i) : lb l i = false := by
  simp [lb, List.getElem?_eq_none h]

theorem lb_append (l m : List Bool) (i : Nat) : lb (l ++ m) i = if i < l.length then lb l i else lb m (i - l.length) := by
  unfold lb; rw [List.getElem?_append]; split <;> rfl

theorem lb_replicate (n i : Nat) : lb (List.replicate n false) i = false := by
  unfold lb; rw [List.getElem?_replicate]; split <;> rfl

theorem lb_take (l : List Bool) (n i : Nat) : lb (l.take n) i = if i < n then lb l i else false := by
  unfold lb; rw [List.getElem?_take]; split <;> rfl

theorem lb_set (l : List Bool) (k i : Nat) (x : Bool) (hk : k < l.length) : lb (l.set k x) i = if i = k then x else lb l i := by
  unfold lb
  by_cases h : i = k
  · subst h; rw [List.getElem?_set_self hk, if_pos rfl]; rfl
  · rw [List.getElem?_set_ne (Ne.symm h), if_neg h]

theorem lb_mapIdx (l : List Bool) (f : Nat → Bool → Bool) (i : Nat) :
    lb (l.mapIdx f) i = if i < l.length then f i (lb l i) else false := by
  unfold lb
  rw [List.getElem?_mapIdx]
  by_cases h : i < l.length
  · rw [if_pos h, List.getElem?_eq_getElem h]; rfl
  · rw [if_neg h, List.getElem?_eq_none (Nat.le_of_not_lt h)]; rfl

theorem lb_ext {l m : List Bool} (h1 : l.length = m.length) (h2 : ∀ i, lb l i = lb m i) : l = m := by
  apply List.ext_getElem? 
  intro i
  have := h2 i
  unfold lb at this
  by_cases h : i < l.length
  · rw [List.getElem?_eq_getElem h, List.getElem?_eq_getElem (by omega)] at this ⊢
    simpa using this
  · rw [List.getElem?_eq_none (by omega), List.getElem?_eq_none (by omega)]

theorem bits_len (ws : List W) : (bits ws).length = 32 * ws.length := by
  induction ws with
  | nil => rfl
  | cons x ws ih => simp only [bits, List.flatMap_cons, List.length_append, List.length_map, List.length_range, List.length_cons] at *; omega

theorem lb_bits (ws : List W) (i : Nat) : lb (bits ws) i = bit ws i := by
  induction ws generalizing i with
  | nil => simp [bits, lb, bit, bitAt]
  | cons x ws ih =>
    have e : bits (x :: ws) = (List.range 32).map (fun j => x.getMsbD j) ++ bits ws := rfl
    rw [e, lb_append]
    simp only [List.length_map, List.length_range]
    by_cases h : i < 32
    · rw [if_pos h]
      have h0 : i / 32 = 0 := by omega
      have h1 : i % 32 = i := by omega
      simp only [lb, List.getElem?_map, List.getElem?_range h, Option.map_some, Option.getD_some, bit, bitAt, h0, h1,
        List.getElem?_cons_zero, hasBit]
    · rw [if_neg h, ih]
      have h0 : i / 32 = (i - 32) / 32 + 1 := by omega
      have h1 : i % 32 = (i - 32) % 32 := by omega
      simp only [bit, bitAt, h0, h1, List.getElem?_cons_succ]

theorem bit_append (a b : List W) (i : Nat) : bit (a ++ b) i = if i < 32 * a.length then bit a i else bit b (i - 32 * a.length) := by
  unfold bit bitAt
  rw [List.getElem?_append]
  by_cases h : i < 32 * a.length
  · rw [if_pos h, if_pos (show i / 32 < a.length by omega)]
  · have h1 : i / 32 - a.length = (i - 32 * a.length) / 32 := by omega
    have h2 : i % 32 = (i - 32 * a.length) % 32 := by omega
    rw [if_neg h, if_neg (show ¬ i / 32 < a.length by omega), h1, h2]

theorem bit_zeros (n i : Nat) : bit (List.replicate n 0) i = false := by
  unfold bit bitAt
  rw [List.getElem?_replicate]
  by_cases h : i / 32 < n
  · rw [if_pos h]; exact hasBit_zero _ _
  · rw [if_neg h]

theorem bit_take (ws : List W) (n i : Nat) : bit (ws.take n) i = if i < 32 * n then bit ws i else false := by
  unfold bit bitAt
  rw [List.getElem?_take]
  by_cases h : i < 32 * n
  · rw [if_pos h, if_pos (show i / 32 < n by omega)]
  · rw [if_neg h, if_neg (show ¬ i / 32 < n by omega)]

theorem bit_drop (ws : List W) (n i : Nat) : bit (ws.drop n) i = bit ws (32 * n + i) := by
  unfold bit bitAt
  rw [List.getElem?_drop]
  have h1 : (32 * n + i) / 32 = n + i / 32 := by omega
  have h2 : (32 * n + i) % 32 = i % 32 := by omega
  rw [h1, h2]

theorem bit_ge (ws : List W) (i : Nat) (h : 32 * ws.length ≤ i) : bit ws i = false :=
  bitAt_ge .msb ws (by omega) (by omega)

/-! ### The relation -/

/-- The data hold the bits `l`. -/
structure Ok (sso : Bool) (d : Data) (l : List Bool) : Prop where
  size : d.size = l.length
  val : ∀ i, bit d.words i = lb l i
  shape : if sso then d.words.length = 3 ∧ d.room = 3 ∧ l.length ≤ 96
    else d.words.length = wordCount l.length ∧ wordCount l.length ≤ d.room ∧ l.length < 2 ^ 32

def okS (d : Data) (l : List Bool) : Prop := Ok true d l
def okB (d : Data) (l : List Bool) : Prop := Ok false d l

abbrev R (w : Wld) (L : List (List Bool)) : Prop := Rel okS okB w L []

/-- What an operation sees of variable `i`. -/
structure View (w : Wld) (i : Nat) (l : List Bool) where
  v : Core Data
  d : Data
  m : Bool
  hv : w.vars[i]? = some v
  hd : unpack w v = some d
  hm : w.isMutable v = some m
  hok : Ok (isSso v) d l
  hsm : isSso v = true → m = true

theorem view {w : Wld} {L : List (List Bool)} (h : R w L) (i : Nat) (hi : i < L.length) : Nonempty (View w i L[i]) := by
  have hlt : i < w.vars.length := by rw [h.len]; exact hi
  have hvar : w.vars[i]? = some w.vars[i] := List.getElem?_eq_getElem hlt
  have hh := h.hold i _ _ hvar (List.getElem?_eq_getElem hi)
  generalize hg : w.vars[i] = v at *
  cases v with
  | sso s => exact ⟨⟨.sso s, s, true, hvar, rfl, rfl, hh, fun _ => rfl⟩⟩
  | dyn a =>
    obtain ⟨b, hb, h1⟩ := hh
    exact ⟨⟨.dyn a, b.val, b.rc == 1, hvar, by simp [unpack, hb], by simp [World.isMutable, hb], h1, fun h => by simp [isSso] at h⟩⟩

theorem View.sso {w : Wld} {i : Nat} {l : List Bool} (V : View w i l) (h : isSso V.v = true) :
    V.d.words.length = 3 ∧ V.d.room = 3 ∧ l.length ≤ 96 := by
  have := V.hok.shape; rw [if_pos h] at this; exact this

theorem View.dyn {w : Wld} {i : Nat} {l : List Bool} (V : View w i l) (h : ¬ isSso V.v = true) :
    V.d.words.length = wordCount l.length ∧ wordCount l.length ≤ V.d.room ∧ l.length < 2 ^ 32 := by
  have := V.hok.shape; rw [if_neg h] at this; exact this

theorem View.cap {w : Wld} {i : Nat} {l : List Bool} (V : View w i l) : l.length ≤ V.d.cap ∧ l.length < 2 ^ 32 ∧ l.length ≤ 32 * V.d.words.length ∧
    wordCount l.length ≤ V.d.words.length := by
  unfold Data.cap bitCount
  by_cases h : isSso V.v = true
  · have := V.sso h; unfold wordCount; omega
  · have := V.dyn h; unfold wordCount at *; omega

theorem own_view {w : Wld} {i : Nat} {l : List Bool} (V : View w i l) (h : Own w i) : V.m = true := by
  obtain ⟨v, h1, h2⟩ := h
  rw [V.hv] at h1
  cases h1
  rw [V.hm] at h2
  simpa using h2

theorem own_iff {w : Wld} {i : Nat} {l : List Bool} (V : View w i l) : Own w i ↔ V.m = true :=
  ⟨own_view V, fun h => ⟨V.v, V.hv, by rw [V.hm, h]⟩⟩

theorem inPlace_iff {w : Wld} {i : Nat} {l : List Bool} (V : View w i l) : InPlace w i ↔ isSso V.v = true := by
  constructor
  · rintro ⟨s, h⟩
    have := V.hv; rw [h] at this
    simp only [Option.some.injEq] at this
    rw [← this]; rfl
  · intro h
    have := V.hv
    cases hv : V.v with
    | sso s => exact ⟨s, by rw [this, hv]⟩
    | dyn a => rw [hv] at h; simp [isSso] at h

/-- What is known about variable `i` after an operation. -/
structure Now (w : Wld) (i : Nat) (sso : Bool) (d : Data) : Prop where
  ex : ∃ v, w.vars[i]? = some v ∧ unpack w v = some d ∧ w.isMutable v = some true ∧ isSso v = sso

theorem commit_ok {w : Wld} {L : List (List Bool)} (h : R w L) {i : Nat} (hi : i < L.length) (V : View w i L[i]) (hm : V.m = true)
    (d : Data) (x : List Bool) (hx : Ok (isSso V.v) d x) :
    ∃ w', commit w i d = some w' ∧ R w' (L.set i x) ∧ Now w' i (isSso V.v) d := by
  have hlt : i < w.vars.length := by rw [h.len]; exact hi
  have hhold := h.hold i _ _ V.hv (List.getElem?_eq_getElem hi)
  obtain ⟨v, u, m, hv, hu, hmm, hok, _⟩ := V
  simp only at hm hx hhold
  subst hm
  cases v with
  | sso s =>
    refine ⟨_, by simp only [commit, hv, Option.bind_eq_bind, Option.bind_some]; rfl,
      rel_set_sso h s d i hv x hx, ⟨.sso d, ?_, rfl, rfl, rfl⟩⟩
    simp only [World.setVar]; rw [List.getElem?_set_self hlt]
  | dyn a =>
    obtain ⟨b, hbk, h1⟩ := hhold
    have hrc : b.rc = 1 := by simpa [World.isMutable, hbk] using hmm
    obtain ⟨r1, r2, r3⟩ := rel_mutate h i a hv b hbk hrc d x hx
    refine ⟨_, by simp only [commit, hv, Option.bind_eq_bind, Option.bind_some, hbk]; rfl, r1, ⟨.dyn a, by rw [r2]; exact hv, ?_, ?_, rfl⟩⟩
    · simp only [unpack, r3, Option.map_some]
    · simp only [World.isMutable, r3, Option.map_some, hrc]; rfl

theorem install_ok {w : Wld} {L : List (List Bool)} (h : R w L) {i : Nat} (hi : i < L.length) (d : Data) (x : List Bool)
    (hx : Ok false d x) : ∃ w', install w i d = some w' ∧ R w' (L.set i x) ∧ Now w' i false d := by
  have hlt : i < w.vars.length := by rw [h.len]; exact hi
  obtain ⟨w', r1, r2, r3, r4⟩ := rel_replace_new h 1 d (by omega) i hi x hx
  refine ⟨w', r1, r2, ⟨.dyn w.heap.length, ?_, ?_, ?_, rfl⟩⟩
  · rw [r3, List.getElem?_set_self hlt]
  · simp only [unpack, r4, Option.map_some]
  · simp only [World.isMutable, r4, Option.map_some]; rfl

theorem place_ok {w : Wld} {L : List (List Bool)} (h : R w L) {i : Nat} (hi : i < L.length) (d : Data) (x : List Bool)
    (hx : Ok true d x) : ∃ w', w.replace i (.sso d) = some w' ∧ R w' (L.set i x) ∧ Now w' i true d := by
  have hlt : i < w.vars.length := by rw [h.len]; exact hi
  obtain ⟨w', r1, r2, r3⟩ := rel_replace_sso h d i hi x hx
  exact ⟨w', r1, r2, ⟨.sso d, by rw [r3, List.getElem?_set_self hlt], rfl, rfl, rfl⟩⟩

theorem initSso_ok (n : Nat) (h : n ≤ 96) : Ok true (initSso n) (List.replicate n false) := by
  refine ⟨by simp [initSso], ?_, ?_⟩
  · intro i; rw [lb_replicate]; exact bit_zeros _ _
  · simp [initSso, ssoWords, h]

/-- Words copied to an impl with more room, and zeros behind them. -/
theorem fresh_ok (src : List W) (l : List Bool) (hs : src.length = wordCount l.length) (hb : ∀ i, bit src i = lb l i)
    (n room : Nat) (hn : wordCount (l.length + n) ≤ room) (hlim : l.length + n < 2 ^ 32) :
    ∃ d, fresh src (l.length + n) room = some d ∧ d.room = room ∧ Ok false d (l ++ List.replicate n false) := by
  have h1 : wordCount l.length ≤ wordCount (l.length + n) := by unfold wordCount; omega
  refine ⟨_, by unfold fresh; rw [if_pos ⟨by omega, hn⟩, if_pos (by omega)], rfl, ⟨by simp, ?_, ?_⟩⟩
  · intro i
    show bit (src ++ _) i = _
    rw [bit_append, lb_append, lb_replicate, bit_zeros, hb]
    by_cases h : i < l.length
    · rw [if_pos h, if_pos (by unfold wordCount at hs; omega)]
    · rw [if_neg h, lb_ge l i (by omega), ite_self]
  · simp only [Bool.false_eq_true, if_false, List.length_append, List.length_replicate]
    omega

/-- The words in use of any bit array. -/
theorem View.taken {w : Wld} {i : Nat} {l : List Bool} (V : View w i l) :
    takeWords V.d (wordCount l.length) = some (V.d.words.take (wordCount l.length)) ∧
    (V.d.words.take (wordCount l.length)).length = wordCount l.length ∧
    ∀ k, bit (V.d.words.take (wordCount l.length)) k = lb l k := by
  have hc := V.cap
  refine ⟨by unfold takeWords; rw [if_pos hc.2.2.2], by rw [List.length_take]; omega, ?_⟩
  intro k
  rw [bit_take, V.hok.val]
  by_cases h : k < 32 * wordCount l.length
  · rw [if_pos h]
  · rw [if_neg h, lb_ge l k (by unfold wordCount at h; omega)]

theorem expandWords_ge (n : Nat) : n ≤ expandWords n := by
  unfold expandWords
  have := le_expand (8 + n * 4)
  omega

/-- Changing words of a bit array that is not shared. -/
theorem onWords_ok {w : Wld} {L : List (List Bool)} (h : R w L) {i : Nat} (hi : i < L.length) (V : View w i L[i]) (hm : V.m = true)
    (f : Nat → List W → Option (List W)) (x : List Bool) (hx : x.length = L[i].length) (ws : List W)
    (hf : f V.d.size V.d.words = some ws) (hlen : ws.length = V.d.words.length) (hb : ∀ k, bit ws k = lb x k) :
    ∃ w', onWords w i f = some w' ∧ R w' (L.set i x) := by
  have hok : Ok (isSso V.v) { V.d with words := ws } x := by
    refine ⟨by show V.d.size = _; rw [V.hok.size, hx], hb, ?_⟩
    have := V.hok.shape
    rw [hx]
    show if _ then ws.length = _ ∧ _ else ws.length = _ ∧ _
    rw [hlen]; exact this
  obtain ⟨w', r1, r2, _⟩ := commit_ok h hi V hm _ x hok
  exact ⟨w', by simp only [onWords, V.hv, V.hd, hf, Option.bind_eq_bind, Option.bind_some]; exact r1, r2⟩

end Blend2D.BitArr
