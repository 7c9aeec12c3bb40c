import Verif.Glyf.Model
import Verif.Kern.Safe
/-! The flags of a simple glyph: what they say about the coordinates. -/
namespace Blend2D.Glyf
open Blend2D.Kern (u8 u16 u32 i16)

/-- No undefined behaviour, and `P` of what is returned. -/
def Ok {α : Type} (r : Except Err α) (P : α → Prop) : Prop :=
  match r with
  | .ok a => P a
  | .error e => e ≠ .ub

theorem Ok.bind {α β : Type} {r : Except Err α} {f : α → Except Err β} {P : α → Prop} {Q : β → Prop}
    (h : Ok r P) (k : ∀ a, P a → Ok (f a) Q) : Ok (r >>= f) Q := by
  cases r with
  | error e => exact h
  | ok a => exact k a h

theorem Ok.mono {α : Type} {r : Except Err α} {P Q : α → Prop} (h : Ok r P) (k : ∀ a, P a → Q a) : Ok r Q := by
  cases r with
  | error e => exact h
  | ok a => exact k a h

theorem Ok.map {α β : Type} {r : Except Err α} {f : α → β} {Q : β → Prop}
    (h : Ok r (fun a => Q (f a))) : Ok (r.map f) Q := by
  cases r with
  | error e => exact h
  | ok a => exact h

theorem ok_u8 {d : List UInt8} {i : Nat} (h : i < d.length) : Ok (get (u8 d i)) (fun v => v < 256) := by
  rw [Kern.u8_some h]
  exact (d[i]).toNat_lt

theorem ok_u16 {d : List UInt8} {i : Nat} (h : i + 2 ≤ d.length) : Ok (get (u16 d i)) (fun v => v < 65536) := by
  obtain ⟨v, h1, h2⟩ := Kern.u16_some h
  rw [h1]
  exact h2

theorem ok_u32 {d : List UInt8} {i : Nat} (h : i + 4 ≤ d.length) : Ok (get (u32 d i)) (fun _ => True) := by
  obtain ⟨v, h1, h2⟩ := Kern.u16_some (d := d) (i := i) (by omega)
  obtain ⟨w, h3, h4⟩ := Kern.u16_some (d := d) (i := i + 2) (by omega)
  simp only [u32, h1, h3]
  trivial

theorem ok_i16 {d : List UInt8} {i : Nat} (h : i + 2 ≤ d.length) : Ok (get (i16 d i)) (fun v => v < 32768) := by
  obtain ⟨v, h1, h2⟩ := Kern.u16_some h
  simp only [i16, h1]
  show (if v < 32768 then (v : Int) else (v : Int) - 65536) < 32768
  split <;> omega

theorem ok_i8 {d : List UInt8} {i : Nat} (h : i < d.length) : Ok (get (i8 d i)) (fun _ => True) := by
  simp only [i8, Kern.u8_some h]
  trivial

/-- Bytes of the two coordinates of a point, and whether a point is added in front of it. -/
def xsz (f : Nat) : Nat := if f &&& 2 ≠ 0 then 1 else if f &&& 16 ≠ 0 then 0 else 2
@[inherit_doc xsz] def ysz (f : Nat) : Nat := if f &&& 4 ≠ 0 then 1 else if f &&& 32 ≠ 0 then 0 else 2
@[inherit_doc xsz] def extra (f : Nat) : Nat := if f &&& 129 = 0 then 1 else 0

theorem nextFlag_table : ∀ f < 256, ∀ t < 64, nextFlag f t = t + 128 * (f % 2) := by decide +kernel

theorem size_table : ∀ b < 2, ∀ t < 64,
    vertexSize (t >>> 1) = xsz (t + 128 * b) + 65536 * ysz (t + 128 * b) ∧
    (t + 128 * b) &&& 1 = t % 2 ∧ (t + 128 * b) &&& 8 = t &&& 8 ∧
    extra (t + 128 * b) = (if t % 2 = 0 ∧ b = 0 then 1 else 0) := by decide +kernel

theorem xsz_le (f : Nat) : xsz f ≤ 2 := by unfold xsz; split <;> [omega; split <;> omega]
theorem ysz_le (f : Nat) : ysz f ≤ 2 := by unfold ysz; split <;> [omega; split <;> omega]

theorem nextFlag_lt (f t : Nat) (hf : f < 256) (ht : t < 64) : nextFlag f t < 256 := by
  rw [nextFlag_table f hf t ht]; omega

theorem nextFlag_size (f t : Nat) (hf : f < 256) (ht : t < 64) :
    vertexSize (t >>> 1) = xsz (nextFlag f t) + 65536 * ysz (nextFlag f t) := by
  rw [nextFlag_table f hf t ht]
  exact (size_table _ (Nat.mod_lt _ (by omega)) t ht).1

/-- Repeating a flag: the bit of the previous point is its own. -/
theorem nextFlag_extra (f t : Nat) (hf : f < 256) (ht : t < 64) :
    extra (nextFlag (nextFlag f t) t) = (if nextFlag (nextFlag f t) t &&& 1 = 0 then 1 else 0) := by
  have h1 := nextFlag_table f hf t ht
  have h2 := nextFlag_table (nextFlag f t) (nextFlag_lt f t hf ht) t ht
  have hb : nextFlag f t % 2 < 2 := Nat.mod_lt _ (by omega)
  have h3 := size_table _ hb t ht
  rw [h2, h3.2.1, h3.2.2.2]
  have : nextFlag f t % 2 = t % 2 := by rw [h1]; omega
  rw [this]
  split <;> split <;> omega

/-- Sum over a list. -/
def wsum (w : Nat → Nat) (l : List Nat) : Nat := (l.map w).sum

theorem wsum_append (w : Nat → Nat) (l m : List Nat) : wsum w (l ++ m) = wsum w l + wsum w m := by
  simp [wsum]

theorem wsum_replicate (w : Nat → Nat) (n x : Nat) : wsum w (List.replicate n x) = n * w x := by
  simp [wsum]

theorem wsum_single (w : Nat → Nat) (x : Nat) : wsum w [x] = w x := by simp [wsum]

theorem wsum_take_succ (w : Nat → Nat) (l : List Nat) (i : Nat) (h : i < l.length) :
    wsum w (l.take (i + 1)) = wsum w (l.take i) + w l[i] := by
  rw [List.take_succ_eq_append_getElem h, wsum_append, wsum_single]

theorem wsum_take_le (w : Nat → Nat) (l : List Nat) (i : Nat) : wsum w (l.take i) ≤ wsum w l := by
  conv_rhs => rw [← List.take_append_drop i l, wsum_append]
  omega

theorem wsum_le (w : Nat → Nat) (k : Nat) (l : List Nat) (h : ∀ x, w x ≤ k) : wsum w l ≤ l.length * k := by
  induction l with
  | nil => simp [wsum]
  | cons a l ih =>
    have := h a
    simp only [wsum, List.map_cons, List.sum_cons, List.length_cons] at ih ⊢
    rw [Nat.add_mul]
    omega

/-- What holds between the rounds of the loop over the flags. -/
structure FInv (gEnd tt : Nat) (s : FSt) : Prop where
  p_le : s.p ≤ gEnd
  f_lt : s.f < 256
  len : s.fs.length ≤ tt
  xy : s.xy = wsum xsz s.fs + 65536 * wsum ysz s.fs
  offc : s.offc = wsum extra s.fs

theorem flagFirst_inv {g : List UInt8} {gEnd tt : Nat} {s : FSt} (hg : gEnd ≤ g.length) (h : FInv gEnd tt s)
    (hl : s.fs.length < tt) : Ok (flagFirst g gEnd tt s) (fun r => FInv gEnd tt r.2 ∧
      r.2.fs.length = s.fs.length + 1 ∧ r.1 < 64 ∧ r.2.f = nextFlag s.f r.1) := by
  unfold flagFirst
  have := h.p_le
  split
  · exact Err.noConfusion
  · refine (ok_u8 (by omega)).bind fun b _ => ?_
    have hb : b &&& 0x3F < 64 := Nat.lt_of_le_of_lt Nat.and_le_right (by decide)
    simp only [hl, if_true]
    refine ⟨⟨?_, nextFlag_lt _ _ h.f_lt hb, ?_, ?_, ?_⟩, ?_, hb, rfl⟩
    · simp only; omega
    · simp only [List.length_append, List.length_singleton]; omega
    · simp only [wsum_append, wsum_single, h.xy, nextFlag_size _ _ h.f_lt hb]
      omega
    · simp only [wsum_append, wsum_single, h.offc]
      rfl
    · simp only [List.length_append, List.length_singleton]

theorem flagRepeat_inv {g : List UInt8} {gEnd tt t f0 : Nat} {s : FSt} (hg : gEnd ≤ g.length) (h : FInv gEnd tt s)
    (ht : t < 64) (hf0 : f0 < 256) (hf : s.f = nextFlag f0 t) : Ok (flagRepeat g gEnd tt t s)
      (fun r => FInv gEnd tt r ∧ s.fs.length ≤ r.fs.length) := by
  unfold flagRepeat
  have := h.p_le
  split
  · exact Err.noConfusion
  · refine (ok_u8 (by omega)).bind fun n _ => ?_
    split
    · exact Err.noConfusion
    · have hl := h.len
      refine ⟨⟨?_, nextFlag_lt _ _ h.f_lt ht, ?_, ?_, ?_⟩, ?_⟩
      · simp only; omega
      · simp only [List.length_append, List.length_replicate]; omega
      · simp only [wsum_append, wsum_replicate, h.xy, nextFlag_size _ _ h.f_lt ht, Nat.mul_add]
        rw [Nat.mul_left_comm n 65536]
        omega
      · simp only [wsum_append, wsum_replicate, h.offc, hf, nextFlag_extra _ _ hf0 ht]
      · simp only [List.length_append, List.length_replicate]; omega

theorem flagRound_inv {g : List UInt8} {gEnd tt : Nat} {s : FSt} (hg : gEnd ≤ g.length) (h : FInv gEnd tt s)
    (hl : s.fs.length < tt) : Ok (flagRound g gEnd tt s) (fun r => FInv gEnd tt r ∧
      s.fs.length < r.fs.length) := by
  unfold flagRound
  have h1 := flagFirst_inv hg h hl
  revert h1
  cases flagFirst g gEnd tt s with
  | error e => exact id
  | ok r =>
    obtain ⟨t, w⟩ := r
    rintro ⟨h1, h2, h3, h4⟩
    simp only at h1 h2 h3 h4 ⊢
    split
    · exact ⟨h1, by omega⟩
    · refine (flagRepeat_inv hg h1 h3 h.f_lt h4).mono fun r hr => ⟨hr.1, ?_⟩
      have := hr.2
      omega

theorem flagLoop_inv {g : List UInt8} {gEnd tt : Nat} (hg : gEnd ≤ g.length) (fuel : Nat) (s : FSt)
    (h : FInv gEnd tt s) (hl : s.fs.length < tt) (hf : tt - s.fs.length ≤ fuel) :
    Ok (flagLoop g gEnd tt fuel s) (fun r => FInv gEnd tt r ∧ r.fs.length = tt) := by
  induction fuel generalizing s with
  | zero => omega
  | succ fuel ih =>
    unfold flagLoop
    have h1 := flagRound_inv hg h hl
    revert h1
    cases flagRound g gEnd tt s with
    | error e => exact id
    | ok w =>
      rintro ⟨h1, h2⟩
      simp only
      have := h1.len
      split
      · exact ih w h1 (by omega) (by omega)
      · exact ⟨h1, by omega⟩

end Blend2D.Glyf
