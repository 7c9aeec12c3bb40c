import Verif.Arr.Ops2
/-! # The operations of `BLArray` keep the relation (insertion and removal) -/
namespace Blend2D.Arr
open Cow

variable {α : Type}

/-- The items a source denotes, given the content of the array. -/
def Src.val (s : Src α) (l : List (Option α)) : List (Option α) :=
  match s with
  | .ext x _ => x.map some
  | .own off n => (l.drop off).take n

/-- A part of the array's own content lies inside of it. -/
def Src.Ok (s : Src α) (l : List (Option α)) : Prop :=
  match s with
  | .ext _ _ => True
  | .own off n => off + n ≤ l.length

theorem Src.val_len (s : Src α) (l : List (Option α)) (h : s.Ok l) : (s.val l).length = s.len := by
  cases s with
  | ext x b => simp [Src.val, Src.len]
  | own off n =>
    have h' : off + n ≤ l.length := h
    simp only [Src.val, Src.len, List.length_take, List.length_drop]; omega

theorem Src.read_ok (s : Src α) (l t : List (Option α)) (h : s.Ok l) : s.read (l ++ t) = some (s.val l) := by
  cases s with
  | ext x b => rfl
  | own off n => exact rd_app l t off n h

theorem rd_shift (p x : List (Option α)) (k n : Nat) : rd (p ++ x) (p.length + k) n = rd x k n := by
  unfold rd
  rw [List.length_append]
  by_cases hc : k + n ≤ x.length
  · rw [if_pos (by omega), if_pos hc]
    congr 2
    rw [← List.drop_drop]; simp
  · rw [if_neg (by omega), if_neg hc]

theorem rd_zero (cells : List (Option α)) (o : Nat) (h : o ≤ cells.length) : rd cells o 0 = some [] := by
  unfold rd; rw [if_pos (by omega)]; simp

theorem wr_nil (cells : List (Option α)) (o : Nat) (h : o ≤ cells.length) : wr cells o [] = some cells := by
  unfold wr
  rw [if_pos (by simpa using h)]
  simp

theorem copy_apart (cells : List (Option α)) (d s n : Nat) (h : d + n ≤ s ∨ s + n ≤ d) : copy cells d s n = move cells d s n := by
  unfold copy
  rw [if_neg (by omega)]

theorem move_zero (cells : List (Option α)) (d s : Nat) (hd : d ≤ cells.length) (hs : s ≤ cells.length) :
    move cells d s 0 = some cells := by
  simp only [move, rd_zero cells s hs, Option.bind_eq_bind, Option.bind_some, wr_nil cells d hd]

theorem Src.copyTo_ok (s : Src α) (l t : List (Option α)) (h : s.Ok l) (hl : s.len ≤ t.length) :
    s.copyTo (l ++ t) l.length = some (l ++ (s.val l ++ t.drop s.len)) := by
  have hv := s.val_len l h
  have key := wr_app l t (s.val l) l.length rfl (by omega)
  rw [hv] at key
  cases s with
  | ext x b => exact key
  | own off n =>
    have h' : off + n ≤ l.length := h
    simp only [Src.copyTo]
    rw [copy_apart _ _ _ _ (.inr h')]
    simp only [move, rd_app l t off n h', Option.bind_eq_bind, Option.bind_some]
    exact key

/-- Making room: the items from `idx` on move up by `n`. -/
theorem move_gap (l t : List (Option α)) (idx n : Nat) (hi : idx ≤ l.length) (hn : n ≤ t.length) :
    ∃ M, M.length = n ∧ move (l ++ t) (idx + n) idx (l.length - idx) = some (l.take idx ++ (M ++ (l.drop idx ++ t.drop n))) := by
  have hr := rd_app l t idx (l.length - idx) (by omega)
  have e1 : (l.drop idx).take (l.length - idx) = l.drop idx := List.take_of_length_le (by rw [List.length_drop]; omega)
  rw [e1] at hr
  refine ⟨(l.drop idx ++ t).take n, by rw [List.length_take, List.length_append]; omega, ?_⟩
  simp only [move, hr, Option.bind_eq_bind, Option.bind_some]
  have hsplit : l ++ t = (l.take idx ++ (l.drop idx ++ t).take n) ++ (((l.drop idx ++ t).drop n).take (l.length - idx) ++ t.drop n) := by
    have h3 : ((l.drop idx ++ t).drop n).drop (l.length - idx) = t.drop n := by
      rw [List.drop_drop, List.drop_append, List.length_drop]
      rw [List.drop_of_length_le (by rw [List.length_drop]; omega)]
      simp only [List.nil_append]
      congr 1; omega
    rw [← h3, List.take_append_drop, List.append_assoc, List.take_append_drop, ← List.append_assoc, List.take_append_drop]
  have hl2 : (l.take idx ++ (l.drop idx ++ t).take n).length = idx + n := by
    simp only [List.length_append, List.length_take, List.length_drop]; omega
  have hl3 : (l.drop idx).length = (((l.drop idx ++ t).drop n).take (l.length - idx)).length := by
    simp only [List.length_take, List.length_drop, List.length_append]; omega
  have := wr_mid _ _ (t.drop n) (l.drop idx) (idx + n) hl2.symm hl3
  rw [← hsplit] at this
  rw [this, List.append_assoc]

theorem insertInPlace_ok (l t : List (Option α)) (idx : Nat) (s : Src α) (hi : idx ≤ l.length) (hs : s.Ok l)
    (hn : s.len ≤ t.length) :
    insertInPlace (l ++ t) l.length idx s = some (l.take idx ++ (s.val l ++ (l.drop idx ++ t.drop s.len))) := by
  obtain ⟨M, hM, hmv⟩ := move_gap l t idx s.len hi hn
  have hti : (l.take idx).length = idx := by rw [List.length_take]; omega
  simp only [insertInPlace, hmv, Option.bind_eq_bind, Option.bind_some]
  cases s with
  | ext x b =>
    simp only [Src.val]
    exact wr_mid _ M _ _ idx hti.symm (by rw [hM]; simp [Src.len])
  | own off n =>
    have hs' : off + n ≤ l.length := hs
    simp only [Src.len] at hM hn hmv ⊢
    simp only [Src.val]
    obtain ⟨T, hT⟩ : ∃ T, T = t.drop n := ⟨_, rfl⟩
    rw [← hT]
    have hTl : T.length = t.length - n := by rw [hT, List.length_drop]
    have htot : (l.take idx ++ (M ++ (l.drop idx ++ T))).length = l.length + t.length := by
      simp only [List.length_append, hti, List.length_drop, hM, hTl]; omega
    by_cases hA : off + n ≤ idx
    · -- everything precedes the insertion point
      have hlead : (if off < idx then min (idx - off) n else 0) = n := by
        by_cases h0 : off < idx
        · rw [if_pos h0]; omega
        · rw [if_neg h0]; omega
      rw [hlead, copy_apart _ _ _ _ (.inr hA)]
      have hr := rd_app (l.take idx) (M ++ (l.drop idx ++ T)) off n (by omega)
      have hx : ((l.take idx).drop off).take n = (l.drop off).take n := by
        rw [List.drop_take, List.take_take, Nat.min_eq_left (by omega)]
      rw [hx] at hr
      have hw := wr_mid (l.take idx) M (l.drop idx ++ T) ((l.drop off).take n) idx hti.symm
        (by rw [hM, List.length_take, List.length_drop]; omega)
      simp only [move, hr, hw, Option.bind_eq_bind, Option.bind_some, Nat.sub_self]
      have hl' := wr_len hw
      rw [htot] at hl'
      rw [copy_apart _ _ _ _ (by omega)]
      apply move_zero
      · rw [hl']; omega
      · rw [hl']; split <;> omega
    · by_cases hC : idx ≤ off
      · -- everything follows it
        have hlead : (if off < idx then min (idx - off) n else 0) = 0 := if_neg (by omega)
        rw [hlead, copy_apart _ idx off 0 (by omega)]
        rw [move_zero _ _ _ (by rw [htot]; omega) (by rw [htot]; omega)]
        simp only [Option.bind_some, Nat.add_zero, Nat.sub_zero]
        rcases Nat.eq_zero_or_pos n with h0 | h0
        · subst h0
          have hM0 : M = [] := List.length_eq_zero_iff.1 hM
          rw [copy_apart _ _ _ _ (by omega), move_zero _ _ _ (by rw [htot]; omega) (by rw [htot]; split <;> omega), hM0]
          simp
        rw [if_pos (show off < l.length + n by omega), copy_apart _ _ _ _ (by omega)]
        have hr : rd (l.take idx ++ (M ++ (l.drop idx ++ T))) (off + n) n = some ((l.drop off).take n) := by
          have e : off + n = (l.take idx ++ M).length + (off - idx) := by
            rw [List.length_append, hti, hM]; omega
          rw [e, ← List.append_assoc, rd_shift, rd_app _ _ _ _ (by rw [List.length_drop]; omega), List.drop_drop]
          congr 3; omega
        simp only [move, hr, Option.bind_eq_bind, Option.bind_some]
        exact wr_mid (l.take idx) M (l.drop idx ++ T) _ idx hti.symm (by rw [hM, List.length_take, List.length_drop]; omega)
      · -- it is split
        have hlead : (if off < idx then min (idx - off) n else 0) = idx - off := by rw [if_pos (by omega)]; omega
        rw [hlead]
        obtain ⟨k, hk⟩ : ∃ k, k = idx - off := ⟨_, rfl⟩
        rw [← hk]
        rw [copy_apart _ _ _ _ (by omega)]
        have hr := rd_app (l.take idx) (M ++ (l.drop idx ++ T)) off k (by omega)
        have hx : ((l.take idx).drop off).take k = (l.drop off).take k := by
          rw [List.drop_take, List.take_take, Nat.min_eq_left (by omega)]
        rw [hx] at hr
        have hkl : ((l.drop off).take k).length = k := by rw [List.length_take, List.length_drop]; omega
        have hw := wr_mid (l.take idx) (M.take k) (M.drop k ++ (l.drop idx ++ T)) ((l.drop off).take k) idx hti.symm
          (by rw [hkl, List.length_take, hM]; omega)
        rw [← List.append_assoc (M.take k), List.take_append_drop] at hw
        simp only [move, hr, hw, Option.bind_eq_bind, Option.bind_some]
        rw [if_pos (show off + k < l.length + n by omega), copy_apart _ _ _ _ (by omega)]
        have hr2 : rd (l.take idx ++ ((l.drop off).take k ++ (M.drop k ++ (l.drop idx ++ T)))) (off + k + n) (n - k)
            = some ((l.drop idx).take (n - k)) := by
          have e : off + k + n = (l.take idx ++ ((l.drop off).take k ++ M.drop k)).length + 0 := by
            rw [List.length_append, List.length_append, hti, hkl, List.length_drop, hM]; omega
          have e2 : l.take idx ++ ((l.drop off).take k ++ (M.drop k ++ (l.drop idx ++ T)))
              = (l.take idx ++ ((l.drop off).take k ++ M.drop k)) ++ (l.drop idx ++ T) := by simp
          rw [e, e2, rd_shift, rd_app _ _ _ _ (by rw [List.length_drop]; omega), List.drop_zero]
        simp only [move, hr2, Option.bind_eq_bind, Option.bind_some]
        have hw2 := wr_mid (l.take idx ++ (l.drop off).take k) (M.drop k) (l.drop idx ++ T) ((l.drop idx).take (n - k)) (idx + k)
          (by rw [List.length_append, hti, hkl]) (by simp only [List.length_take, List.length_drop, hM]; omega)
        rw [List.append_assoc] at hw2
        rw [hw2]
        have hcat : (l.drop off).take n = (l.drop off).take k ++ (l.drop idx).take (n - k) := by
          have : (l.drop idx) = (l.drop off).drop k := by rw [List.drop_drop]; congr 1; omega
          rw [this, ← List.take_add]; congr 1; omega
        rw [hcat]
        simp

section
variable (c : Cfg α) (hp : 0 < c.itemSize) (ok : Bool)

include hp in
theorem uaddSat_le (a b : Nat) (hh : uaddSat a b ≤ c.maxCap) : uaddSat a b = a + b := by
  have := le_maxCap c hp _ hh
  have h2 := Nat.le_mul_of_pos_right (uaddSat a b) hp
  rw [implMaxSize_eq] at this
  unfold uaddSat at *
  omega

include hp in
theorem uaddSat_gt (a b : Nat) (hh : uaddSat a b > c.maxCap) : implMaxSize < 2 * (25 + (a + b) * c.itemSize) := by
  have h1 : uaddSat a b ≤ a + b := Nat.min_le_left _ _
  have h2 : ¬ (a + b) * c.itemSize ≤ implMaxSize - 24 := by
    intro hc; exact absurd ((Nat.le_div_iff_mul_le hp).2 hc) (by unfold Cfg.maxCap at hh; omega)
  rw [implMaxSize_eq] at *; omega

include hp in
theorem grow_cases (k : Nat) (hk : k ≤ c.maxCap) :
    (∃ d, c.initDynamic ok k (expand (c.implSize k)) = some d ∧ d.size = k ∧ k ≤ d.cells.length ∧ d.cells.length * c.itemSize ≤ 2 ^ 63) ∨
    (c.initDynamic ok k (expand (c.implSize k)) = none ∧ (ok = false ∨ implMaxSize < 2 * (25 + k * c.itemSize))) := by
  have hm := le_maxCap c hp k hk
  have hb : k * c.itemSize ≤ 2 ^ 63 := by rw [implMaxSize_eq] at hm; omega
  rw [implSize_of_le c k hb]
  cases hd : c.initDynamic ok k (expand (24 + k * c.itemSize)) with
  | none =>
    refine .inr ⟨rfl, ?_⟩
    rcases initDynamic_none c ok _ _ hd with e | e
    · exact .inl e
    · right
      by_cases hlim : 24 + k * c.itemSize ≤ 2 ^ 62
      · have := expand_le _ hlim
        omega
      · rw [implMaxSize_eq]; omega
  | some d =>
    obtain ⟨d1, d2, d3, _⟩ := initDynamic_some c hp ok _ _ k d hd (le_expand _)
    exact .inl ⟨d, rfl, d1, d2, d3⟩

variable {w : Wld α} {L : List (List (Option α))} (h : R c w L) {i : Nat} (hi : i < L.length)
include h hi

omit h in
include hp in
/-- In place the size does not saturate. -/
theorem uaddSat_fit (V : View c w i L[i]) (a b : Nat) (hh : masked (uaddSat a b) V.m ≤ V.u.cells.length) :
    V.m = true ∧ a + b ≤ V.u.cells.length ∧ uaddSat a b = a + b := by
  obtain ⟨m1, m2⟩ := (masked_le c hi V hp _).1 hh
  have := V.hb
  have := Nat.le_mul_of_pos_right V.u.cells.length hp
  unfold uaddSat at *
  exact ⟨m1, by omega, by omega⟩

omit h hi in
/-- Three parts written to a new buffer: head, tail, then the middle. -/
theorem wr_three (a b x d : List (Option α)) (hd : a.length + x.length + b.length ≤ d.length) :
    ∃ c1 c2 t, wr d 0 a = some c1 ∧ wr c1 (a.length + x.length) b = some c2 ∧ wr c2 a.length x = some (a ++ (x ++ b) ++ t) ∧
      (a ++ (x ++ b) ++ t).length = d.length := by
  have f1 := wr_zero d a (by omega)
  obtain ⟨d1, hd1⟩ : ∃ d1, d1 = d.drop a.length := ⟨_, rfl⟩
  rw [← hd1] at f1
  have hl1 : d1.length = d.length - a.length := by rw [hd1, List.length_drop]
  have f2 := wr_app (a ++ d1.take x.length) (d1.drop x.length) b (a.length + x.length)
    (by rw [List.length_append, List.length_take]; omega) (by rw [List.length_drop]; omega)
  rw [List.append_assoc, List.take_append_drop, List.append_assoc] at f2
  have f3 := wr_mid a (d1.take x.length) (b ++ (d1.drop x.length).drop b.length) x a.length rfl (by rw [List.length_take]; omega)
  refine ⟨_, _, (d1.drop x.length).drop b.length, f1, f2, ?_, ?_⟩
  · rw [f3]; simp
  · simp only [List.length_append, List.length_drop]; omega

end
end Blend2D.Arr
