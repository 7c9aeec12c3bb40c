import Verif.Bmp.Spec

/-!
# The run-length decoders
-/
namespace Blend2D.Bmp
open Spec PixConv

theorem Res.bind_ok {α β : Type} {x : Res α} {f : α → Res β} {b : β} : (x >>= f) = .ok b ↔ ∃ a, x = .ok a ∧ f a = .ok b := by
  cases x with
  | ok a =>
    constructor
    · intro h; exact ⟨a, rfl, h⟩
    · rintro ⟨a', h1, h2⟩; cases h1; exact h2
  | error =>
    constructor
    · intro h; cases h
    · rintro ⟨a', h1, h2⟩; cases h1
  | outside =>
    constructor
    · intro h; cases h
    · rintro ⟨a', h1, h2⟩; cases h1

theorem Res.bind_outside {α β : Type} {x : Res α} {f : α → Res β} :
    (x >>= f) = .outside ↔ x = .outside ∨ ∃ a, x = .ok a ∧ f a = .outside := by
  cases x with
  | ok a =>
    constructor
    · intro h; exact Or.inr ⟨a, rfl, h⟩
    · rintro (h | ⟨a', h1, h2⟩)
      · cases h
      · cases h1; exact h2
  | error =>
    constructor
    · intro h; cases h
    · rintro (h | ⟨a', h1, h2⟩)
      · cases h
      · cases h1
  | outside =>
    constructor
    · intro _; exact Or.inl rfl
    · intro _; rfl

theorem Res.ok_bind {α β : Type} (a : α) (f : α → Res β) : (Res.ok a >>= f) = f a := rfl

theorem need_ok {c : Bool} {u : Unit} : need c = .ok u ↔ c = true := by
  unfold need; cases c <;> simp

theorem need_outside {c : Bool} : ¬ need c = .outside := by
  unfold need; cases c <;> simp

theorem need_true {c : Bool} (h : c = true) : need c = .ok () := by rw [h]; rfl

/-- Consecutive pixels of a row. -/
theorem putRun_ok (w m : Nat) (vs : List UInt32) (c : Canvas) (py px : Nat) (hy : py < m) (hx : px + vs.length ≤ w) :
    putRun w m c py px vs = .ok (fun j i => if j = py ∧ px ≤ i ∧ i < px + vs.length then some (vs.getD (i - px) 0) else c j i) := by
  induction vs generalizing c px with
  | nil =>
    simp only [putRun, List.length_nil, Nat.add_zero, Res.ok.injEq]
    funext j i
    rw [if_neg (by omega)]
  | cons v vs ih =>
    simp only [List.length_cons] at hx
    unfold putRun put
    rw [if_pos ⟨hy, by omega⟩, Res.ok_bind, ih _ (px + 1) (by omega)]
    simp only [Res.ok.injEq, List.length_cons]
    funext j i
    by_cases h : j = py ∧ px ≤ i ∧ i < px + (vs.length + 1)
    · rw [if_pos h]
      by_cases hi : i = px
      · subst hi
        rw [if_neg (by omega), if_pos ⟨h.1, rfl⟩, Nat.sub_self]; rfl
      · rw [if_pos ⟨h.1, by omega, by omega⟩]
        rw [show i - px = (i - (px + 1)) + 1 by omega]
        rfl
    · rw [if_neg h, if_neg (by omega), if_neg (by omega)]

theorem sub32_eq {w x : Nat} (hw : w < 2 ^ 32) (hx : x ≤ w) : sub32 w x = w - x := by
  unfold sub32
  rw [show w + 2 ^ 32 - x = (w - x) + 2 ^ 32 by omega, Nat.add_mod_right, Nat.mod_eq_of_lt (by omega)]

/-- What is true between two codes: both positions agree and lie within the image, everything before them has been written. -/
structure At (w h : Nat) (c : Canvas) (s : Pen) : Prop where
  px : s.px = s.x
  py : s.py = s.y
  x : s.x ≤ w
  y : s.y ≤ h
  before : ∀ y x, y < h → x < w → (y < s.y ∨ y = s.y ∧ x < s.x) → (c y x).isSome

/-- A run at the position. -/
theorem at_run {w h m : Nat} {c : Canvas} {s : Pen} (A : At w h c s) (vs : List UInt32) (hy : s.y < m) (hv : s.x + vs.length ≤ w) :
    ∃ c', putRun w m c s.py s.px vs = .ok c' ∧ At w h c' { s with x := s.x + vs.length, px := s.px + vs.length } ∧
      ∀ j i, c' j i = if j = s.y ∧ s.x ≤ i ∧ i < s.x + vs.length then some (vs.getD (i - s.x) 0) else c j i := by
  have e := putRun_ok w m vs c s.py s.px (by rw [A.py]; exact hy) (by rw [A.px]; exact hv)
  refine ⟨_, e, ⟨by simp [A.px], A.py, hv, A.y, ?_⟩, ?_⟩
  · intro y x hy' hx' h
    simp only at h ⊢
    rw [A.px, A.py]
    by_cases k : y = s.y ∧ s.x ≤ x ∧ x < s.x + vs.length
    · rw [if_pos k]; rfl
    · rw [if_neg k]
      exact A.before y x hy' hx' (by omega)
  · intro j i
    rw [A.px, A.py]

/-- Rows are filled with the background. -/
theorem finishRows_ok {w h m : Nat} (hw : w < 2 ^ 32) (n : Nat) (c : Canvas) (s : Pen) (A : At w h c s) (hm : s.y + n ≤ m) (hn : s.y + n ≤ h) :
    ∃ c' s', finishRows w m n c s = .ok (c', s') ∧ At w h c' s' ∧ s'.y = s.y + n ∧ s'.x = (if n = 0 then s.x else 0) ∧
      ∀ j i, j < h → i < w → c' j i = if (s.y < j ∨ j = s.y ∧ s.x ≤ i) ∧ j < s.y + n then some 0 else c j i := by
  induction n generalizing c s with
  | zero =>
    refine ⟨c, s, rfl, A, rfl, rfl, fun j i _ _ => ?_⟩
    rw [if_neg (by omega)]
  | succ n ih =>
    have hx := A.x
    obtain ⟨c1, e1, A1, v1⟩ := at_run (m := m) A (List.replicate (w - s.x) 0) (by omega) (by rw [List.length_replicate]; omega)
    have A2 : At w h c1 ⟨0, s.y + 1, 0, s.py + 1⟩ := by
      refine ⟨rfl, by simp [A.py], Nat.zero_le _, by simp only; omega, ?_⟩
      intro y x hy' hx' k
      apply A1.before y x hy' hx'
      simp only [List.length_replicate] at k ⊢
      omega
    obtain ⟨c', s', e2, A', k1, k2, k3⟩ := ih c1 ⟨0, s.y + 1, 0, s.py + 1⟩ A2 (by simp only; omega) (by simp only; omega)
    refine ⟨c', s', ?_, A', by rw [k1]; simp only; omega, ?_, fun j i hj hi => ?_⟩
    · unfold finishRows
      rw [sub32_eq hw hx, e1, Res.ok_bind, e2]
    · rw [k2]; simp
    · rw [k3 j i hj hi, v1]
      simp only [List.length_replicate]
      by_cases k : j = s.y ∧ s.x ≤ i ∧ i < s.x + (w - s.x)
      · rw [if_neg (by omega), if_pos k, if_pos (by omega)]
        congr 1
        rw [List.getD_eq_getElem?_getD, List.getElem?_replicate]
        split <;> rfl
      · rw [if_neg k]
        by_cases q : (s.y + 1 < j ∨ j = s.y + 1 ∧ 0 ≤ i) ∧ j < s.y + 1 + n
        · rw [if_pos q, if_pos (by omega)]
        · rw [if_neg q, if_neg (by omega)]

/-- Skipping to a position that is not before the current one. -/
theorem skipTo_ok {w h m : Nat} (hw : w < 2 ^ 32) (c : Canvas) (s : Pen) (A : At w h c s) (x y : Nat) (hx : x ≤ w) (hy : y ≤ h)
    (hge : s.y < y ∨ s.y = y ∧ s.x ≤ x) (hm : y < m ∨ y ≤ m ∧ x = 0 ∧ s.y < y) :
    ∃ c' s', skipTo w m c s x y = .ok (c', s') ∧ At w h c' s' ∧ s'.y = y ∧ s'.x = x ∧
      ∀ j i, j < h → i < w → c' j i =
        if (s.y < j ∨ j = s.y ∧ s.x ≤ i) ∧ (j < y ∨ j = y ∧ i < x) then some 0 else c j i := by
  obtain ⟨c1, s1, e1, A1, k1, k2, k3⟩ := finishRows_ok (h := h) (m := m) hw (y - s.y) c s A (by omega) (by omega)
  have hx1 : s1.x ≤ x := by rw [k2]; split <;> omega
  have hy1 : s1.y = y := by omega
  unfold skipTo
  rw [e1, Res.ok_bind]
  by_cases hz : x = s1.x
  · have hl : putRun w m c1 s1.py s1.px (List.replicate (x - s1.x) 0) = .ok c1 := by rw [hz, Nat.sub_self]; rfl
    simp only [hl, Res.ok_bind]
    refine ⟨c1, _, rfl, ?_, hy1, by simp [hz], fun j i hj hi => ?_⟩
    · have : (⟨max s1.x x, s1.y, s1.px + (x - s1.x), s1.py⟩ : Pen) = s1 := by rw [hz]; simp
      rw [this]; exact A1
    · rw [k3 j i hj hi]
      by_cases q : (s.y < j ∨ j = s.y ∧ s.x ≤ i) ∧ j < s.y + (y - s.y)
      · rw [if_pos q, if_pos (by omega)]
      · have hq : ¬ ((s.y < j ∨ j = s.y ∧ s.x ≤ i) ∧ (j < y ∨ j = y ∧ i < x)) := by
          rintro ⟨q1, q2⟩
          rw [k2] at hz
          split at hz <;> omega
        rw [if_neg q, if_neg hq]
  · have hym : s1.y < m := by rcases hm with hm | hm <;> omega
    obtain ⟨c2, e2, A2, v2⟩ := at_run (m := m) A1 (List.replicate (x - s1.x) 0) hym (by rw [List.length_replicate]; omega)
    simp only [e2, Res.ok_bind]
    refine ⟨c2, _, rfl, ?_, hy1, by simp only; omega, fun j i hj hi => ?_⟩
    · rw [List.length_replicate] at A2
      rw [show max s1.x x = s1.x + (x - s1.x) by omega]
      exact A2
    · rw [v2, List.length_replicate, k3 j i hj hi]
      by_cases q : j = s1.y ∧ s1.x ≤ i ∧ i < s1.x + (x - s1.x)
      · have hq : (s.y < j ∨ j = s.y ∧ s.x ≤ i) ∧ (j < y ∨ j = y ∧ i < x) := by
          rw [k2] at q
          split at q <;> omega
        rw [if_pos q, if_pos hq]
        congr 1
        rw [List.getD_eq_getElem?_getD, List.getElem?_replicate]
        split <;> rfl
      · rw [if_neg q]
        by_cases r : (s.y < j ∨ j = s.y ∧ s.x ≤ i) ∧ j < s.y + (y - s.y)
        · rw [if_pos r, if_pos (by omega)]
        · have hq : ¬ ((s.y < j ∨ j = s.y ∧ s.x ≤ i) ∧ (j < y ∨ j = y ∧ i < x)) := by
            rintro ⟨q1, q2⟩
            rw [k2] at q
            split at q <;> omega
          rw [if_neg r, if_neg hq]

theorem alternate_length (c0 c1 : UInt32) (n : Nat) : (alternate c0 c1 n).length = n := by
  induction n using Nat.strongRecOn with
  | _ n ih =>
    match n with
    | 0 => rfl
    | 1 => rfl
    | n + 2 => simp [alternate, ih n (by omega)]

theorem alternate_getD (c0 c1 : UInt32) (n i : Nat) (h : i < n) : (alternate c0 c1 n).getD i 0 = if i % 2 = 0 then c0 else c1 := by
  induction n using Nat.strongRecOn generalizing i with
  | _ n ih =>
    match n with
    | 0 => omega
    | 1 =>
      obtain rfl : i = 0 := by omega
      rfl
    | n + 2 =>
      match i with
      | 0 => rfl
      | 1 => rfl
      | i + 2 =>
        show (alternate c0 c1 n).getD i 0 = _
        rw [ih n (by omega) i (by omega)]
        simp

theorem fillPixels_length (four : Bool) (pal : Nat → UInt32) (b n : Nat) : (fillPixels four pal b n).length = n := by
  unfold fillPixels
  split
  · exact alternate_length _ _ _
  · exact List.length_replicate

theorem fillPixels_getD (four : Bool) (pal : Nat → UInt32) (b : UInt8) (n i : Nat) (h : i < n) :
    (fillPixels four pal b.toNat n).getD i 0 = pal (fillIndex four b i) := by
  unfold fillPixels fillIndex
  split
  · rw [alternate_getD _ _ _ _ h]
    split <;> rfl
  · rw [List.getD_eq_getElem?_getD, List.getElem?_replicate, if_pos h]
    rfl

theorem absolute8_ok (n : Nat) (p : List UInt8) (h : (n + 1) / 2 * 2 ≤ p.length) :
    ∃ l, absolute8 n p = .ok (l, p.drop ((n + 1) / 2 * 2)) ∧ l.length = n ∧ ∀ q r, p = q ++ r → q.length = (n + 1) / 2 * 2 →
      l = (q.take n).map UInt8.toNat := by
  induction n using Nat.strongRecOn generalizing p with
  | _ n ih =>
    match n, p with
    | 0, p => exact ⟨[], by simp [absolute8], rfl, fun _ _ _ _ => by simp⟩
    | 1, a :: b :: p =>
      refine ⟨[a.toNat], by simp [absolute8], rfl, fun q r e hq => ?_⟩
      match q, hq with
      | [x, y], _ =>
        simp only [List.cons_append, List.nil_append, List.cons.injEq] at e
        simp [e.1]
    | 1, [a] => simp at h
    | 1, [] => simp at h
    | n + 2, a :: b :: p =>
      simp only [List.length_cons] at h
      obtain ⟨l, e, hl, hv⟩ := ih n (by omega) p (by omega)
      refine ⟨a.toNat :: b.toNat :: l, ?_, by simp [hl], fun q r e' hq => ?_⟩
      · unfold absolute8
        rw [e, Res.ok_bind]
        rw [show (n + 2 + 1) / 2 * 2 = (n + 1) / 2 * 2 + 2 by omega]
        rfl
      · match q with
        | [] => simp only [List.length_nil] at hq; omega
        | [x] => simp only [List.length_cons, List.length_nil] at hq; omega
        | x :: y :: q =>
          simp only [List.cons_append, List.cons.injEq] at e'
          simp only [List.length_cons] at hq
          rw [hv q r e'.2.2 (by omega), e'.1, e'.2.1]
          simp
    | n + 2, [a] => simp only [List.length_cons, List.length_nil] at h; omega
    | n + 2, [] => simp only [List.length_nil] at h; omega

theorem absolute4_ok (n : Nat) (p : List UInt8) (h : (n + 3) / 2 / 2 * 2 ≤ p.length) :
    ∃ l, absolute4 n p = .ok (l, p.drop ((n + 3) / 2 / 2 * 2)) ∧ l.length = n ∧ ∀ q r, p = q ++ r → q.length = (n + 3) / 2 / 2 * 2 →
      l = (q.flatMap fun b => [b.toNat / 16, b.toNat % 16]).take n := by
  induction n using Nat.strongRecOn generalizing p with
  | _ n ih =>
    match p with
    | [] =>
      match n with
      | 0 => exact ⟨[], by simp [absolute4], rfl, fun _ _ _ _ => by simp⟩
      | n + 1 => simp only [List.length_nil] at h; omega
    | [a] =>
      match n with
      | 0 => exact ⟨[], by simp [absolute4], rfl, fun _ _ _ _ => by simp⟩
      | n + 1 => simp only [List.length_cons, List.length_nil] at h; omega
    | a :: b :: p =>
      have small : ∀ n, 1 ≤ n → n ≤ 3 → absolute4 n (a :: b :: p) = .ok ([a.toNat / 16, a.toNat % 16, b.toNat / 16].take n, p) →
          ∃ l, absolute4 n (a :: b :: p) = .ok (l, (a :: b :: p).drop ((n + 3) / 2 / 2 * 2)) ∧ l.length = n ∧
            ∀ q r, a :: b :: p = q ++ r → q.length = (n + 3) / 2 / 2 * 2 →
              l = (q.flatMap fun b => [b.toNat / 16, b.toNat % 16]).take n := by
        intro n h1 h3 e
        have hd : (n + 3) / 2 / 2 * 2 = 2 := by omega
        refine ⟨_, by rw [e, hd]; rfl, by simp; omega, fun q r e' hq => ?_⟩
        rw [hd] at hq
        match q, hq with
        | [x, y], _ =>
          simp only [List.cons_append, List.nil_append, List.cons.injEq] at e'
          obtain ⟨rfl, rfl, rfl⟩ := e'
          obtain rfl | rfl | rfl : n = 1 ∨ n = 2 ∨ n = 3 := by omega
          all_goals simp
      match n with
      | 0 => exact ⟨[], by simp [absolute4], rfl, fun _ _ _ _ => by simp⟩
      | 1 => exact small 1 (by omega) (by omega) rfl
      | 2 => exact small 2 (by omega) (by omega) rfl
      | 3 => exact small 3 (by omega) (by omega) rfl
      | n + 4 =>
        simp only [List.length_cons] at h
        obtain ⟨l, e, hl, hv⟩ := ih n (by omega) p (by omega)
        refine ⟨a.toNat / 16 :: a.toNat % 16 :: b.toNat / 16 :: b.toNat % 16 :: l, ?_, by simp [hl], fun q r e' hq => ?_⟩
        · unfold absolute4
          rw [e, Res.ok_bind]
          rw [show (n + 4 + 3) / 2 / 2 * 2 = (n + 3) / 2 / 2 * 2 + 2 by omega]
          rfl
        · match q with
          | [] => simp only [List.length_nil] at hq; omega
          | [x] => simp only [List.length_cons, List.length_nil] at hq; omega
          | x :: y :: q =>
            simp only [List.cons_append, List.cons.injEq] at e'
            simp only [List.length_cons] at hq
            rw [hv q r e'.2.2 (by omega), e'.1, e'.2.1]
            simp

/-- An absolute run of `i` pixels, when `n ≥ i` are there. -/
theorem absolute_ok (four : Bool) (n i : Nat) (hi : i ≤ n) (p : List UInt8) (h : required four n ≤ p.length) :
    ∃ l, absolute four i p = .ok (l, p.drop (required four i)) ∧ l.length = i := by
  cases four with
  | false =>
    simp only [required, Bool.false_eq_true, if_false] at h ⊢
    obtain ⟨l, e, hl, -⟩ := absolute8_ok i p (by omega)
    exact ⟨l, by simp [absolute, e], hl⟩
  | true =>
    simp only [required, if_true] at h ⊢
    obtain ⟨l, e, hl, -⟩ := absolute4_ok i p (by omega)
    exact ⟨l, by simp [absolute, e], hl⟩

theorem turn_cons (four : Bool) (w m h : Nat) (pal : Nat → UInt32) (c : Canvas) (s : Pen) (b0 b1 : UInt8) (p : List UInt8) :
    turn four w m h pal c s (b0 :: b1 :: p) =
      if b0 ≠ 0 then fillTurn four w m pal c s b0.toNat b1.toNat p
      else if 3 ≤ b1.toNat then absoluteTurn four w m pal c s b1.toNat p
      else if b1 = 0 then skipTurn w m h c s 0 (s.y + 1) false p
      else if b1 = 2 then moveTurn w m h c s p
      else skipTurn w m h c s 0 h true p := rfl

theorem moveTurn_cons (w m h : Nat) (c : Canvas) (s : Pen) (dx dy : UInt8) (p : List UInt8) :
    moveTurn w m h c s (dx :: dy :: p) =
      if s.x + dx.toNat > w ∨ s.y + dy.toNat > h then .error
      else skipTurn w m h c s (s.x + dx.toNat) (s.y + dy.toNat) false p := rfl

/-- A turn of the loop for any data, in memory with a row more than the image. -/
theorem turn_safe (four : Bool) {w h : Nat} (hw : w < 2 ^ 32) (pal : Nat → UInt32) (c : Canvas) (s : Pen) (p : List UInt8)
    (A : At w h c s) (hy : s.y < h) :
    turn four w (h + 1) h pal c s p ≠ .outside ∧
    (∀ c', turn four w (h + 1) h pal c s p = .ok (.done c') → ∀ y x, y < h → x < w → (c' y x).isSome) ∧
    (∀ c' s' p', turn four w (h + 1) h pal c s p = .ok (.go c' s' p') → At w h c' s' ∧ s'.y < h) := by
  have hsub : sub32 w s.x = w - s.x := sub32_eq hw A.x
  have hx := A.x
  have skip : ∀ (x y : Nat) (stop : Bool) (p : List UInt8), x ≤ w → y ≤ h → (s.y < y ∨ s.y = y ∧ s.x ≤ x) → (stop = true → y = h) →
      skipTurn w (h + 1) h c s x y stop p ≠ .outside ∧
      (∀ c', skipTurn w (h + 1) h c s x y stop p = .ok (.done c') → ∀ y x, y < h → x < w → (c' y x).isSome) ∧
      (∀ c' s' p', skipTurn w (h + 1) h c s x y stop p = .ok (.go c' s' p') → At w h c' s' ∧ s'.y < h) := by
    intro x y stop p hx hy' hge hs
    obtain ⟨c1, s1, e1, A1, k1, k2, -⟩ := skipTo_ok (m := h + 1) hw c s A x y hx hy' hge (by omega)
    unfold skipTurn
    rw [e1, Res.ok_bind]
    simp only [k1]
    by_cases hd : stop = true ∨ y = h
    · have hyh : y = h := by rcases hd with hd | hd; exact hs hd; exact hd
      rw [if_pos hd]
      refine ⟨by simp, fun c' e y' x' hy1 hx1 => ?_, fun c' s' p' e => by simp at e⟩
      simp only [Res.ok.injEq, Turn.done.injEq] at e
      rw [← e]
      exact A1.before y' x' hy1 hx1 (by omega)
    · rw [if_neg hd]
      refine ⟨by simp, fun c' e => by simp at e, fun c' s' p' e => ?_⟩
      simp only [Res.ok.injEq, Turn.go.injEq] at e
      obtain ⟨rfl, rfl, rfl⟩ := e
      have hne : y ≠ h := fun e => hd (Or.inr e)
      exact ⟨A1, by omega⟩
  have err : ∀ r : Res Turn, r = .error → r ≠ .outside ∧ (∀ c', r = .ok (.done c') → ∀ y x, y < h → x < w → (c' y x).isSome) ∧
      (∀ c' s' p', r = .ok (.go c' s' p') → At w h c' s' ∧ s'.y < h) := by
    rintro r rfl
    exact ⟨by simp, fun _ e => by simp at e, fun _ _ _ e => by simp at e⟩
  have go : ∀ (vs : List UInt32) (i : Nat) (q : List UInt8) (r : Res Turn), vs.length = i → i ≤ w - s.x →
      r = (do
        let c ← putRun w (h + 1) c s.py s.px vs
        .ok (.go c { s with x := s.x + i, px := s.px + i } q)) →
      r ≠ .outside ∧ (∀ c', r = .ok (.done c') → ∀ y x, y < h → x < w → (c' y x).isSome) ∧
      (∀ c' s' p', r = .ok (.go c' s' p') → At w h c' s' ∧ s'.y < h) := by
    rintro vs i q r rfl hi hr
    obtain ⟨c1, e1, A1, -⟩ := at_run (m := h + 1) A vs (by omega) (by omega)
    rw [e1, Res.ok_bind] at hr
    subst hr
    refine ⟨by simp, fun c' e => by simp at e, fun c' s' p' e => ?_⟩
    simp only [Res.ok.injEq, Turn.go.injEq] at e
    obtain ⟨rfl, rfl, rfl⟩ := e
    exact ⟨A1, hy⟩
  match p with
  | [] => exact err _ rfl
  | [b] => exact err _ rfl
  | b0 :: b1 :: p =>
    rw [turn_cons]
    by_cases h0 : b0 ≠ 0
    · rw [if_pos h0]
      unfold fillTurn
      exact go _ _ _ _ (fillPixels_length _ _ _ _) (by rw [hsub]; omega) rfl
    · rw [if_neg h0]
      by_cases h3 : 3 ≤ b1.toNat
      · rw [if_pos h3]
        by_cases hn : required four b1.toNat ≤ p.length
        · obtain ⟨l, e, hl⟩ := absolute_ok four b1.toNat (min b1.toNat (sub32 w s.x)) (by omega) p hn
          refine go (l.map pal) (min b1.toNat (sub32 w s.x)) (p.drop (required four (min b1.toNat (sub32 w s.x)))) _
            (by simp [hl]) (by rw [hsub]; omega) ?_
          unfold absoluteTurn
          simp only
          rw [need_true (by simpa using hn), Res.ok_bind, e, Res.ok_bind]
        · apply err
          unfold absoluteTurn
          have : need (decide (required four b1.toNat ≤ p.length)) = .error := by
            unfold need; rw [if_neg (by simpa using hn)]
          simp only
          rw [this]; rfl
      · rw [if_neg h3]
        by_cases h1 : b1 = 0
        · rw [if_pos h1]
          exact skip 0 (s.y + 1) false p (Nat.zero_le _) (by omega) (by omega) (by simp)
        · rw [if_neg h1]
          by_cases h2 : b1 = 2
          · rw [if_pos h2]
            match p with
            | [] => exact err _ rfl
            | [b] => exact err _ rfl
            | dx :: dy :: p =>
              rw [moveTurn_cons]
              by_cases hg : s.x + dx.toNat > w ∨ s.y + dy.toNat > h
              · rw [if_pos hg]; exact err _ rfl
              · rw [if_neg hg]
                exact skip _ _ false p (by omega) (by omega) (by omega) (by simp)
          · rw [if_neg h2]
            exact skip 0 h true p (Nat.zero_le _) (Nat.le_refl _) (by omega) (fun _ => rfl)

theorem rleLoop_safe (four : Bool) {w h : Nat} (hw : w < 2 ^ 32) (pal : Nat → UInt32) (n : Nat) (c : Canvas) (s : Pen) (p : List UInt8)
    (A : At w h c s) (hy : s.y < h) :
    rleLoop four w (h + 1) h pal n c s p ≠ .outside ∧
    (∀ c', rleLoop four w (h + 1) h pal n c s p = .ok c' → ∀ y x, y < h → x < w → (c' y x).isSome) := by
  induction n generalizing c s p with
  | zero => exact ⟨by simp [rleLoop], fun c' e => by simp [rleLoop] at e⟩
  | succ n ih =>
    obtain ⟨t1, t2, t3⟩ := turn_safe four hw pal c s p A hy
    unfold rleLoop
    generalize turn four w (h + 1) h pal c s p = r at *
    cases r with
    | outside => exact absurd rfl t1
    | error =>
      constructor
      · intro e; cases e
      · intro c' e; cases e
    | ok t =>
      rw [Res.ok_bind]
      cases t with
      | done c1 =>
        refine ⟨by simp, fun c' e => ?_⟩
        simp only [Res.ok.injEq] at e
        rw [← e]
        exact t2 c1 rfl
      | go c1 s1 p1 =>
        obtain ⟨A1, y1⟩ := t3 c1 s1 p1 rfl
        exact ih c1 s1 p1 A1 y1

/-- The beginning. -/
theorem at_start (w h : Nat) : At w h (fun _ _ => none) {} :=
  ⟨rfl, rfl, Nat.zero_le _, Nat.zero_le _, fun y x _ _ k => by simp at k⟩

/-! ## Valid data -/

theorem drop_padded (four : Bool) (l : List Nat) (r : List UInt8) :
    (padded (if four then bytes4 l else bytes8 l)).length = required four l.length ∧
    (padded (if four then bytes4 l else bytes8 l) ++ r).drop (required four l.length) = r := by
  have h4 : ∀ l : List Nat, (bytes4 l).length = (l.length + 1) / 2 := by
    intro l
    induction l using bytes4.induct with
    | case1 => rfl
    | case2 a => simp [bytes4]
    | case3 a b l ih => simp only [bytes4, List.length_cons, ih]; omega
  have hp : ∀ l : List UInt8, (padded l).length = (l.length + 1) / 2 * 2 := by
    intro l
    unfold padded
    split
    · omega
    · simp only [List.length_append, List.length_cons, List.length_nil]; omega
  have e : (padded (if four then bytes4 l else bytes8 l)).length = required four l.length := by
    rw [hp]
    unfold required
    cases four
    · simp [bytes8]
    · simp only [if_true, h4]; omega
  exact ⟨e, by rw [← e, List.drop_left]⟩

theorem absolute_codes (four : Bool) (l : List Nat) (r : List UInt8) (hl : ∀ i ∈ l, i < if four then 16 else 256) :
    absolute four l.length (padded (if four then bytes4 l else bytes8 l) ++ r) = .ok (l, r) := by
  obtain ⟨e1, e2⟩ := drop_padded four l r
  cases four with
  | false =>
    simp only [Bool.false_eq_true, if_false, required] at e1 e2 hl ⊢
    obtain ⟨l', h1, h2, h3⟩ := absolute8_ok l.length (padded (bytes8 l) ++ r) (by rw [List.length_append, e1]; omega)
    unfold absolute
    simp only [Bool.false_eq_true, if_false]
    rw [h1, e2, h3 _ r rfl e1]
    congr 2
    have : (padded (bytes8 l)).take l.length = bytes8 l := by
      unfold padded
      split
      · rw [List.take_of_length_le (by simp [bytes8])]
      · rw [List.take_append_of_le_length (by simp [bytes8]), List.take_of_length_le (by simp [bytes8])]
    rw [this]
    unfold bytes8
    rw [List.map_map]
    refine (List.map_congr_left (g := id) ?_).trans (List.map_id l)
    intro i hi
    simp only [Function.comp, UInt8.toNat_ofNat', id]
    exact Nat.mod_eq_of_lt (hl i hi)
  | true =>
    simp only [if_true, required] at e1 e2 hl ⊢
    obtain ⟨l', h1, h2, h3⟩ := absolute4_ok l.length (padded (bytes4 l) ++ r) (by rw [List.length_append, e1]; omega)
    unfold absolute
    simp only [if_true]
    rw [h1, e2, h3 _ r rfl e1]
    congr 2
    have key : ∀ (l : List Nat) (t : List Nat), (∀ i ∈ l, i < 16) →
        (((bytes4 l).flatMap fun b : UInt8 => [b.toNat / 16, b.toNat % 16]) ++ t).take l.length = l := by
      intro l t hl
      induction l using bytes4.induct with
      | case1 => simp
      | case2 a =>
        have ha := hl a (by simp)
        simp only [bytes4, List.flatMap_cons, List.flatMap_nil, List.append_nil, List.length_cons, List.length_nil]
        simp only [List.cons_append, List.nil_append, List.take_succ_cons, List.take_zero, UInt8.toNat_ofNat']
        congr 1; omega
      | case3 a b l ih =>
        have ha := hl a (by simp)
        have hb := hl b (by simp)
        have hr := ih (fun i hi => hl i (by simp [hi]))
        simp only [bytes4, List.flatMap_cons, List.length_cons, List.cons_append, List.nil_append, List.take_succ_cons,
          UInt8.toNat_ofNat', List.append_assoc]
        rw [hr]
        congr 1
        · omega
        · congr 1; omega
    unfold padded
    split
    · have := key l [] hl
      rwa [List.append_nil] at this
    · rw [List.flatMap_append]
      exact key l _ hl

/-- The memory holds what has been drawn, the rest of the picture is the background. -/
structure Shows (w h : Nat) (c : Canvas) (s : Pen) (t : State) : Prop where
  inv : At w h c s
  y : s.y < h
  tx : t.x = s.x
  ty : t.y = s.y
  drawn : ∀ y x, y < h → x < w → (y < s.y ∨ y = s.y ∧ x < s.x) → c y x = some (t.px y x)
  rest : ∀ y x, y < h → x < w → ¬ (y < s.y ∨ y = s.y ∧ x < s.x) → t.px y x = 0

/-- The pixels after a skip. -/
theorem Shows.skip {w h m : Nat} (hw : w < 2 ^ 32) {c : Canvas} {s : Pen} {t : State} (S : Shows w h c s t) (x y : Nat) (hx : x ≤ w)
    (hy : y ≤ h) (hge : s.y < y ∨ s.y = y ∧ s.x ≤ x) (hm : y < m ∨ y ≤ m ∧ x = 0 ∧ s.y < y) :
    ∃ c' s', skipTo w m c s x y = .ok (c', s') ∧ At w h c' s' ∧ s'.y = y ∧ s'.x = x ∧
      ∀ j i, j < h → i < w → (j < y ∨ j = y ∧ i < x) → c' j i = some (t.px j i) := by
  obtain ⟨c', s', e, A, k1, k2, k3⟩ := skipTo_ok hw c s S.inv x y hx hy hge hm
  refine ⟨c', s', e, A, k1, k2, fun j i hj hi k => ?_⟩
  rw [k3 j i hj hi]
  by_cases q : j < s.y ∨ j = s.y ∧ i < s.x
  · rw [if_neg (by omega)]
    exact S.drawn j i hj hi q
  · rw [if_pos (by omega), S.rest j i hj hi q]

theorem code_turn (four : Bool) {w h : Nat} (hw : w < 2 ^ 32) (pal : Nat → UInt32) (c : Canvas) (s : Pen) (t : State) (k : Code)
    (r : List UInt8) (S : Shows w h c s t) (hv : k.Valid four w h t) :
    ∃ c' s', turn four w h h pal c s (k.bytes four ++ r) = .ok (.go c' s' r) ∧ Shows w h c' s' (k.draw four w pal t) := by
  have hsub : sub32 w s.x = w - s.x := sub32_eq hw S.inv.x
  have hx := S.inv.x
  have hsy := S.y
  have htx := S.tx
  have hty := S.ty
  have b8 : ∀ n, n ≤ 255 → (UInt8.ofNat n).toNat = n := fun n hn => by rw [UInt8.toNat_ofNat']; omega
  have draw : ∀ (vs : List UInt32) (f : Nat → UInt32), s.x + vs.length ≤ w → (∀ i < vs.length, vs.getD i 0 = f i) →
      ∃ c', putRun w h c s.py s.px vs = .ok c' ∧
        Shows w h c' { s with x := s.x + vs.length, px := s.px + vs.length }
          ⟨s.x + vs.length, s.y, fun y x => if y = s.y ∧ s.x ≤ x ∧ x < s.x + vs.length then f (x - s.x) else t.px y x⟩ := by
    intro vs f hl hf
    obtain ⟨c1, e1, A1, v1⟩ := at_run (m := h) S.inv vs hsy hl
    refine ⟨c1, e1, A1, hsy, rfl, rfl, fun y x hy' hx' q => ?_, fun y x hy' hx' q => ?_⟩
    · simp only at q ⊢
      rw [v1]
      by_cases k : y = s.y ∧ s.x ≤ x ∧ x < s.x + vs.length
      · rw [if_pos k, if_pos k, hf _ (by omega)]
      · rw [if_neg k, if_neg k]
        exact S.drawn y x hy' hx' (by omega)
    · simp only at q ⊢
      rw [if_neg (by omega)]
      exact S.rest y x hy' hx' (by omega)
  have move : ∀ (x y : Nat), x ≤ w → y < h → (s.y < y ∨ s.y = y ∧ s.x ≤ x) →
      ∃ c' s', skipTurn w h h c s x y false r = .ok (.go c' s' r) ∧ Shows w h c' s' ⟨x, y, t.px⟩ := by
    intro x y hx' hy' hge
    obtain ⟨c', s', e, A, k1, k2, k3⟩ := S.skip (m := h) hw x y hx' (by omega) hge (by omega)
    refine ⟨c', s', ?_, A, by omega, k2.symm, k1.symm, fun j i hj hi q => k3 j i hj hi (by omega), fun j i hj hi q => ?_⟩
    · unfold skipTurn
      rw [e, Res.ok_bind]
      simp only
      rw [if_neg (by simp; omega)]
    · exact S.rest j i hj hi (by omega)
  cases k with
  | fill n b =>
    obtain ⟨h1, h2⟩ := hv
    have hn := b8 n h2
    have hb0 : UInt8.ofNat n ≠ 0 := by
      intro e
      rw [e] at hn
      simp at hn; omega
    obtain ⟨c', e, S'⟩ := draw (fillPixels four pal b.toNat (min n (w - s.x))) (fun i => pal (fillIndex four b i))
      (by rw [fillPixels_length]; omega) (fun i hi => by
        rw [fillPixels_length] at hi
        exact fillPixels_getD four pal b _ i hi)
    rw [fillPixels_length] at S'
    refine ⟨c', { s with x := s.x + min n (w - s.x), px := s.px + min n (w - s.x) }, ?_, ?_⟩
    · show turn four w h h pal c s (UInt8.ofNat n :: b :: r) = _
      rw [turn_cons]
      rw [if_pos hb0]
      unfold fillTurn
      simp only
      rw [hn, hsub, e, Res.ok_bind]
    · have em : min (t.x + n) w = s.x + min n (w - s.x) := by omega
      simp only [Code.draw]
      rw [em, htx, hty]
      exact S'
  | run l =>
    obtain ⟨h1, h2, h3, h4⟩ := hv
    have hn := b8 l.length h2
    obtain ⟨c', e, S'⟩ := draw (l.map pal) (fun i => pal (l.getD i 0)) (by rw [List.length_map]; omega) (fun i hi => by
        rw [List.length_map] at hi
        rw [List.getD_eq_getElem?_getD, List.getElem?_map, List.getElem?_eq_getElem hi, List.getD_eq_getElem?_getD,
          List.getElem?_eq_getElem hi]
        rfl)
    rw [List.length_map] at S'
    refine ⟨c', { s with x := s.x + l.length, px := s.px + l.length }, ?_, ?_⟩
    · show turn four w h h pal c s (0 :: UInt8.ofNat l.length :: (padded (if four then bytes4 l else bytes8 l) ++ r)) = _
      rw [turn_cons]
      rw [if_neg (by simp), hn, if_pos h1]
      unfold absoluteTurn
      simp only
      rw [hsub, show min l.length (w - s.x) = l.length by omega]
      have hreq : required four l.length ≤ (padded (if four then bytes4 l else bytes8 l) ++ r).length := by
        rw [List.length_append, (drop_padded four l r).1]; omega
      rw [need_true (by simpa using hreq), Res.ok_bind, absolute_codes four l r h4, Res.ok_bind]
      simp only
      rw [e, Res.ok_bind]
    · simp only [Code.draw]
      rw [htx, hty]
      exact S'
  | line =>
    have hv : t.y + 1 < h := hv
    obtain ⟨c', s', e, S'⟩ := move 0 (s.y + 1) (Nat.zero_le _) (by omega) (by omega)
    refine ⟨c', s', ?_, ?_⟩
    · show turn four w h h pal c s (0 :: 0 :: r) = _
      rw [turn_cons]
      rw [if_neg (by simp), if_neg (by simp), if_pos rfl, e]
    · simp only [Code.draw]
      rw [hty]
      exact S'
  | move dx dy =>
    obtain ⟨h1, h2, h3, h4⟩ := hv
    obtain ⟨c', s', e, S'⟩ := move (s.x + dx) (s.y + dy) (by omega) (by omega) (by omega)
    refine ⟨c', s', ?_, ?_⟩
    · show turn four w h h pal c s (0 :: 2 :: UInt8.ofNat dx :: UInt8.ofNat dy :: r) = _
      rw [turn_cons]
      rw [if_neg (by simp), if_neg (by decide), if_neg (by decide), if_pos rfl]
      rw [moveTurn_cons]
      rw [b8 dx h1, b8 dy h2, if_neg (by omega), e]
    · simp only [Code.draw]
      rw [htx, hty]
      exact S'

theorem Code.bytes_length (four : Bool) (k : Code) : 2 ≤ (k.bytes four).length := by
  cases k <;> simp [Code.bytes]

theorem rleLoop_draws (four : Bool) {w h : Nat} (hw : w < 2 ^ 32) (pal : Nat → UInt32) (l : List Code) (r : List UInt8)
    (n : Nat) (c : Canvas) (s : Pen) (t u : State) (S : Shows w h c s t) (D : Draws four w h pal t l u)
    (hn : (l.flatMap (Code.bytes four)).length < n) :
    ∃ c', rleLoop four w h h pal n c s (l.flatMap (Code.bytes four) ++ ([0, 1] ++ r)) = .ok c' ∧
      ∀ y x, y < h → x < w → c' y x = some (u.px y x) := by
  induction l generalizing n c s t with
  | nil =>
    cases D
    obtain ⟨n, rfl⟩ : ∃ k, n = k + 1 := ⟨n - 1, by simp at hn; omega⟩
    obtain ⟨c', s', e, A, k1, k2, k3⟩ := S.skip (m := h) hw 0 h (Nat.zero_le _) (Nat.le_refl _) (by have := S.y; omega)
      (by have := S.y; omega)
    refine ⟨c', ?_, fun y x hy hx => k3 y x hy hx (by omega)⟩
    unfold rleLoop
    have : turn four w h h pal c s ([].flatMap (Code.bytes four) ++ ([0, 1] ++ r)) = .ok (.done c') := by
      show turn four w h h pal c s (0 :: 1 :: r) = _
      rw [turn_cons]
      rw [if_neg (by simp), if_neg (by decide), if_neg (by decide), if_neg (by decide)]
      unfold skipTurn
      rw [e, Res.ok_bind]
      simp
    rw [this]
    rfl
  | cons k l ih =>
    cases D with
    | cons _ _ _ _ hv D =>
    rw [List.flatMap_cons, List.length_append] at hn
    have hk := Code.bytes_length four k
    obtain ⟨n, rfl⟩ : ∃ j, n = j + 1 := ⟨n - 1, by omega⟩
    obtain ⟨c1, s1, e, S1⟩ := code_turn four hw pal c s t k (l.flatMap (Code.bytes four) ++ ([0, 1] ++ r)) S hv
    obtain ⟨c', e', v⟩ := ih n c1 s1 _ S1 D (by omega)
    refine ⟨c', ?_, v⟩
    unfold rleLoop
    rw [List.flatMap_cons, List.append_assoc, e, Res.ok_bind]
    exact e'

end Blend2D.Bmp
