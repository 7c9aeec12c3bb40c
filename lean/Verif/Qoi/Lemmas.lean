import Verif.Comp.Lemmas
import Verif.Qoi.Model
/-! Decoder invariants: memory safety, progress, position bookkeeping. -/
namespace Blend2D.Qoi
open Bits Pixel Pixel.Spec

/-- The decoder is at the head of its loop with `R` pixels still to be written. -/
def At (w : Nat) (d : Dec) (R : Nat) : Prop :=
  1 ≤ d.x ∧ d.x ≤ w ∧ 1 ≤ d.h ∧ d.x + (d.h - 1) * w = R

/-- `res` is the outcome "finished" if nothing is left, otherwise the loop continues with the fields of `d0`
(only the position differs). -/
def Next (w : Nat) (d0 : Dec) (R : Nat) (res : Res) : Prop :=
  (R = 0 ∧ res = .done d0.out) ∨
  (R ≠ 0 ∧ ∃ x h, res = .more { d0 with x := x, h := h } ∧ At w { d0 with x := x, h := h } R)

theorem endRow_next (w : Nat) (d : Dec) (hw : 1 ≤ w) (hh : 1 ≤ d.h) (_hx : d.x = 0) :
    Next w d ((d.h - 1) * w) (endRow w d) := by
  unfold endRow
  by_cases h1 : d.h - 1 = 0
  · left; simp [h1]
  · right
    simp only [h1, if_false]
    obtain ⟨k, hk⟩ : ∃ k, d.h = k + 2 := ⟨d.h - 2, by omega⟩
    have e : (d.h - 1) * w = k * w + w := by
      rw [hk, show k + 2 - 1 = k + 1 by omega, Nat.add_mul, Nat.one_mul]
    refine ⟨by omega, w, d.h - 1, rfl, hw, Nat.le_refl _, by simp; omega, ?_⟩
    simp only
    rw [e, hk, show k + 2 - 1 - 1 = k by omega]; omega

/-- Writing one pixel at a valid position, then either continue or advance the row. -/
theorem put_next (w R : Nat) (d : Dec) (p : UInt32) (h : At w d R) :
    ∃ d', put d p = some d' ∧
      Next w { d with out := d.out ++ [p] } (R - 1) (if d'.x ≠ 0 then .more d' else endRow w d') := by
  obtain ⟨h1, h2, h3, h4⟩ := h
  refine ⟨{ d with x := d.x - 1, out := d.out ++ [p] }, ?_, ?_⟩
  · unfold put; rw [if_neg (by omega)]
  · simp only
    by_cases hx : d.x - 1 = 0
    · rw [if_neg (by omega)]
      have e : R - 1 = (d.h - 1) * w := by omega
      have := endRow_next w { d with x := d.x - 1, out := d.out ++ [p] } (by omega) h3 hx
      rw [e]
      rcases this with ⟨a, b⟩ | ⟨a, x, h, b, c⟩
      · exact Or.inl ⟨a, b⟩
      · exact Or.inr ⟨a, x, h, b, c⟩
    · rw [if_pos hx]
      refine Or.inr ⟨by omega, d.x - 1, d.h, rfl, ?_⟩
      exact ⟨by simp only; omega, by simp only; omega, h3, by simp only; omega⟩

theorem storePixel_next (a : Bool) (w R : Nat) (d : Dec) (h : At w d R) :
    Next w { d with packed := packPx a d.unpacked,
                    unpackedTable := upd d.unpackedTable (hash64 d.unpacked) d.unpacked,
                    packedTable := upd d.packedTable (hash64 d.unpacked) (packPx a d.unpacked), out := d.out ++ [packPx a d.unpacked] } (R - 1) (storePixel a w d) := by
  unfold storePixel
  simp only
  obtain ⟨d', h1, h2⟩ := put_next w R
    { d with packed := packPx a d.unpacked,
             unpackedTable := upd d.unpackedTable (hash64 d.unpacked) d.unpacked,
             packedTable := upd d.packedTable (hash64 d.unpacked) (packPx a d.unpacked) }
    (packPx a d.unpacked) h
  rw [h1]
  exact h2

theorem storeRle_next (w : Nat) : ∀ (hh run : Nat) (d : Dec) (R : Nat), d.h = hh → At w d R → 1 ≤ run →
    Next w { d with out := d.out ++ List.replicate (min run R) d.packed } (R - min run R)
      (storeRle w hh run d) := by
  intro hh
  induction hh with
  | zero => intro run d R e h; have := h.2.2.1; omega
  | succ n ih =>
    intro run d R e hat hrun
    obtain ⟨h1, h2, h3, h4⟩ := hat
    rw [e, show n + 1 - 1 = n by omega] at h4
    unfold storeRle
    simp only
    by_cases hx : d.x - min run d.x = 0
    · have hle : d.x ≤ run := by omega
      have hm : min run d.x = d.x := by omega
      rw [if_neg (by omega)]
      by_cases hn : n = 0
      · subst hn
        rw [if_pos rfl]
        left
        have : R = d.x := by omega
        rw [this, hm]
        exact ⟨by omega, rfl⟩
      · rw [if_neg hn]
        obtain ⟨k, hk⟩ : ∃ k, n = k + 1 := ⟨n - 1, by omega⟩
        have ek : n * w = w + k * w := by rw [hk, Nat.add_mul, Nat.one_mul]; omega
        by_cases hr : run - min run d.x = 0
        · rw [if_neg (by omega)]
          have hrx : run = d.x := by omega
          right
          have hmR : min run R = d.x := by omega
          refine ⟨by omega, w, n, ?_, by simp only; omega, Nat.le_refl _, by simp only; omega, ?_⟩
          · rw [hm, hmR]
          · simp only
            rw [hk, show k + 1 - 1 = k by omega]; omega
        · rw [if_pos hr]
          have := ih (run - min run d.x)
            { d with x := w, h := n, out := d.out ++ List.replicate (min run d.x) d.packed } (R - d.x) rfl
            ⟨by simp only; omega, Nat.le_refl _, by simp only; omega, by
              simp only; rw [hk, show k + 1 - 1 = k by omega]; omega⟩ (by omega)
          rw [hm] at this ⊢
          simp only at this
          have e1 : min (run - d.x) (R - d.x) = min run R - d.x := by omega
          have e2 : R - d.x - (min run R - d.x) = R - min run R := by omega
          have e3 : d.out ++ List.replicate d.x d.packed ++ List.replicate (min run R - d.x) d.packed
              = d.out ++ List.replicate (min run R) d.packed := by
            rw [List.append_assoc, List.replicate_append_replicate]
            congr 2; omega
          rw [e1, e2, e3] at this
          rcases this with ⟨a, b⟩ | ⟨a, x, h, b, c⟩
          · exact Or.inl ⟨a, b⟩
          · exact Or.inr ⟨a, x, h, b, c⟩
    · rw [if_pos hx]
      have hm : min run d.x = run := by omega
      have hmR : min run R = run := by omega
      rw [hm, hmR]
      right
      refine ⟨by omega, d.x - run, n + 1, ?_, by simp only; omega, by simp only; omega, by simp only; omega, ?_⟩
      · rw [← e]
      · simp only; rw [show n + 1 - 1 = n by omega]; omega

/-! ## Safety and progress of one iteration -/

/-- What an iteration started with `n` input bytes left and `total` pixels overall may do. -/
def Good (w total n : Nat) : Res → Prop
  | .more d => ∃ R, At w d R ∧ d.out.length + R = total ∧ d.src.length < n
  | .done out => out.length = total
  | .truncated out => out.length < total
  | .ub => False

theorem Next.good {w R total n : Nat} {d0 : Dec} {res : Res} (h : Next w d0 R res)
    (ht : d0.out.length + R = total) (hs : d0.src.length < n) : Good w total n res := by
  rcases h with ⟨a, b⟩ | ⟨_, x, h, b, c⟩
  · subst b; simp only [Good]; omega
  · subst b; exact ⟨R, c, ht, hs⟩

theorem step_good (a : Bool) (w R total : Nat) (d : Dec) (h : At w d R) (ht : d.out.length + R = total) :
    Good w total d.src.length (step a w d) := by
  have hR : 1 ≤ R := by have := h.1; have := h.2.2.2; omega
  unfold step
  by_cases hl : d.src.length < 9
  · rw [if_pos hl]; simp only [Good]; omega
  rw [if_neg hl]
  match hs : d.src with
  | [] => rw [hs] at hl; simp at hl
  | [b0] => rw [hs] at hl; simp at hl
  | b0 :: b1 :: rest =>
    rw [hs] at hl
    simp only [List.length_cons] at hl ⊢
    by_cases h1 : b0 < 0xC0
    · rw [if_pos h1]
      by_cases h2 : b0 < 64
      · rw [if_pos h2]
        obtain ⟨d', e1, n1⟩ := put_next w R { d with packed := d.packedTable b0.toNat, unpacked := d.unpackedTable b0.toNat, src := b1 :: rest } (d.packedTable b0.toNat) h
        rw [e1]
        simp only
        by_cases hx : d'.x ≠ 0
        · rw [if_pos hx]
          rw [if_pos hx] at n1
          by_cases h3 : ¬ b1 < 64
          · rw [if_pos h3]
            exact n1.good (by simp; omega) (by simp)
          · rw [if_neg h3]
            rcases n1 with ⟨_, b⟩ | ⟨hne, x, hh, b, c⟩
            · cases b
            · cases b
              obtain ⟨d'', e2, n2⟩ := put_next w (R - 1) { d with packed := d.packedTable b1.toNat, unpacked := d.unpackedTable b1.toNat, src := rest, x := x, h := hh, out := d.out ++ [d.packedTable b0.toNat] } (d.packedTable b1.toNat) c
              simp only at e2 ⊢
              rw [e2]
              exact n2.good (by simp; omega) (by simp; omega)
        · rw [if_neg hx]
          rw [if_neg hx] at n1
          exact n1.good (by simp; omega) (by simp)
      · rw [if_neg h2]
        have := storePixel_next a w R { d with src := (b1 :: rest).drop (b0.toNat >>> 7), unpacked := applyDelta d.unpacked b0 b1 } h
        exact this.good (by simp; omega) (by simp only [List.length_drop, List.length_cons]; omega)
    · rw [if_neg h1]
      by_cases h2 : b0 ≥ 0xFE
      · rw [if_pos h2]
        match rest, hl with
        | [], hl => simp at hl
        | [s1], hl => simp at hl
        | [s1, s2], hl => simp at hl
        | s1 :: s2 :: s3 :: r, hl =>
          simp only
          generalize opRGBX d.unpacked b0.toUInt32 (unpackRGBA b1 s1 s2 s3) = u
          refine (storePixel_next a w R _ ?_).good ?_ ?_
          · exact ⟨h.1, h.2.1, h.2.2.1, h.2.2.2⟩
          · simp only [List.length_append, List.length_singleton]; omega
          · simp only [List.length_drop, List.length_cons]; omega
      · rw [if_neg h2]
        have := storeRle_next w d.h ((b0.toNat &&& 0x3F) + 1) { d with src := b1 :: rest } R rfl h (by omega)
        exact this.good (by simp; omega) (by simp)

theorem loop_good (a : Bool) (w total : Nat) : ∀ (n : Nat) (d : Dec) (R : Nat), At w d R →
    d.out.length + R = total → d.src.length < n →
    (∃ out, loop a w n d = .done out ∧ out.length = total) ∨
    (∃ out, loop a w n d = .truncated out ∧ out.length < total) := by
  intro n
  induction n with
  | zero => intro d R _ _ h; omega
  | succ n ih =>
    intro d R hat ht hs
    have g := step_good a w R total d hat ht
    unfold loop
    match hstep : step a w d with
    | .more d' =>
      rw [hstep] at g
      obtain ⟨R', h1, h2, h3⟩ := g
      exact ih d' R' h1 h2 (by omega)
    | .done out => rw [hstep] at g; exact Or.inl ⟨out, rfl, g⟩
    | .truncated out => rw [hstep] at g; exact Or.inr ⟨out, rfl, g⟩
    | .ub => rw [hstep] at g; exact g.elim

/-- Enough fuel is as good as any amount. -/
theorem loop_fuel (a : Bool) (w : Nat) : ∀ (n m : Nat) (d : Dec) (R : Nat), At w d R →
    d.src.length < n → d.src.length < m → loop a w n d = loop a w m d := by
  intro n
  induction n with
  | zero => intro m d R _ h; omega
  | succ n ih =>
    intro m d R hat h1 h2
    obtain ⟨m, rfl⟩ : ∃ k, m = k + 1 := ⟨m - 1, by omega⟩
    have g := step_good a w R (d.out.length + R) d hat rfl
    unfold loop
    match hstep : step a w d with
    | .more d' =>
      rw [hstep] at g
      obtain ⟨R', k1, _, k3⟩ := g
      exact ih m d' R' k1 (by omega) (by omega)
    | .done out => rfl
    | .truncated out => rfl
    | .ub => rfl

/-- The decoder loop with exactly enough fuel. -/
def dec (a : Bool) (w : Nat) (d : Dec) : Res := loop a w (d.src.length + 1) d

theorem dec_more {a : Bool} {w R : Nat} {d d' : Dec} (h : At w d R) (hs : step a w d = .more d') :
    dec a w d = dec a w d' := by
  have g := step_good a w R (d.out.length + R) d h rfl
  rw [hs] at g
  obtain ⟨R', k1, _, k3⟩ := g
  unfold dec
  conv => lhs; unfold loop
  rw [hs]
  exact loop_fuel a w _ _ d' R' k1 k3 (by omega)

theorem dec_done {a : Bool} {w : Nat} {d : Dec} {out : List UInt32} (hs : step a w d = .done out) :
    dec a w d = .done out := by
  unfold dec loop; rw [hs]

/-- Continue after an iteration described by `Next`. -/
theorem dec_next {a : Bool} {w R R' : Nat} {d d0 : Dec} (h : At w d R) (hn : Next w d0 R' (step a w d)) :
    (R' = 0 ∧ dec a w d = .done d0.out) ∨
    (R' ≠ 0 ∧ ∃ x hh, At w { d0 with x := x, h := hh } R' ∧
      dec a w d = dec a w { d0 with x := x, h := hh }) := by
  rcases hn with ⟨a1, b⟩ | ⟨a1, x, hh, b, c⟩
  · exact Or.inl ⟨a1, dec_done b⟩
  · exact Or.inr ⟨a1, x, hh, c, dec_more h b⟩

end Blend2D.Qoi
