import Verif.Deflate.Rev
import Mathlib.Data.List.Count

/-!
# Codewords as intervals

A codeword of length `l` covers `2 ^ (15 - l)` of the `2 ^ 15` possible 15-bit strings.  The codewords of a complete code,
in order, are consecutive intervals that begin at 0 and end at `2 ^ 15`.
-/

namespace Blend2D.Deflate

/-- The number of 15-bit strings that begin with a codeword of length `l`. -/
abbrev wt (l : Nat) : Nat := 2 ^ (15 - l)

/-- The symbols and lengths of `R` have consecutive intervals from `P` to the end. -/
def Lay : Nat → List (Nat × Nat) → Prop
  | P, [] => P = 2 ^ 15
  | P, (_, l) :: R => 1 ≤ l ∧ l ≤ 15 ∧ wt l ∣ P ∧ (∀ r ∈ R, l ≤ r.2) ∧ Lay (P + wt l) R

/-- Symbols with their lengths and positions. -/
def placed : Nat → List (Nat × Nat) → List (Nat × Nat × Nat)
  | _, [] => []
  | P, (s, l) :: R => (s, l, P) :: placed (P + wt l) R

/-- The total weight of the symbols with lengths up to `m`. -/
def V (m : Nat) : List (Nat × Nat) → Nat
  | [] => 0
  | (_, l) :: R => (if l ≤ m then wt l else 0) + V m R

theorem wt_pos (l : Nat) : 0 < wt l := Nat.two_pow_pos _

theorem wt_dvd {l m : Nat} (h : l ≤ m) : wt m ∣ wt l := Nat.pow_dvd_pow 2 (by omega)

theorem wt_le {l m : Nat} (h : l ≤ m) : wt m ≤ wt l := Nat.le_of_dvd (wt_pos l) (wt_dvd h)

theorem Lay.le {P : Nat} {R : List (Nat × Nat)} (h : Lay P R) : P ≤ 2 ^ 15 := by
  induction R generalizing P with
  | nil => simp only [Lay] at h; omega
  | cons r R ih => have := ih h.2.2.2.2; omega

theorem Lay.lt {P : Nat} {r : Nat × Nat} {R : List (Nat × Nat)} (h : Lay P (r :: R)) : P < 2 ^ 15 := by
  have h1 := h.2.2.2.2.le
  have := wt_pos r.2
  omega

theorem Lay.nil_iff {P : Nat} {R : List (Nat × Nat)} (h : Lay P R) : P = 2 ^ 15 ↔ R = [] := by
  cases R with
  | nil => simp only [Lay] at h; simp [h]
  | cons r R => have := h.lt; simp; omega

theorem placed_length (P : Nat) (R : List (Nat × Nat)) : (placed P R).length = R.length := by
  induction R generalizing P with
  | nil => rfl
  | cons r R ih => simp [placed, ih]

theorem placed_map (P : Nat) (R : List (Nat × Nat)) : (placed P R).map (fun d => (d.1, d.2.1)) = R := by
  induction R generalizing P with
  | nil => rfl
  | cons r R ih => simp [placed, ih]

theorem mem_placed {P : Nat} {R : List (Nat × Nat)} {d : Nat × Nat × Nat} (h : d ∈ placed P R) : (d.1, d.2.1) ∈ R := by
  rw [← placed_map P R]
  exact List.mem_map_of_mem h

/-- Facts about every placed symbol. -/
theorem Lay.facts {P : Nat} {R : List (Nat × Nat)} (h : Lay P R) {d : Nat × Nat × Nat} (hd : d ∈ placed P R) :
    1 ≤ d.2.1 ∧ d.2.1 ≤ 15 ∧ wt d.2.1 ∣ d.2.2 ∧ P ≤ d.2.2 ∧ d.2.2 + wt d.2.1 ≤ 2 ^ 15 := by
  induction R generalizing P with
  | nil => cases hd
  | cons r R ih =>
    obtain ⟨s, l⟩ := r
    obtain ⟨h1, h2, h3, h4, h5⟩ := h
    simp only [placed, List.mem_cons] at hd
    rcases hd with rfl | hd
    · exact ⟨h1, h2, h3, Nat.le_refl _, h5.le⟩
    · obtain ⟨a, b, c, e, f⟩ := ih h5 hd
      have := wt_pos l
      exact ⟨a, b, c, by omega, f⟩

/-- Symbols with long codewords come after all symbols with short ones. -/
theorem Lay.after {m P : Nat} {R : List (Nat × Nat)} (h : Lay P R) {d : Nat × Nat × Nat} (hd : d ∈ placed P R)
    (hm : m < d.2.1) : P + V m R ≤ d.2.2 := by
  induction R generalizing P with
  | nil => cases hd
  | cons r R ih =>
    obtain ⟨s, l⟩ := r
    have hf := h.facts hd
    obtain ⟨h1, h2, h3, h4, h5⟩ := h
    simp only [placed, List.mem_cons] at hd
    by_cases hl : l ≤ m
    · rcases hd with rfl | hd
      · exact absurd hl (by simp only at hm; omega)
      · have := ih h5 hd
        simp only [V, if_pos hl]
        omega
    · have hV : V m R = 0 := by
        clear ih h5 hd hf h3
        induction R with
        | nil => rfl
        | cons r R ih =>
          obtain ⟨s', l'⟩ := r
          have := h4 (s', l') List.mem_cons_self
          simp only at this
          simp only [V, if_neg (show ¬ l' ≤ m by omega), Nat.zero_add]
          exact ih (fun r hr => h4 r (List.mem_cons_of_mem _ hr))
      simp only [V, if_neg hl, hV]
      omega

/-- Symbols with short codewords end within the weight of the short ones. -/
theorem Lay.before {m P : Nat} {R : List (Nat × Nat)} (h : Lay P R) {d : Nat × Nat × Nat} (hd : d ∈ placed P R)
    (hm : d.2.1 ≤ m) : d.2.2 + wt d.2.1 ≤ P + V m R := by
  induction R generalizing P with
  | nil => cases hd
  | cons r R ih =>
    obtain ⟨s, l⟩ := r
    obtain ⟨h1, h2, h3, h4, h5⟩ := h
    simp only [placed, List.mem_cons] at hd
    rcases hd with rfl | hd
    · simp only at hm
      simp only [V, if_pos hm]
      omega
    · have hl : l ≤ m := by
        have := h4 _ (mem_placed hd)
        simp only at this
        omega
      have := ih h5 hd
      simp only [V, if_pos hl]
      omega

theorem Lay.V_all {P : Nat} {R : List (Nat × Nat)} (h : Lay P R) : P + V 15 R = 2 ^ 15 := by
  induction R generalizing P with
  | nil => simpa [Lay, V] using h
  | cons r R ih =>
    obtain ⟨s, l⟩ := r
    obtain ⟨h1, h2, h3, h4, h5⟩ := h
    have := ih h5
    simp only [V, if_pos h2]
    omega

/-- How many symbols have length `l`. -/
def cntL (R : List (Nat × Nat)) (l : Nat) : Nat := R.countP (fun r => r.2 == l)

/-- How many symbols have lengths up to `m`. -/
def cntLe (R : List (Nat × Nat)) (m : Nat) : Nat := R.countP (fun r => decide (r.2 ≤ m))

theorem cntLe_succ (R : List (Nat × Nat)) (m : Nat) : cntLe R (m + 1) = cntLe R m + cntL R (m + 1) := by
  induction R with
  | nil => rfl
  | cons r R ih =>
    simp only [cntLe, cntL, List.countP_cons] at ih ⊢
    rw [ih]
    by_cases h1 : r.2 ≤ m
    · simp [h1, show r.2 ≤ m + 1 by omega, show r.2 ≠ m + 1 by omega]; omega
    · by_cases h2 : r.2 = m + 1
      · simp [h2, show ¬ m + 1 ≤ m by omega]; omega
      · simp [h1, h2, show ¬ r.2 ≤ m + 1 by omega]

theorem V_succ (R : List (Nat × Nat)) (m : Nat) : V (m + 1) R = V m R + cntL R (m + 1) * wt (m + 1) := by
  induction R with
  | nil => simp [V, cntL]
  | cons r R ih =>
    obtain ⟨s, l⟩ := r
    simp only [V, cntL, List.countP_cons] at ih ⊢
    rw [ih]
    by_cases h1 : l ≤ m
    · simp [h1, show l ≤ m + 1 by omega, show l ≠ m + 1 by omega]; omega
    · by_cases h2 : l = m + 1
      · subst h2; simp [Nat.add_mul, show ¬ m + 1 ≤ m by omega]; omega
      · simp [h1, h2, show ¬ l ≤ m + 1 by omega]

theorem V_first {R : List (Nat × Nat)} {l : Nat} (h : ∀ r ∈ R, l ≤ r.2) : V l R = cntL R l * wt l := by
  induction R with
  | nil => simp [V, cntL]
  | cons r R ih =>
    obtain ⟨s, k⟩ := r
    have ih := ih (fun r hr => h r (List.mem_cons_of_mem _ hr))
    have hk : l ≤ k := h (s, k) List.mem_cons_self
    simp only [V, cntL, List.countP_cons] at ih ⊢
    rw [ih]
    by_cases h2 : k = l
    · subst h2; simp [Nat.add_mul]; omega
    · simp [h2, show ¬ k ≤ l by omega]

theorem cntLe_first {R : List (Nat × Nat)} {l : Nat} (h : ∀ r ∈ R, l ≤ r.2) : cntLe R l = cntL R l := by
  simp only [cntLe, cntL]
  apply List.countP_congr
  intro r hr
  have := h r hr
  simp
  omega

/-- The symbols of one block fill it exactly. -/
theorem Lay.block {tb P Y : Nat} {R : List (Nat × Nat)} (h : Lay P R) (hY : wt tb ∣ Y) (h1 : P ≤ Y) (h2 : Y ≤ 2 ^ 15)
    (ht : ∀ r ∈ R, tb ≤ r.2) : (((placed P R).filter (fun d => decide (d.2.2 < Y))).map (fun d => wt d.2.1)).sum = Y - P := by
  induction R generalizing P with
  | nil =>
    simp only [Lay] at h
    simp [placed]
    omega
  | cons r R ih =>
    obtain ⟨s, l⟩ := r
    obtain ⟨a1, a2, a3, a4, a5⟩ := h
    have htb : tb ≤ l := ht (s, l) List.mem_cons_self
    by_cases hP : P < Y
    · have hle : P + wt l ≤ Y := by
        obtain ⟨p, rfl⟩ := a3
        obtain ⟨y, hy⟩ := Nat.dvd_trans (wt_dvd htb) hY
        rw [hy] at hP ⊢
        have : p < y := Nat.lt_of_mul_lt_mul_left hP
        calc wt l * p + wt l = wt l * (p + 1) := by rw [Nat.mul_add]; omega
          _ ≤ wt l * y := Nat.mul_le_mul_left _ this
      have := ih a5 hle (fun r hr => ht r (List.mem_cons_of_mem _ hr))
      simp only [placed, List.filter_cons, hP, decide_true, if_true, List.map_cons, List.sum_cons, this]
      omega
    · have hnone : (placed P ((s, l) :: R)).filter (fun d => decide (d.2.2 < Y)) = [] := by
        rw [List.filter_eq_nil_iff]
        intro d hd
        have := (Lay.facts (R := (s, l) :: R) ⟨a1, a2, a3, a4, a5⟩ hd).2.2.2.1
        simp; omega
      rw [hnone]
      simp
      omega

end Blend2D.Deflate
