import Verif.Algo.Model
import Verif.Algo.Spec
/-! # C13: sorting. -/
namespace Blend2D.Algo
open Spec

/-- `ys` is `xs` with the elements of `[lo, hi)` rearranged among themselves. -/
structure Rearranged (xs ys : Array α) (lo hi : Nat) : Prop where
  perm : ys.Perm xs
  size : ys.size = xs.size
  outside : ∀ k, k < lo ∨ hi ≤ k → ys[k]? = xs[k]?
  inside : ∀ P : α → Prop, (∀ k (h : k < xs.size), lo ≤ k → k < hi → P xs[k]) →
    ∀ k (h : k < ys.size), lo ≤ k → k < hi → P ys[k]

theorem Rearranged.refl (xs : Array α) (lo hi : Nat) : Rearranged xs xs lo hi :=
  ⟨Array.Perm.refl xs, rfl, fun _ _ => rfl, fun _ h => h⟩

theorem Rearranged.trans {xs ys zs : Array α} {lo hi : Nat} (h1 : Rearranged xs ys lo hi) (h2 : Rearranged ys zs lo hi) :
    Rearranged xs zs lo hi :=
  ⟨h2.perm.trans h1.perm, h2.size.trans h1.size, fun k h => (h2.outside k h).trans (h1.outside k h),
   fun P h => h2.inside P (h1.inside P h)⟩

theorem Rearranged.mono {xs ys : Array α} {lo hi lo' hi' : Nat} (h : Rearranged xs ys lo hi)
    (hl : lo' ≤ lo) (hh : hi ≤ hi') : Rearranged xs ys lo' hi' := by
  refine ⟨h.perm, h.size, fun k hk => h.outside k (by omega), fun P hP k hk h1 h2 => ?_⟩
  by_cases hin : lo ≤ k ∧ k < hi
  · exact h.inside P (fun k hk h3 h4 => hP k hk (by omega) (by omega)) k hk hin.1 hin.2
  · have hs := h.size
    have := h.outside k (by omega)
    have hkx : k < xs.size := by omega
    rw [Array.getElem?_eq_getElem hk, Array.getElem?_eq_getElem hkx] at this
    injection this with this
    rw [this]; exact hP k hkx h1 h2

theorem Rearranged.get_outside {xs ys : Array α} {lo hi : Nat} (h : Rearranged xs ys lo hi) (k : Nat)
    (hk : k < ys.size) (hk' : k < xs.size) (ho : k < lo ∨ hi ≤ k) : ys[k] = xs[k] := by
  have := h.outside k ho
  rw [Array.getElem?_eq_getElem hk, Array.getElem?_eq_getElem hk'] at this
  injection this

theorem sw_some (xs : Array α) (i j : Nat) (hi : i < xs.size) (hj : j < xs.size) :
    sw xs i j = some (xs.swap i j hi hj) := by
  unfold sw; rw [dif_pos ⟨hi, hj⟩]

theorem swap_rearranged (xs : Array α) (i j lo hi : Nat) (hi' : i < xs.size) (hj : j < xs.size)
    (h1 : lo ≤ i) (h2 : i < hi) (h3 : lo ≤ j) (h4 : j < hi) : Rearranged xs (xs.swap i j hi' hj) lo hi := by
  refine ⟨Array.swap_perm hi' hj, Array.size_swap .., ?_, ?_⟩
  · intro k hk
    rw [Array.getElem?_swap]
    rw [if_neg (by omega), if_neg (by omega)]
  · intro P hP k hk hl hh
    rw [Array.getElem_swap]
    split
    · exact hP _ _ h3 h4
    · split
      · exact hP _ _ h1 h2
      · exact hP _ _ hl hh

variable {cmp : α → α → Int}

theorem Spec.Comparator.refl (hc : Comparator cmp) (a : α) : cmp a a ≤ 0 := by
  have := hc.flip a a
  omega

theorem Spec.Comparator.total (hc : Comparator cmp) {a b : α} (h : ¬ cmp a b ≤ 0) : cmp b a ≤ 0 := by
  have := hc.flip a b
  omega

/-- `insertInner` moves element `pl` down into a sorted prefix. -/
theorem insertInner_spec (hc : Comparator cmp) (base : Nat) :
    ∀ pl (xs : Array α) (top : Nat), base ≤ pl → pl ≤ top → top < xs.size →
      (∀ i j (hj : j < xs.size) (hij : i < j), base ≤ i → j ≤ top → j ≠ pl → cmp xs[i] xs[j] ≤ 0) →
      ∃ ys, insertInner cmp base pl xs = some ys ∧ Rearranged xs ys base (top + 1) ∧ SortedOn cmp ys base (top + 1) := by
  intro pl
  induction pl with
  | zero =>
    intro xs top h1 h2 h3 hs
    refine ⟨xs, rfl, Rearranged.refl _ _ _, ?_⟩
    intro i j hj hij h4 h5
    exact hs i j hj hij h4 (by omega) (by omega)
  | succ pl ih =>
    intro xs top h1 h2 h3 hs
    unfold insertInner
    by_cases hb : pl + 1 > base
    · rw [if_pos hb]
      have hp1 : pl < xs.size := by omega
      have hp2 : pl + 1 < xs.size := by omega
      rw [Array.getElem?_eq_getElem hp1, Array.getElem?_eq_getElem hp2]
      simp only
      by_cases hcmp : cmp xs[pl] xs[pl + 1] > 0
      · rw [if_pos hcmp, sw_some xs _ _ hp1 hp2, Option.bind_some]
        have hle : cmp xs[pl + 1] xs[pl] ≤ 0 := hc.total (by omega)
        have hsz : (xs.swap pl (pl + 1) hp1 hp2).size = xs.size := Array.size_swap ..
        obtain ⟨ys, h4, h5, h6⟩ := ih (xs.swap pl (pl + 1) hp1 hp2) top (by omega) (by omega) (by omega) (by
          intro i j hj hij hbi hjt hjp
          rw [Array.getElem_swap, Array.getElem_swap]
          by_cases hj1 : j = pl + 1
          · rw [if_neg (by omega : ¬ j = pl), if_pos hj1]
            by_cases hi1 : i = pl
            · rw [if_pos hi1]; exact hle
            · rw [if_neg hi1, if_neg (by omega)]
              exact hs i pl hp1 (by omega) hbi (by omega) (by omega)
          · rw [if_neg hjp, if_neg hj1]
            by_cases hi1 : i = pl
            · rw [if_pos hi1]
              exact hs (pl + 1) j (by omega) (by omega) (by omega) hjt hj1
            · rw [if_neg hi1]
              by_cases hi2 : i = pl + 1
              · rw [if_pos hi2]
                exact hs pl j (by omega) (by omega) (by omega) hjt hj1
              · rw [if_neg hi2]
                exact hs i j (by omega) hij hbi hjt hj1)
        exact ⟨ys, h4, (swap_rearranged xs _ _ _ _ hp1 hp2 (by omega) (by omega) (by omega) (by omega)).trans h5, h6⟩
      · rw [if_neg hcmp]
        refine ⟨xs, rfl, Rearranged.refl _ _ _, ?_⟩
        intro i j hj hij hbi hjt
        by_cases hjp : j = pl + 1
        · subst hjp
          by_cases hi : i = pl
          · subst hi; omega
          · exact hc.trans _ xs[pl] _ (hs i pl hp1 (by omega) hbi (by omega) (by omega)) (by omega)
        · exact hs i j hj hij hbi (by omega) hjp
    · rw [if_neg hb]
      refine ⟨xs, rfl, Rearranged.refl _ _ _, ?_⟩
      intro i j hj hij hbi hjt
      exact hs i j hj hij hbi (by omega) (by omega)

theorem insertOuter_spec (hc : Comparator cmp) (base : Nat) :
    ∀ n (pm : Nat) (xs : Array α), base < pm → pm + n ≤ xs.size → SortedOn cmp xs base pm →
      ∃ ys, insertOuter cmp base n pm xs = some ys ∧ Rearranged xs ys base (pm + n) ∧ SortedOn cmp ys base (pm + n) := by
  intro n
  induction n with
  | zero => intro pm xs h1 h2 h3; exact ⟨xs, rfl, Rearranged.refl _ _ _, h3⟩
  | succ n ih =>
    intro pm xs h1 h2 h3
    obtain ⟨ys, h4, h5, h6⟩ := insertInner_spec hc base pm xs pm (by omega) (by omega) (by omega)
      (fun i j hj hij hbi hjt hne => h3 i j hj hij hbi (by omega))
    obtain ⟨zs, h7, h8, h9⟩ := ih (pm + 1) ys (by omega) (by have := h5.size; omega) h6
    refine ⟨zs, ?_, ?_, ?_⟩
    · unfold insertOuter; rw [h4]; exact h7
    · have : pm + 1 + n = pm + (n + 1) := by omega
      rw [this] at h8
      exact (h5.mono (by omega) (by omega)).trans h8
    · have : pm + 1 + n = pm + (n + 1) := by omega
      rw [this] at h9; exact h9

theorem insertionSort_spec (hc : Comparator cmp) (xs : Array α) (base size : Nat) (h : base + size ≤ xs.size) :
    ∃ ys, insertionSort cmp xs base size = some ys ∧ Rearranged xs ys base (base + size) ∧
      SortedOn cmp ys base (base + size) := by
  unfold insertionSort
  by_cases h0 : size = 0
  · subst h0
    refine ⟨xs, rfl, Rearranged.refl _ _ _, ?_⟩
    intro i j hj hij h1 h2; omega
  · obtain ⟨ys, h1, h2, h3⟩ := insertOuter_spec hc base (size - 1) (base + 1) xs (by omega) (by omega)
      (by intro i j hj hij h1 h2; omega)
    have : base + 1 + (size - 1) = base + size := by omega
    rw [this] at h2 h3
    exact ⟨ys, h1, h2, h3⟩

/-- C13: `insertion_sort` rearranges the given range into order, touches nothing else and stays inside it. -/
theorem C13_insertion_sort (hc : Comparator cmp) (xs : Array α) (base size : Nat) (h : base + size ≤ xs.size) :
    ∃ ys, insertionSort cmp xs base size = some ys ∧ ys.Perm xs ∧ SortedOn cmp ys base (base + size) ∧
      ∀ k, k < base ∨ base + size ≤ k → ys[k]? = xs[k]? := by
  obtain ⟨ys, h1, h2, h3⟩ := insertionSort_spec hc xs base size h
  exact ⟨ys, h1, h2.perm, h3, h2.outside⟩

/-! ## Partition -/

theorem scanI_spec (hc : Comparator cmp) (xs : Array α) (base pj : Nat) (hb : base < xs.size) (hpj : pj < xs.size)
    (hge : cmp xs[base] xs[pj] ≤ 0) :
    ∀ d pi, pj - pi = d → pi ≤ pj → base < pi →
      (∀ k (h : k < xs.size), base < k → k < pi → cmp xs[k] xs[base] ≤ 0) →
      (∀ h : pi < xs.size, pi < pj → cmp xs[pi] xs[base] ≤ 0) →
      ∃ i, scanI cmp xs base pj pi = some i ∧ pi ≤ i ∧ i ≤ pj ∧ (pi < pj → pi < i) ∧
        (∀ h : i < xs.size, cmp xs[base] xs[i] ≤ 0) ∧
        (∀ k (h : k < xs.size), base < k → k < i → cmp xs[k] xs[base] ≤ 0) := by
  intro d
  induction d with
  | zero =>
    intro pi hd hle hbp hall hpi
    have : pi = pj := by omega
    subst this
    refine ⟨pi, ?_, by omega, by omega, by omega, fun _ => hge, fun k h h1 h2 => hall k h h1 h2⟩
    unfold scanI; rw [if_neg (by omega)]
  | succ d ih =>
    intro pi hd hle hbp hall hpi
    have hlt : pi < pj := by omega
    have h1 : pi + 1 < xs.size := by omega
    unfold scanI
    rw [if_pos hlt, Array.getElem?_eq_getElem h1, Array.getElem?_eq_getElem hb]
    simp only
    have hall' : ∀ k (h : k < xs.size), base < k → k < pi + 1 → cmp xs[k] xs[base] ≤ 0 := by
      intro k h hk1 hk2
      by_cases hk : k = pi
      · subst hk; exact hpi h hlt
      · exact hall k h hk1 (by omega)
    by_cases hcmp : cmp xs[pi + 1] xs[base] < 0
    · rw [if_pos hcmp]
      obtain ⟨i, e1, e2, e3, e4, e5, e6⟩ := ih (pi + 1) (by omega) (by omega) (by omega) hall' (fun _ _ => by omega)
      exact ⟨i, e1, by omega, e3, fun _ => by omega, e5, e6⟩
    · rw [if_neg hcmp]
      refine ⟨pi + 1, rfl, by omega, by omega, by omega, fun _ => ?_, hall'⟩
      have := hc.flip xs[base] xs[pi + 1]
      omega

theorem scanJ_spec (hc : Comparator cmp) (xs : Array α) (base end_ : Nat) (hb : base + 1 < xs.size)
    (hend : end_ ≤ xs.size) (hle1 : cmp xs[base + 1] xs[base] ≤ 0) :
    ∀ pj, base + 1 < pj → pj < end_ → (∀ k (h : k < xs.size), pj ≤ k → k < end_ → cmp xs[base] xs[k] ≤ 0) →
      ∃ j, scanJ cmp xs base pj = some j ∧ base + 1 ≤ j ∧ j < pj ∧
        (∀ h : j < xs.size, cmp xs[j] xs[base] ≤ 0) ∧
        (∀ k (h : k < xs.size), j < k → k < end_ → cmp xs[base] xs[k] ≤ 0) := by
  intro pj
  induction pj with
  | zero => intro h; omega
  | succ pj ih =>
    intro h1 h2 hall
    have hp : pj < xs.size := by omega
    have hbs : base < xs.size := by omega
    unfold scanJ
    rw [if_pos (by omega), Nat.add_sub_cancel, Array.getElem?_eq_getElem hp, Array.getElem?_eq_getElem hbs]
    simp only
    by_cases hcmp : cmp xs[pj] xs[base] > 0
    · rw [if_pos hcmp]
      have hne : pj ≠ base + 1 := by
        intro he; subst he; omega
      obtain ⟨j, e1, e2, e3, e4, e5⟩ := ih (by omega) (by omega) (by
        intro k h hk1 hk2
        by_cases hk : k = pj
        · subst hk; have := hc.flip xs[k] xs[base]; omega
        · exact hall k h (by omega) hk2)
      exact ⟨j, e1, e2, by omega, e4, e5⟩
    · rw [if_neg hcmp]
      exact ⟨pj, rfl, by omega, by omega, fun _ => by omega, fun k h hk1 hk2 => hall k h (by omega) hk2⟩

theorem partLoop_spec (hc : Comparator cmp) (base end_ : Nat) (pivot : α) :
    ∀ fuel (xs : Array α) (pi pj : Nat), pj ≤ base + fuel → base + 1 ≤ pi → pi ≤ pj → base + 1 < pj → pj < end_ → 
      end_ ≤ xs.size →
      xs[base]? = some pivot →
      (∀ k (h : k < xs.size), base < k → k ≤ pi → cmp xs[k] pivot ≤ 0) →
      (∀ k (h : k < xs.size), pj ≤ k → k < end_ → cmp pivot xs[k] ≤ 0) →
      ∃ ys i j, partLoop cmp base fuel xs pi pj = some (ys, i, j) ∧ Rearranged xs ys (base + 1) end_ ∧
        base < j ∧ j < i ∧ i < end_ ∧
        (∀ k (h : k < ys.size), base < k → k < i → cmp ys[k] pivot ≤ 0) ∧
        (∀ k (h : k < ys.size), j < k → k < end_ → cmp pivot ys[k] ≤ 0) := by
  intro fuel
  induction fuel with
  | zero => intro xs pi pj h1 h2 h3; omega
  | succ fuel ih =>
    intro xs pi pj hf h1 h2 h3 h4 h5 hpiv hlo hhi
    have hbs : base < xs.size := by omega
    have hpj : pj < xs.size := by omega
    rw [Array.getElem?_eq_getElem hbs] at hpiv
    injection hpiv with hpiv
    subst hpiv
    obtain ⟨i, i1, i2, i3, i4, i5, i6⟩ := scanI_spec hc xs base pj hbs hpj (hhi pj hpj (by omega) h4) (pj - pi) pi rfl h2
      (by omega) (fun k h hk1 hk2 => hlo k h hk1 (by omega)) (fun h _ => hlo pi h (by omega) (by omega))
    obtain ⟨j, j1, j2, j3, j4, j5⟩ := scanJ_spec hc xs base end_ (by omega) h5 (hlo (base + 1) (by omega) (by omega) (by omega))
      pj h3 h4 hhi
    unfold partLoop
    simp only [i1, j1, bind, Option.bind_some]
    by_cases hij : i > j
    · rw [if_pos hij]
      exact ⟨xs, i, j, rfl, Rearranged.refl _ _ _, by omega, hij, by omega, i6, j5⟩
    · rw [if_neg hij]
      have his : i < xs.size := by omega
      have hjs : j < xs.size := by omega
      rw [sw_some xs i j his hjs, Option.bind_some]
      have hsz : (xs.swap i j his hjs).size = xs.size := Array.size_swap ..
      have hib : base + 1 < i ∨ pi = pj := by
        by_cases h : pi < pj
        · have := i4 h; left; omega
        · right; omega
      have hr := swap_rearranged xs i j (base + 1) end_ his hjs (by omega) (by omega) (by omega) (by omega)
      obtain ⟨ys, i', j', e1, e2, e3, e4, e5, e6, e7⟩ := ih (xs.swap i j his hjs) i j (by omega) (by omega) (by omega)
        (by omega) (by omega) (by omega)
        (by rw [hr.outside base (by omega), Array.getElem?_eq_getElem hbs])
        (by
          intro k h hk1 hk2
          rw [Array.getElem_swap]
          split
          · exact j4 _
          · split
            · rename_i hki hkj
              exact absurd hkj (by omega)
            · exact i6 k (by omega) hk1 (by omega))
        (by
          intro k h hk1 hk2
          rw [Array.getElem_swap]
          split
          · rename_i hki
            have : i = j := by omega
            subst this
            exact i5 _
          · split
            · exact i5 _
            · exact j5 k (by omega) (by omega) hk2)
      exact ⟨ys, i', j', e1, hr.trans e2, e3, e4, e5, e6, e7⟩

theorem condSwap_spec (xs : Array α) (hc : Comparator cmp) (i j lo hi : Nat) (his : i < xs.size) (hjs : j < xs.size)
    (h1 : lo ≤ i) (h2 : i < hi) (h3 : lo ≤ j) (h4 : j < hi) (hne : i ≠ j) :
    ∃ ys, condSwap cmp xs i j = some ys ∧ Rearranged xs ys lo hi ∧
      (∀ (a : i < ys.size) (b : j < ys.size), cmp ys[i] ys[j] ≤ 0) ∧
      (∀ k, k ≠ i → k ≠ j → ys[k]? = xs[k]?) ∧
      ((ys[i]? = xs[i]? ∧ ys[j]? = xs[j]? ∧ cmp xs[i] xs[j] ≤ 0) ∨
       (ys[i]? = xs[j]? ∧ ys[j]? = xs[i]? ∧ cmp xs[j] xs[i] ≤ 0)) := by
  unfold condSwap
  rw [Array.getElem?_eq_getElem his, Array.getElem?_eq_getElem hjs]
  simp only
  by_cases hcmp : cmp xs[i] xs[j] > 0
  · rw [if_pos hcmp, sw_some xs i j his hjs]
    have hle : cmp xs[j] xs[i] ≤ 0 := hc.total (by omega)
    have hsz : (xs.swap i j his hjs).size = xs.size := Array.size_swap ..
    refine ⟨_, rfl, swap_rearranged xs i j lo hi his hjs h1 h2 h3 h4, ?_, ?_, ?_⟩
    · intro a b
      rw [Array.getElem_swap, Array.getElem_swap]
      rw [if_pos rfl, if_neg (by omega), if_pos rfl]; exact hle
    · intro k hk1 hk2
      rw [Array.getElem?_swap, if_neg (by omega), if_neg (by omega)]
    · right
      refine ⟨?_, ?_, hle⟩
      · rw [Array.getElem?_eq_getElem (by omega : i < (xs.swap i j his hjs).size), Array.getElem_swap, if_pos rfl]
      · rw [Array.getElem?_eq_getElem (by omega : j < (xs.swap i j his hjs).size), Array.getElem_swap,
          if_neg (by omega), if_pos rfl]
  · rw [if_neg hcmp]
    refine ⟨xs, rfl, Rearranged.refl _ _ _, fun _ _ => by omega, fun _ _ _ => rfl, Or.inl ?_⟩
    exact ⟨Array.getElem?_eq_getElem his, Array.getElem?_eq_getElem hjs, by omega⟩

theorem partition_spec (hc : Comparator cmp) (xs : Array α) (base end_ : Nat) (hend : end_ ≤ xs.size)
    (hsize : end_ - base > 7) :
    ∃ ys pi pj pivot, partition cmp xs base end_ = some (ys, pi, pj) ∧ Rearranged xs ys base end_ ∧
      base < pj ∧ pj < pi ∧ pi < end_ ∧
      (∀ k (h : k < ys.size), base ≤ k → k < pi → cmp ys[k] pivot ≤ 0) ∧
      (∀ k (h : k < ys.size), pj ≤ k → k < end_ → cmp pivot ys[k] ≤ 0) := by
  have hb : base < xs.size := by omega
  have hm : base + (end_ - base) / 2 < xs.size := by omega
  have hr0 := swap_rearranged xs (base + (end_ - base) / 2) base base end_ hm hb (by omega) (by omega) (by omega) (by omega)
  unfold partition
  simp only [bind]
  rw [sw_some xs _ _ hm hb, Option.bind_some]
  generalize xs.swap (base + (end_ - base) / 2) base hm hb = x0 at *
  have s0 := hr0.size
  obtain ⟨x1, e1, r1, c1, o1, d1⟩ := condSwap_spec x0 hc (base + 1) (end_ - 1) base end_ (by omega) (by omega) (by omega)
    (by omega) (by omega) (by omega) (by omega)
  have s1 := r1.size
  obtain ⟨x2, e2, r2, c2, o2, d2⟩ := condSwap_spec x1 hc base (end_ - 1) base end_ (by omega) (by omega) (by omega)
    (by omega) (by omega) (by omega) (by omega)
  have s2 := r2.size
  obtain ⟨x3, e3, r3, c3, o3, d3⟩ := condSwap_spec x2 hc (base + 1) base base end_ (by omega) (by omega) (by omega)
    (by omega) (by omega) (by omega) (by omega)
  have s3 := r3.size
  rw [e1, Option.bind_some, e2, Option.bind_some, e3, Option.bind_some]
  have hb3 : base < x3.size := by omega
  have hb31 : base + 1 < x3.size := by omega
  have he3 : end_ - 1 < x3.size := by omega
  -- the pivot is the median of the three
  have hlow : cmp x3[base + 1] x3[base] ≤ 0 := c3 hb31 hb3
  have hhigh : cmp x3[base] x3[end_ - 1] ≤ 0 := by
    -- x3[end-1] = x2[end-1]
    have hE : x3[end_ - 1]? = x2[end_ - 1]? := o3 _ (by omega) (by omega)
    have hE2 : x3[end_ - 1] = x2[end_ - 1] := by
      rw [Array.getElem?_eq_getElem he3, Array.getElem?_eq_getElem (by omega)] at hE
      injection hE
    rw [hE2]
    have c2' := c2 (by omega) (by omega)
    have c1' := c1 (by omega) (by omega)
    rcases d3 with ⟨_, hB, _⟩ | ⟨_, hB, _⟩
    · rw [Array.getElem?_eq_getElem hb3, Array.getElem?_eq_getElem (by omega)] at hB
      injection hB with hB
      rw [hB]; exact c2'
    · -- x3[base] = x2[base+1] = x1[base+1]
      rw [Array.getElem?_eq_getElem hb3, Array.getElem?_eq_getElem (by omega)] at hB
      injection hB with hB
      rw [hB]
      have hL := o2 (base + 1) (by omega) (by omega)
      rw [Array.getElem?_eq_getElem (by omega), Array.getElem?_eq_getElem (by omega)] at hL
      injection hL with hL
      rw [hL]
      rcases d2 with ⟨_, hN, _⟩ | ⟨_, hN, hcc⟩
      · rw [Array.getElem?_eq_getElem (by omega), Array.getElem?_eq_getElem (by omega)] at hN
        injection hN with hN
        rw [hN]; exact c1'
      · rw [Array.getElem?_eq_getElem (by omega), Array.getElem?_eq_getElem (by omega)] at hN
        injection hN with hN
        rw [hN]
        exact hc.trans _ _ _ c1' hcc
  obtain ⟨ys, i, j, p1, p2, p3, p4, p5, p6, p7⟩ := partLoop_spec hc base end_ x3[base] (end_ - base) x3 (base + 1) (end_ - 1)
    (by omega) (by omega) (by omega) (by omega) (by omega) (by omega) (Array.getElem?_eq_getElem hb3)
    (by
      intro k h hk1 hk2
      have : k = base + 1 := by omega
      subst this; exact hlow)
    (by
      intro k h hk1 hk2
      have : k = end_ - 1 := by omega
      subst this; exact hhigh)
  have s4 := p2.size
  rw [p1, Option.bind_some]
  simp only
  have hby : base < ys.size := by omega
  have hjy : j < ys.size := by omega
  rw [sw_some ys base j hby hjy, Option.bind_some]
  have hbase : ys[base] = x3[base] := p2.get_outside base hby hb3 (by omega)
  have hr5 := swap_rearranged ys base j base end_ hby hjy (by omega) (by omega) (by omega) (by omega)
  have s5 := hr5.size
  refine ⟨_, i, j, x3[base], rfl, ?_, p3, p4, p5, ?_, ?_⟩
  · exact ((((hr0.trans r1).trans r2).trans r3).trans (p2.mono (by omega) (by omega))).trans hr5
  · intro k h hk1 hk2
    rw [Array.getElem_swap]
    split
    · exact p6 j hjy p3 p4
    · split
      · rw [hbase]; exact hc.refl _
      · exact p6 k (by omega) (by omega) hk2
  · intro k h hk1 hk2
    rw [Array.getElem_swap]
    split
    · omega
    · split
      · rw [hbase]; exact hc.refl _
      · exact p7 k (by omega) (by omega) hk2

/-! ## The main loop -/

/-- Every pair is in order, or both elements lie in one of the pending ranges. -/
def Pending (cmp : α → α → Int) (xs : Array α) (R : List (Nat × Nat)) : Prop :=
  ∀ i j (hj : j < xs.size) (hij : i < j), cmp xs[i] xs[j] ≤ 0 ∨ ∃ r ∈ R, r.1 ≤ i ∧ j < r.2

def Apart (r s : Nat × Nat) : Prop := r.2 ≤ s.1 ∨ s.2 ≤ r.1 

def total : List (Nat × Nat) → Nat
  | [] => 0
  | r :: R => (r.2 - r.1) + total R

/-- Stack bound: the range pushed at depth `d` has at most `n / 2^d` elements. -/
def Depth (n : Nat) : List (Nat × Nat) → Prop
  | [] => True
  | r :: R => (r.2 - r.1) * 2 ^ R.length ≤ n ∧ Depth n R

theorem replace_pending (xs ys : Array α) (b e : Nat) (R new : List (Nat × Nat)) 
    (hr : Rearranged xs ys b e) (hap : ∀ r ∈ R, Apart (b, e) r)
    (hp : Pending cmp xs ((b, e) :: R))
    (hin : ∀ i j (hj : j < ys.size) (hij : i < j), b ≤ i → j < e → cmp ys[i] ys[j] ≤ 0 ∨ ∃ r ∈ new, r.1 ≤ i ∧ j < r.2) :
    Pending cmp ys (new ++ R) := by
  have hs := hr.size
  intro i j hj hij
  by_cases hib : b ≤ i ∧ j < e
  · rcases hin i j hj hij hib.1 hib.2 with h | ⟨r, h1, h2⟩
    · exact Or.inl h
    · exact Or.inr ⟨r, List.mem_append_left _ h1, h2⟩
  · -- at most one of them is inside
    by_cases hi : b ≤ i ∧ i < e
    · -- i inside, j right of e
      left
      have hje : e ≤ j := by omega
      have hyj : ys[j] = xs[j] := hr.get_outside j hj (by omega) (Or.inr hje)
      rw [hyj]
      refine hr.inside (fun a => cmp a xs[j] ≤ 0) ?_ i (by omega) hi.1 hi.2
      intro k hk hk1 hk2
      rcases hp k j (by omega) (by omega) with h | ⟨r, h1, h2, h3⟩
      · exact h
      · exfalso
        rcases List.mem_cons.1 h1 with h1 | h1
        · subst h1; simp at h2 h3; omega
        · have := hap r h1; simp [Apart] at this; omega
    · by_cases hjin : b ≤ j ∧ j < e
      · left
        have hib' : i < b := by omega
        have hyi : ys[i] = xs[i] := hr.get_outside i (by omega) (by omega) (Or.inl hib')
        rw [hyi]
        refine hr.inside (fun a => cmp xs[i] a ≤ 0) ?_ j hj hjin.1 hjin.2
        intro k hk hk1 hk2
        rcases hp i k (by omega) (by omega) with h | ⟨r, h1, h2, h3⟩
        · exact h
        · exfalso
          rcases List.mem_cons.1 h1 with h1 | h1
          · subst h1; simp at h2 h3; omega
          · have := hap r h1; simp [Apart] at this; omega
      · have hyi : ys[i] = xs[i] := hr.get_outside i (by omega) (by omega) (by omega)
        have hyj : ys[j] = xs[j] := hr.get_outside j (by omega) (by omega) (by omega)
        rw [hyi, hyj]
        rcases hp i j (by omega) hij with h | ⟨r, h1, h2, h3⟩
        · exact Or.inl h
        · rcases List.mem_cons.1 h1 with h1 | h1
          · subst h1; simp at h2 h3; omega
          · exact Or.inr ⟨r, List.mem_append_right _ h1, h2, h3⟩

theorem depth_fits (n d s : Nat) (hn : n < 2 ^ 64) (h : s * 2 ^ d ≤ n) (hs : s > 7) : 2 * (d + 1) ≤ kStackSize := by
  by_cases hd : d < 62
  · unfold kStackSize; omega
  · exfalso
    have h1 : 2 ^ 62 ≤ 2 ^ d := Nat.pow_le_pow_right (by omega) (by omega)
    have h2 : 8 * 2 ^ 62 ≤ s * 2 ^ d := Nat.mul_le_mul (by omega) h1
    omega

theorem quickLoop_spec (hc : Comparator cmp) (n : Nat) (hn : n < 2 ^ 64) :
    ∀ fuel (xs : Array α) (b e : Nat) (R : List (Nat × Nat)),
      2 * total ((b, e) :: R) + R.length < fuel → xs.size = n → b ≤ e → e ≤ n → (∀ r ∈ R, r.1 ≤ r.2 ∧ r.2 ≤ n) →
      ((b, e) :: R).Pairwise Apart → Pending cmp xs ((b, e) :: R) → (e - b) * 2 ^ R.length ≤ n → Depth n R →
      ∃ ys, quickLoop cmp fuel xs b e R = some ys ∧ ys.Perm xs ∧ Sorted cmp ys := by
  intro fuel
  induction fuel with
  | zero => intro xs b e R h; omega
  | succ fuel ih =>
    intro xs b e R hf hsz hbe hen hR hap hpend hd1 hd2
    rw [List.pairwise_cons] at hap
    unfold quickLoop
    by_cases hbig : e - b > kISortThreshold
    · rw [if_pos hbig]
      have hbig' : e - b > 7 := hbig
      obtain ⟨ys, pi, pj, pv, p1, p2, p3, p4, p5, p6, p7⟩ := partition_spec hc xs b e (by omega) hbig
      have hfit := depth_fits n R.length (e - b) hn hd1 hbig'
      simp only [p1, bind, Option.bind_some]
      have hys := p2.size
      have hpend' : Pending cmp ys ([(b, pj), (pi, e)] ++ R) := by
        refine replace_pending xs ys b e R _ p2 hap.1 hpend ?_
        intro i j hj hij hi hje
        by_cases h1 : j < pj
        · exact Or.inr ⟨(b, pj), by simp, hi, h1⟩
        · by_cases h2 : pi ≤ i
          · exact Or.inr ⟨(pi, e), by simp, h2, hje⟩
          · exact Or.inl (hc.trans _ _ _ (p6 i (by omega) hi (by omega)) (p7 j hj (by omega) hje))
      have hpw : ∀ (c d c' d' : Nat), b ≤ c → d ≤ e → b ≤ c' → d' ≤ e → (d ≤ c' ∨ d' ≤ c) →
          ((c, d) :: (c', d') :: R).Pairwise Apart := by
        intro c d c' d' h1 h2 h3 h4 h5
        rw [List.pairwise_cons, List.pairwise_cons]
        refine ⟨?_, ?_, hap.2⟩
        · intro r hr
          rcases List.mem_cons.1 hr with hr | hr
          · subst hr; exact h5
          · have := hap.1 r hr
            simp only [Apart] at this ⊢; omega
        · intro r hr
          have := hap.1 r hr
          simp only [Apart] at this ⊢; omega
      have hpow : 2 ^ (R.length + 1) = 2 * 2 ^ R.length := by rw [Nat.pow_succ]; omega
      simp only [total] at hf
      by_cases hleft : pj - b > e - pi
      · rw [if_pos hleft, if_pos hfit]
        obtain ⟨zs, z1, z2, z3⟩ := ih ys pi e ((b, pj) :: R) (by simp only [total, List.length_cons]; omega) (by omega)
          (by omega) hen
          (by intro r hr
              rcases List.mem_cons.1 hr with hr | hr
              · subst hr; simp; omega
              · exact hR r hr)
          (hpw pi e b pj (by omega) (by omega) (by omega) (by omega) (by omega))
          (by
            intro i j hj hij
            rcases hpend' i j hj hij with h | ⟨r, h1, h2⟩
            · exact Or.inl h
            · refine Or.inr ⟨r, ?_, h2⟩
              simp only [List.cons_append, List.nil_append, List.mem_cons] at h1 ⊢
              rcases h1 with h | h | h
              · exact Or.inr (Or.inl h)
              · exact Or.inl h
              · exact Or.inr (Or.inr h))
          (by
            rw [List.length_cons, hpow, ← Nat.mul_assoc]
            exact Nat.le_trans (Nat.mul_le_mul_right _ (by omega)) hd1)
          ⟨Nat.le_trans (Nat.mul_le_mul_right _ (by simp; omega)) hd1, hd2⟩
        exact ⟨zs, z1, z2.trans p2.perm, z3⟩
      · rw [if_neg hleft, if_pos hfit]
        obtain ⟨zs, z1, z2, z3⟩ := ih ys b pj ((pi, e) :: R) (by simp only [total, List.length_cons]; omega) (by omega)
          (by omega) (by omega)
          (by intro r hr
              rcases List.mem_cons.1 hr with hr | hr
              · subst hr; simp; omega
              · exact hR r hr)
          (hpw b pj pi e (by omega) (by omega) (by omega) (by omega) (by omega))
          hpend'
          (by
            rw [List.length_cons, hpow, ← Nat.mul_assoc]
            exact Nat.le_trans (Nat.mul_le_mul_right _ (by omega)) hd1)
          ⟨Nat.le_trans (Nat.mul_le_mul_right _ (by simp; omega)) hd1, hd2⟩
        exact ⟨zs, z1, z2.trans p2.perm, z3⟩
    · rw [if_neg hbig]
      obtain ⟨ys, i1, i2, i3⟩ := insertionSort_spec hc xs b (e - b) (by omega)
      have hbe' : b + (e - b) = e := by omega
      rw [hbe'] at i2 i3
      have hys := i2.size
      simp only [i1, bind, Option.bind_some]
      have hpend' : Pending cmp ys ([] ++ R) :=
        replace_pending xs ys b e R [] i2 hap.1 hpend (fun i j hj hij hi hje => Or.inl (i3 i j hj hij hi hje))
      rw [List.nil_append] at hpend'
      match R, hpend', hR, hap, hd2, hf with
      | [], hpend', _, _, _, _ =>
        refine ⟨ys, rfl, i2.perm, ?_⟩
        intro i j hj hij
        rcases hpend' i j hj hij with h | ⟨r, h1, _⟩
        · exact h
        · cases h1
      | (b', e') :: R', hpend', hR, hap, hd2, hf =>
        simp only [total, List.length_cons] at hf
        have hr' := hR (b', e') (by simp)
        obtain ⟨zs, z1, z2, z3⟩ := ih ys b' e' R' (by simp only [total]; omega) (by omega) hr'.1 hr'.2
          (fun r hr => hR r (by simp [hr])) hap.2 hpend' hd2.1 hd2.2
        exact ⟨zs, z1, z2.trans i2.perm, z3⟩

/-- C13: `quick_sort` of any array (shorter than the 64-bit address space) terminates, never accesses an element outside
the array, never overflows its work stack, and leaves a sorted permutation. -/
theorem C13_quick_sort (hc : Comparator cmp) (xs : Array α) (hn : xs.size < 2 ^ 64) :
    ∃ ys, quickSort cmp xs = some ys ∧ ys.Perm xs ∧ Sorted cmp ys := by
  unfold quickSort
  refine quickLoop_spec hc xs.size hn _ xs 0 xs.size [] ?_ rfl (by omega) (by omega) (by simp) (by simp) ?_ (by simp) trivial
  · simp only [total, List.length_nil]; omega
  · intro i j hj hij
    exact Or.inr ⟨(0, xs.size), by simp, by simp, hj⟩

/-- A comparator of the kind the library passes. -/
example : Comparator (fun a b : Nat => if a < b then -1 else if a > b then 1 else 0) := by
  constructor
  · intro a b; split <;> split <;> (try split) <;> (try split) <;> omega
  · intro a b c; split <;> split <;> (try split) <;> (try split) <;> (try split) <;> intros <;> omega

end Blend2D.Algo
