import Verif.Algo.Model
import Verif.Algo.Spec
import Mathlib.Order.Nat
/-! # C14: searching. -/
namespace Blend2D.Algo
open Spec

theorem lowerBoundLoop_safe (data : Array α) (v : β) (pred : α → β → Bool) (size : Nat) :
    ∀ index, index + size ≤ data.size →
      ∃ k, lowerBoundLoop data v pred index size = some k ∧ index ≤ k ∧ k ≤ index + size := by
  induction size using Nat.strongRecOn with
  | ind size ih =>
    intro index h
    unfold lowerBoundLoop
    by_cases h0 : size = 0
    · exact ⟨index, by simp [h0], by omega, by omega⟩
    · rw [if_neg h0]
      have hm : index + size / 2 < data.size := by omega
      rw [Array.getElem?_eq_getElem hm]
      simp only
      split
      · obtain ⟨k, h1, h2, h3⟩ := ih (size - (size / 2 + 1)) (by omega) (index + size / 2 + 1) (by omega)
        exact ⟨k, h1, by omega, by omega⟩
      · obtain ⟨k, h1, h2, h3⟩ := ih (size / 2) (by omega) index (by omega)
        exact ⟨k, h1, by omega, by omega⟩

theorem lowerBoundLoop_spec (data : Array α) (v : β) (pred : α → β → Bool)
    (hp : Partitioned data (fun a => pred a v = true)) (size : Nat) :
    ∀ index, index + size ≤ data.size →
      (∀ i (hi : i < data.size), i < index → pred data[i] v = true) →
      (∀ i (hi : i < data.size), index + size ≤ i → ¬ pred data[i] v = true) →
      ∃ k, lowerBoundLoop data v pred index size = some k ∧ k ≤ data.size ∧
        (∀ i (hi : i < data.size), i < k → pred data[i] v = true) ∧
        (∀ i (hi : i < data.size), k ≤ i → ¬ pred data[i] v = true) := by
  induction size using Nat.strongRecOn with
  | ind size ih =>
    intro index h hlo hhi
    unfold lowerBoundLoop
    by_cases h0 : size = 0
    · exact ⟨index, by simp [h0], by omega, hlo, fun i hi h1 => hhi i hi (by omega)⟩
    · rw [if_neg h0]
      have hm : index + size / 2 < data.size := by omega
      rw [Array.getElem?_eq_getElem hm]
      simp only
      split
      · rename_i hpm
        exact ih (size - (size / 2 + 1)) (by omega) (index + size / 2 + 1) (by omega)
          (fun i hi h1 => hp i (index + size / 2) hm (by omega) hpm)
          (fun i hi h1 => hhi i hi (by omega))
      · rename_i hpm
        exact ih (size / 2) (by omega) index (by omega) hlo
          (fun i hi h1 hc => hpm (hp (index + size / 2) i hi (by omega) hc))

/-- C14: `lower_bound` of the whole array returns the number of leading elements that satisfy the predicate, i.e. the
first index at which it fails, whenever those elements come first. -/
theorem C14_lower_bound (data : Array α) (v : β) (pred : α → β → Bool)
    (hp : Partitioned data (fun a => pred a v = true)) :
    ∃ k, lowerBound data data.size v pred = some k ∧ k ≤ data.size ∧
      (∀ i (hi : i < data.size), i < k → pred data[i] v = true) ∧
      (∀ i (hi : i < data.size), k ≤ i → pred data[i] v = false) := by
  obtain ⟨k, h1, h2, h3, h4⟩ := lowerBoundLoop_spec data v pred hp data.size 0 (by omega)
    (fun i hi h => by omega) (fun i hi h => by omega)
  exact ⟨k, h1, h2, h3, fun i hi h => by simpa using h4 i hi h⟩

/-- C14: `lower_bound` accesses only elements of the array, sorted or not, and returns an index in `[0, size]`. -/
theorem C14_lower_bound_safe (data : Array α) (size : Nat) (h : size ≤ data.size) (v : β) (pred : α → β → Bool) :
    ∃ k, lowerBound data size v pred = some k ∧ k ≤ size := by
  obtain ⟨k, h1, _, h3⟩ := lowerBoundLoop_safe data v pred size 0 (by omega)
  exact ⟨k, h1, by omega⟩

theorem halve_safe (data : Array α) (v : β) (keep : α → β → Bool) (size : Nat) :
    ∀ base, 0 < size → base + size ≤ data.size →
      ∃ k, halve data v keep base size = some k ∧ base ≤ k ∧ k < base + size := by
  induction size using Nat.strongRecOn with
  | ind size ih =>
    intro base hs h
    unfold halve
    by_cases h0 : size / 2 = 0
    · exact ⟨base, by simp [h0], by omega, by omega⟩
    · rw [if_neg h0]
      have hm : base + size / 2 < data.size := by omega
      rw [Array.getElem?_eq_getElem hm]
      simp only
      split
      · obtain ⟨k, h1, h2, h3⟩ := ih (size - size / 2) (by omega) (base + size / 2) (by omega) (by omega)
        exact ⟨k, h1, by omega, by omega⟩
      · obtain ⟨k, h1, h2, h3⟩ := ih (size - size / 2) (by omega) base (by omega) (by omega)
        exact ⟨k, h1, by omega, by omega⟩

/-- The loop ends at the last element satisfying `keep`, or at the start when there is none. -/
theorem halve_spec (data : Array α) (v : β) (keep : α → β → Bool)
    (hp : Partitioned data (fun a => keep a v = true)) (size : Nat) :
    ∀ base, 0 < size → base + size ≤ data.size →
      (∀ i (hi : i < data.size), i ≤ base → 0 < base → keep data[i] v = true) →
      (∀ i (hi : i < data.size), base + size ≤ i → ¬ keep data[i] v = true) →
      ∃ k, halve data v keep base size = some k ∧ k < data.size ∧
        (∀ i (hi : i < data.size), i ≤ k → 0 < k → keep data[i] v = true) ∧
        (∀ i (hi : i < data.size), k < i → ¬ keep data[i] v = true) := by
  induction size using Nat.strongRecOn with
  | ind size ih =>
    intro base hs h hlo hhi
    unfold halve
    by_cases h0 : size / 2 = 0
    · exact ⟨base, by simp [h0], by omega, hlo, fun i hi h1 => hhi i hi (by omega)⟩
    · rw [if_neg h0]
      have hm : base + size / 2 < data.size := by omega
      rw [Array.getElem?_eq_getElem hm]
      simp only
      split
      · rename_i hpm
        exact ih (size - size / 2) (by omega) (base + size / 2) (by omega) (by omega)
          (fun i hi h1 _ => hp i _ hm h1 hpm) (fun i hi h1 => hhi i hi (by omega))
      · rename_i hpm
        refine ih (size - size / 2) (by omega) base (by omega) (by omega) hlo ?_
        intro i hi h1 hc
        exact hpm (hp (base + size / 2) i hi (by omega) hc)

variable {κ : Type} [LinearOrder κ]

/-- The array is sorted by `key`. -/
def SortedBy (key : α → κ) (data : Array α) : Prop :=
  ∀ i j (hj : j < data.size) (hij : i ≤ j), key data[i] ≤ key data[j]

theorem SortedBy.le_partitioned {key : α → κ} {data : Array α} (h : SortedBy key data) (v : κ) :
    Partitioned data (fun a => decide (key a ≤ v) = true) := by
  intro i j hj hij hp
  have := h i j hj hij
  simp only [decide_eq_true_eq] at hp ⊢
  exact le_trans this hp

theorem SortedBy.lt_partitioned {key : α → κ} {data : Array α} (h : SortedBy key data) (v : κ) :
    Partitioned data (fun a => decide (key a < v) = true) := by
  intro i j hj hij hp
  have := h i j hj hij
  simp only [decide_eq_true_eq] at hp ⊢
  exact lt_of_le_of_lt this hp

/-- C14: `binary_search` finds an element with the given key exactly when there is one. -/
theorem C14_binary_search (key : α → κ) (data : Array α) (v : κ) (hs : SortedBy key data) :
    ∃ r, binarySearch data data.size v (fun a v => decide (key a ≤ v)) (fun a v => decide (key a = v)) = some r ∧
      (∀ i, r = some i → ∃ h : i < data.size, key data[i] = v) ∧
      (r = none → ∀ i (h : i < data.size), key data[i] ≠ v) := by
  unfold binarySearch
  by_cases h0 : data.size = 0
  · exact ⟨none, by simp [h0], by simp, fun _ i h => by omega⟩
  · rw [if_neg h0]
    obtain ⟨k, h1, h2, h3, h4⟩ := halve_spec data v (fun a v => decide (key a ≤ v)) (hs.le_partitioned v) data.size 0
      (by omega) (by omega) (fun i hi h hh => by omega) (fun i hi h => by omega)
    rw [h1]
    simp only [Array.getElem?_eq_getElem h2]
    refine ⟨_, rfl, ?_, ?_⟩
    · intro i hi
      split at hi
      · rename_i he
        injection hi with hi
        subst hi
        exact ⟨h2, by simpa using he⟩
      · cases hi
    · intro hn i hi he
      split at hn
      · cases hn
      · rename_i hk
        have hki : ¬ k < i := fun h => h4 i hi h (by simp [he])
        have hle : key data[i] ≤ key data[k] := hs i k h2 (by omega)
        apply hk
        simp only [decide_eq_true_eq]
        by_cases hk0 : 0 < k
        · have := h3 k h2 (Nat.le_refl k) hk0
          simp only [decide_eq_true_eq] at this
          exact le_antisymm this (he ▸ hle)
        · have : i = k := by omega
          subst this; exact he

/-- C14: the `closest_first` search returns the first index whose key is not below the searched one
(`size` when there is none). -/
theorem C14_closest_first (key : α → κ) (data : Array α) (v : κ) (hs : SortedBy key data) :
    ∃ k, binarySearchClosestFirst data data.size v (fun a v => decide (key a < v)) = some k ∧ k ≤ data.size ∧
      (∀ i (h : i < data.size), i < k → key data[i] < v) ∧
      (∀ i (h : i < data.size), k ≤ i → v ≤ key data[i]) := by
  unfold binarySearchClosestFirst
  by_cases h0 : data.size = 0
  · exact ⟨0, by simp [h0], by omega, fun i h _ => by omega, fun i h _ => by omega⟩
  · rw [if_neg h0]
    obtain ⟨k, h1, h2, h3, h4⟩ := halve_spec data v (fun a v => decide (key a < v)) (hs.lt_partitioned v) data.size 0
      (by omega) (by omega) (fun i hi h hh => by omega) (fun i hi h => by omega)
    rw [h1]
    simp only [Array.getElem?_eq_getElem h2, decide_eq_true_eq] at h3 h4 ⊢
    by_cases hk : key data[k] < v
    · refine ⟨k + 1, by simp [hk], by omega, ?_, ?_⟩
      · intro i h hi
        exact lt_of_le_of_lt (hs i k h2 (by omega)) hk
      · intro i h hi
        exact not_lt.1 (h4 i h (by omega))
    · refine ⟨k, by simp [hk], by omega, ?_, ?_⟩
      · intro i h hi
        exact h3 i h (by omega) (by omega)
      · intro i h hi
        exact le_trans (not_lt.1 hk) (hs k i h hi)

/-- C14: the `closest_last` search returns the last index whose key is not above the searched one, and 0 when every
key is above it. -/
theorem C14_closest_last (key : α → κ) (data : Array α) (v : κ) (hs : SortedBy key data) :
    ∃ k, binarySearchClosestLast data data.size v (fun a v => decide (key a ≤ v)) = some k ∧ k ≤ data.size - 1 ∧
      (∀ i (h : i < data.size), k < i → v < key data[i]) ∧
      (∀ i (h : i < data.size), i ≤ k → 0 < k → key data[i] ≤ v) := by
  unfold binarySearchClosestLast
  by_cases h0 : data.size = 0
  · exact ⟨0, by simp [h0], by omega, fun i h _ => by omega, fun i h _ => by omega⟩
  · rw [if_neg h0]
    obtain ⟨k, h1, h2, h3, h4⟩ := halve_spec data v (fun a v => decide (key a ≤ v)) (hs.le_partitioned v) data.size 0
      (by omega) (by omega) (fun i hi h hh => by omega) (fun i hi h => by omega)
    simp only [decide_eq_true_eq] at h3 h4
    exact ⟨k, h1, by omega, fun i h hi => not_le.1 (h4 i h hi), h3⟩

/-- C14: the searches access only elements of the array, sorted or not. -/
theorem C14_binary_search_safe (data : Array α) (size : Nat) (h : size ≤ data.size) (v : β)
    (le lt eq : α → β → Bool) :
    (∃ r, binarySearch data size v le eq = some r ∧ ∀ i, r = some i → i < size) ∧
    (∃ k, binarySearchClosestFirst data size v lt = some k ∧ k ≤ size) ∧
    (∃ k, binarySearchClosestLast data size v le = some k ∧ (k < size ∨ size = 0)) := by
  unfold binarySearch binarySearchClosestFirst binarySearchClosestLast
  by_cases h0 : size = 0
  · subst h0
    exact ⟨⟨none, by simp, by simp⟩, ⟨0, by simp, by simp⟩, ⟨0, by simp, by simp⟩⟩
  · simp only [if_neg h0]
    obtain ⟨k, h1, _, h3⟩ := halve_safe data v le size 0 (by omega) (by omega)
    obtain ⟨k', h1', _, h3'⟩ := halve_safe data v lt size 0 (by omega) (by omega)
    rw [h1, h1']
    have hk : k < data.size := by omega
    have hk' : k' < data.size := by omega
    simp only [Array.getElem?_eq_getElem hk, Array.getElem?_eq_getElem hk']
    refine ⟨⟨_, rfl, ?_⟩, ⟨_, rfl, ?_⟩, ⟨_, rfl, by omega⟩⟩
    · intro i hi
      split at hi
      · injection hi with hi; omega
      · cases hi
    · split <;> omega

/-- The hypotheses are met by an ordinary sorted array with duplicates. -/
example : SortedBy (fun a : Nat => a) #[1, 3, 3, 8]
    ∧ binarySearch #[1, 3, 3, 8] 4 3 (fun a v => decide (a ≤ v)) (fun a v => decide (a = v)) = some (some 2)
    ∧ binarySearchClosestFirst #[1, 3, 3, 8] 4 3 (fun a v => decide (a < v)) = some 1
    ∧ binarySearchClosestLast #[1, 3, 3, 8] 4 3 (fun a v => decide (a ≤ v)) = some 2 := by
  refine ⟨?_, ?_, ?_, ?_⟩
  · intro i j hj hij
    have hj' : j < 4 := hj
    have : ∀ j, j < 4 → ∀ i, i ≤ j → (#[1, 3, 3, 8] : Array Nat)[i]! ≤ (#[1, 3, 3, 8] : Array Nat)[j]! := by decide
    have h := this j hj' i hij
    rwa [getElem!_pos _ i (by show i < 4; omega), getElem!_pos _ j hj] at h
  · simp [binarySearch, halve]
  · simp [binarySearchClosestFirst, halve]
  · simp [binarySearchClosestLast, halve]

end Blend2D.Algo
