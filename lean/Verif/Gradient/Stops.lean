import Verif.Gradient.Spec
import Verif.Algo.Search
import Verif.Algo.Sort
/-! # Lists of stops: analysis, sorting, removal of duplicates, insertion -/
namespace Blend2D.Gradient
open Spec

theorem one_pos : 0 < one := by unfold one; positivity

/-! ## `thin` -/

theorem thin_sublist (l : List Stop) : (thin l).Sublist l := by
  induction l using thin.induct with
  | case1 => simp [thin]
  | case2 a => simp [thin]
  | case3 a b => simp [thin]
  | case4 a b c t h ih =>
    rw [thin, if_pos h]
    exact ih.trans ((List.sublist_cons_self b (c :: t)).cons_cons a)
  | case5 a b c t h ih =>
    rw [thin, if_neg h]
    exact ih.cons_cons a

theorem count_gt {l : List Stop} {x : Int} (h : ∀ s ∈ l, x < s.offset) : l.countP (fun s => s.offset = x) = 0 := by
  rw [List.countP_eq_zero]
  intro s hs
  have := h s hs
  simp only [decide_eq_true_eq]; omega

theorem thin_two (l : List Stop) (hs : l.Pairwise (fun a b => a.offset ≤ b.offset)) (x : Int) :
    (thin l).countP (fun s => s.offset = x) ≤ 2 := by
  induction l using thin.induct with
  | case1 => simp [thin]
  | case2 a => simp only [thin, List.countP_cons, List.countP_nil]; split <;> omega
  | case3 a b => simp only [thin, List.countP_cons, List.countP_nil]; split <;> split <;> omega
  | case4 a b c t h ih =>
    rw [thin, if_pos h]
    exact ih (hs.sublist ((List.sublist_cons_self b (c :: t)).cons_cons a))
  | case5 a b c t h ih =>
    rw [thin, if_neg h, List.countP_cons]
    have h1 := ih (hs.sublist (List.sublist_cons_self _ _))
    have h2 := (thin_sublist (b :: c :: t)).countP_le (p := fun s => decide (s.offset = x))
    by_cases hax : a.offset = x
    · have : (b :: c :: t).countP (fun s => s.offset = x) ≤ 1 := by
        rw [List.pairwise_cons] at hs
        obtain ⟨ha, hs⟩ := hs
        rw [List.pairwise_cons] at hs
        obtain ⟨hb, hs⟩ := hs
        rw [List.pairwise_cons] at hs
        by_cases hab : a.offset = b.offset
        · have hc : x < c.offset := by
            have := hb c (by simp)
            have : ¬ b.offset = c.offset := fun e => h ⟨hab, e⟩
            omega
          rw [List.countP_cons, count_gt (l := c :: t)]
          · split <;> omega
          · intro s hs'
            rcases List.mem_cons.1 hs' with rfl | hs'
            · exact hc
            · have := hs.1 s hs'; omega
        · have hbx : x < b.offset := by have := ha b (by simp); omega
          rw [count_gt]
          · omega
          · intro s hs'
            rcases List.mem_cons.1 hs' with rfl | hs'
            · exact hbx
            · have := hb s hs'; omega
      simp only [hax, decide_true, ↓reduceIte]; omega
    · simp only [hax, decide_false, Bool.false_eq_true, ↓reduceIte]; omega

theorem thin_valid (l : List Stop) (hr : ∀ s ∈ l, 0 ≤ s.offset ∧ s.offset ≤ one)
    (hs : l.Pairwise (fun a b => a.offset ≤ b.offset)) : Valid (thin l) :=
  ⟨fun s h => hr s ((thin_sublist l).subset h), hs.sublist (thin_sublist l), thin_two l hs⟩

/-- No three stops in a row have one offset. -/
def NoThree : List Stop → Prop
  | a :: b :: c :: t => ¬ (a.offset = b.offset ∧ b.offset = c.offset) ∧ NoThree (b :: c :: t)
  | _ => True

theorem thin_id (l : List Stop) (h : NoThree l) : thin l = l := by
  induction l using thin.induct with
  | case1 => simp [thin]
  | case2 a => simp [thin]
  | case3 a b => simp [thin]
  | case4 a b c t hh ih => exact absurd hh h.1
  | case5 a b c t hh ih => rw [thin, if_neg hh, ih h.2]

theorem valid_of_noThree (l : List Stop) (hr : ∀ s ∈ l, 0 ≤ s.offset ∧ s.offset ≤ one)
    (hs : l.Pairwise (fun a b => a.offset ≤ b.offset)) (h : NoThree l) : Valid l := by
  have := thin_valid l hr hs
  rwa [thin_id l h] at this

theorem Valid.sublist {l m : List Stop} (h : Valid l) (hs : m.Sublist l) : Valid m :=
  ⟨fun s hm => h.range s (hs.subset hm), h.sorted.sublist hs, fun x => Nat.le_trans hs.countP_le (h.two x)⟩

theorem valid_nil : Valid [] := ⟨by simp, by simp, by simp⟩

/-! ## Analysis -/

theorem unit_eq (x : F) : (!(F.le (some 0) x && F.le x (some one))) = !(inUnit x) := by
  cases x with
  | none => rfl
  | some v => simp [F.le, inUnit]

theorem inUnit_some {x : F} (h : inUnit x = true) : ∃ v, x = some v ∧ 0 ≤ v ∧ v ≤ one := by
  cases x with
  | none => cases h
  | some v => exact ⟨v, rfl, by simpa [inUnit] using h⟩

theorem analyzeLoop_spec (rs : List Raw) : ∀ (res was : Bool) (prev : F),
    (analyzeLoop res was prev rs = .invalid ↔ ¬ (rs.all (fun r => inUnit r.offset))) ∧
    (analyzeLoop res was prev rs = .conforming → res = false) := by
  induction rs with
  | nil => intro res was prev; cases res <;> simp [analyzeLoop]
  | cons r rs ih =>
    intro res was prev
    rw [analyzeLoop, unit_eq]
    cases hu : inUnit r.offset with
    | false => simp [hu]
    | true =>
      simp only [Bool.not_true, Bool.false_eq_true, ↓reduceIte, List.all_cons, hu, Bool.true_and]
      obtain ⟨h1, h2⟩ := ih (res || F.lt r.offset prev || (F.eq r.offset prev && was)) (F.eq r.offset prev) r.offset
      refine ⟨h1, fun h => ?_⟩
      have := h2 h
      simp only [Bool.or_eq_false_iff] at this
      exact this.1.1

/-- With the state of the loop after the stops `p` (`was`) and `q`. -/
theorem analyzeLoop_conf (rs : List Raw) : ∀ (was : Bool) (p q : Stop), was = decide (q.offset = p.offset) →
    analyzeLoop false was (some q.offset) rs = .conforming →
    List.IsChain (fun a b : Stop => a.offset ≤ b.offset) (q :: rs.map Raw.num) ∧ NoThree (p :: q :: rs.map Raw.num) := by
  induction rs with
  | nil => intro was p q _ _; simp [NoThree]
  | cons r rs ih =>
    intro was p q hw h
    rw [analyzeLoop, unit_eq] at h
    cases hu : inUnit r.offset with
    | false => rw [hu] at h; simp at h
    | true =>
      rw [hu] at h
      simp only [Bool.not_true, Bool.false_eq_true, ↓reduceIte, Bool.false_or] at h
      obtain ⟨v, hv, v0, v1⟩ := inUnit_some hu
      have hnum : r.num.offset = v := by simp [Raw.num, hv]
      have hf := (analyzeLoop_spec rs _ _ _).2 h
      rw [hf] at h
      simp only [Bool.or_eq_false_iff] at hf
      obtain ⟨hf1, hf2⟩ := hf
      rw [hv] at hf1 hf2 h
      have hlt : q.offset ≤ r.num.offset := by simp [F.lt] at hf1; omega
      obtain ⟨i1, i2⟩ := ih (F.eq (some v) (some q.offset)) q r.num (by rw [hnum]; rfl) (by rw [hnum]; exact h)
      rw [List.map_cons]
      refine ⟨List.isChain_cons_cons.2 ⟨hlt, i1⟩, ?_, i2⟩
      rintro ⟨e1, e2⟩
      rw [hw] at hf2
      simp only [F.eq, Bool.and_eq_false_iff] at hf2
      rcases hf2 with hf2 | hf2
      · simp at hf2; omega
      · simp at hf2; omega

theorem analyze_invalid (rs : List Raw) : analyze rs = .invalid ↔ ¬ (rs.all (fun r => inUnit r.offset)) :=
  (analyzeLoop_spec rs _ _ _).1

theorem num_range {rs : List Raw} (h : rs.all (fun r => inUnit r.offset)) :
    ∀ s ∈ rs.map Raw.num, 0 ≤ s.offset ∧ s.offset ≤ one := by
  intro s hs
  obtain ⟨r, hr, rfl⟩ := List.mem_map.1 hs
  obtain ⟨v, hv, h1, h2⟩ := inUnit_some (List.all_eq_true.1 h r hr)
  simp only [Raw.num, hv, Option.getD_some]
  exact ⟨h1, h2⟩

theorem NoThree.tail {a : Stop} {l : List Stop} (h : NoThree (a :: l)) : NoThree l := by
  match l, h with
  | [], _ => trivial
  | [_], _ => trivial
  | b :: c :: t, h => exact h.2

theorem analyze_conf (rs : List Raw) (hc : analyze rs = .conforming) :
    (rs.map Raw.num).Pairwise (fun a b => a.offset ≤ b.offset) ∧ NoThree (rs.map Raw.num) := by
  have h := analyzeLoop_conf rs false ⟨-one - 1, 0⟩ ⟨-one, 0⟩ (by simp only [Bool.false_eq, decide_eq_false_iff_not]; omega) hc
  refine ⟨?_, h.2.tail.tail⟩
  have : Trans (fun a b : Stop => a.offset ≤ b.offset) (fun a b : Stop => a.offset ≤ b.offset) (fun a b : Stop => a.offset ≤ b.offset) :=
    ⟨fun h1 h2 => Int.le_trans h1 h2⟩
  have := List.isChain_iff_pairwise.1 h.1
  exact (List.pairwise_cons.1 this).2

/-! ## Sorting -/

theorem cmpAlt_le (a b : Int × Nat) : cmpAlt a b ≤ 0 ↔ a.1 < b.1 ∨ (a.1 = b.1 ∧ a.2 ≤ b.2) := by
  unfold cmpAlt
  split_ifs <;> simp at * <;> omega

theorem cmpAlt_comparator : Algo.Spec.Comparator cmpAlt := by
  constructor
  · intro a b
    unfold cmpAlt
    split_ifs <;> simp at * <;> omega
  · intro a b c h1 h2
    rw [cmpAlt_le] at *
    omega

/-- The order of `List.mergeSort_zipIdx`. -/
def leIdx (a b : Stop × Nat) : Bool := List.zipIdxLE (fun a b : Stop => decide (a.offset ≤ b.offset)) a b

theorem leIdx_iff (a b : Stop × Nat) : leIdx a b = true ↔ cmpAlt (a.1.offset, a.2) (b.1.offset, b.2) ≤ 0 := by
  rw [cmpAlt_le]
  unfold leIdx List.zipIdxLE
  by_cases h1 : a.1.offset ≤ b.1.offset <;> by_cases h2 : b.1.offset ≤ a.1.offset <;> simp [h1, h2] <;> omega

theorem sort_range {l : List Stop} (hr : ∀ s ∈ l, 0 ≤ s.offset ∧ s.offset ≤ one) : ∀ s ∈ sort l, 0 ≤ s.offset ∧ s.offset ≤ one :=
  fun s hs => hr s ((List.mergeSort_perm l _).subset hs)

theorem sort_sorted (l : List Stop) : (sort l).Pairwise (fun a b => a.offset ≤ b.offset) := by
  have := List.pairwise_mergeSort (le := fun a b : Stop => decide (a.offset ≤ b.offset))
    (by intro a b c h1 h2; simp at *; omega) (by intro a b; simp; omega) l
  simpa [sort] using this

theorem sort_id (l : List Stop) (h : l.Pairwise (fun a b => a.offset ≤ b.offset)) : sort l = l :=
  List.mergeSort_of_pairwise (by simpa using h)

/-- `quick_sort` gives the pairs in the order of the stable sort. -/
theorem quickSort_alt (l : List Stop) (hn : l.length < 2 ^ 64) :
    ∃ S : List (Stop × Nat), S.map (·.1) = sort l ∧ (∀ p ∈ S, l[p.2]? = some p.1) ∧
      Algo.quickSort cmpAlt (l.zipIdx.map (fun p => (p.1.offset, p.2))).toArray = some (S.map (fun p => (p.1.offset, p.2))).toArray := by
  refine ⟨l.zipIdx.mergeSort leIdx, ?_, ?_, ?_⟩
  · exact List.mergeSort_zipIdx (l := l) (le := fun a b : Stop => decide (a.offset ≤ b.offset))
  · intro p hp
    have := (List.mergeSort_perm l.zipIdx leIdx).subset hp
    obtain ⟨x, k⟩ := p
    rw [List.mem_zipIdx_iff_getElem?] at this
    exact this
  · obtain ⟨ys, h1, h2, h3⟩ := Algo.C13_quick_sort cmpAlt_comparator (l.zipIdx.map (fun p => (p.1.offset, p.2))).toArray
      (by simpa using hn)
    rw [h1]
    congr 1
    apply Array.toList_inj.1
    have hp : ys.toList.Perm ((l.zipIdx.mergeSort leIdx).map (fun p => (p.1.offset, p.2))) := by
      have e1 : ys.toList.Perm (l.zipIdx.map (fun p => (p.1.offset, p.2))) := by
        simpa using Array.perm_iff_toList_perm.1 h2
      exact e1.trans ((List.mergeSort_perm l.zipIdx leIdx).symm.map _)
    refine hp.eq_of_pairwise (le := fun a b => cmpAlt a b ≤ 0) ?_ ?_ ?_
    · intro a b _ _ hab hba
      rw [cmpAlt_le] at hab hba
      obtain ⟨a1, a2⟩ := a
      obtain ⟨b1, b2⟩ := b
      simp only at hab hba
      simp only [Prod.mk.injEq]; omega
    · rw [List.pairwise_iff_getElem]
      intro i j hi hj hij
      have := h3 i j (by simpa using hj) hij
      simpa using this
    · rw [List.pairwise_map]
      have := List.pairwise_mergeSort (le := leIdx)
        (by intro a b c h1 h2; rw [leIdx_iff] at *; exact cmpAlt_comparator.trans _ _ _ h1 h2)
        (by intro a b; rw [Bool.or_eq_true, leIdx_iff, leIdx_iff, cmpAlt_le, cmpAlt_le]; simp only; omega) l.zipIdx
      exact this.imp (fun h => (leIdx_iff _ _).1 h)

theorem dedupe_thin (src : List Stop) (S : List (Stop × Nat)) : (∀ p ∈ S, src[p.2]? = some p.1) → ∀ (o : List Stop) (a b : Stop),
    dedupe src (S.map (fun p => (p.1.offset, p.2))) (o ++ [a, b]) a.offset b.offset = some (o ++ thin (a :: b :: S.map (·.1))) := by
  induction S with
  | nil => intro _ o a b; simp [dedupe, thin]
  | cons p S ih =>
    intro hS o a b
    have hp := hS p (by simp)
    simp only [List.map_cons, dedupe, hp, Option.bind_eq_bind, Option.bind_some]
    rw [thin]
    have ih := ih (fun q hq => hS q (by simp [hq]))
    by_cases h : a.offset = b.offset ∧ b.offset = p.1.offset
    · rw [if_pos h, if_pos h, if_neg (by simp)]
      have e : (o ++ [a, b]).dropLast = o ++ [a] := by
        rw [show o ++ [a, b] = (o ++ [a]) ++ [b] by simp, List.dropLast_concat]
      rw [e, show o ++ [a] ++ [(⟨p.1.offset, p.1.rgba⟩ : Stop)] = o ++ [a, p.1] by simp, ← h.1]
      exact ih o a p.1
    · rw [if_neg h, if_neg h]
      rw [show o ++ [a, b] ++ [(⟨p.1.offset, p.1.rgba⟩ : Stop)] = (o ++ [a]) ++ [b, p.1] by simp, ih (o ++ [a]) b p.1]
      simp

theorem dedupe_start (src : List Stop) (S : List (Stop × Nat)) (hS : ∀ p ∈ S, src[p.2]? = some p.1)
    (hr : ∀ p ∈ S, 0 ≤ p.1.offset) :
    dedupe src (S.map (fun p => (p.1.offset, p.2))) [] (-one) (-one) = some (thin (S.map (·.1))) := by
  have h1 := one_pos
  match S, hS, hr with
  | [], _, _ => simp [dedupe, thin]
  | [p], hS, hr =>
    have hp := hS p (by simp)
    have := hr p (by simp)
    simp only [List.map_cons, List.map_nil, dedupe, hp, Option.bind_eq_bind, Option.bind_some, thin]
    rw [if_neg (by omega)]
    rfl
  | p :: q :: S, hS, hr =>
    have hp := hS p (by simp)
    have hq := hS q (by simp)
    have e1 := hr p (by simp)
    have e2 := hr q (by simp)
    simp only [List.map_cons, dedupe, hp, hq, Option.bind_eq_bind, Option.bind_some]
    rw [if_neg (by omega), if_neg (by omega)]
    have := dedupe_thin src S (fun r hr => hS r (by simp [hr])) [] p.1 q.1
    simpa using this

/-- What `copy_unsafe_stops` stores. -/
theorem copyUnsafe_ok (cap : Nat) (rs : List Raw) (hcap : rs.length ≤ cap) (hn : rs.length < 2 ^ 58)
    (hv : rs.all (fun r => inUnit r.offset)) : copyUnsafe cap rs (analyze rs) = some (assigned rs) := by
  unfold copyUnsafe assigned
  simp only [List.length_map]
  rw [if_neg (by omega)]
  by_cases hc : analyze rs = .conforming
  · rw [if_pos (.inl hc), if_pos hc]
  · rw [if_neg hc]
    by_cases h0 : rs = []
    · subst h0; exact absurd rfl hc
    · rw [if_neg (by rintro (h | h); exact hc h; exact h0 h)]
      obtain ⟨S, s1, s2, s3⟩ := quickSort_alt (rs.map Raw.num) (by rw [List.length_map]; omega)
      rw [s3]
      simp only [Option.bind_eq_bind, Option.bind_some]
      have hl : S.length = rs.length := by
        have := congrArg List.length s1
        rw [List.length_map, sort, List.length_mergeSort, List.length_map] at this; exact this
      rw [show ((S.map (fun p => (p.1.offset, p.2))).take (rs.length - 1)) = (S.dropLast).map (fun p => (p.1.offset, p.2)) by
        rw [List.dropLast_eq_take, List.map_take, hl]]
      rw [dedupe_start _ _ (fun p hp => s2 p ((List.dropLast_sublist S).subset hp))]
      · rw [List.map_dropLast, s1]
      · intro p hp
        have := num_range hv p.1 (List.mem_of_getElem? (s2 p ((List.dropLast_sublist S).subset hp)))
        exact this.1

theorem assigned_valid (rs : List Raw) (hv : rs.all (fun r => inUnit r.offset)) : Valid (assigned rs) := by
  unfold assigned
  by_cases hc : analyze rs = .conforming
  · rw [if_pos hc]
    obtain ⟨h1, h2⟩ := analyze_conf rs hc
    exact valid_of_noThree _ (num_range hv) h1 h2
  · rw [if_neg hc]
    have hs : (sort (rs.map Raw.num)).dropLast.Sublist (sort (rs.map Raw.num)) := List.dropLast_sublist _
    exact thin_valid _ (fun s h => sort_range (num_range hv) s (hs.subset h)) ((sort_sorted _).sublist hs)

theorem assigned_length (rs : List Raw) : (assigned rs).length ≤ rs.length := by
  unfold assigned
  split
  · simp
  · have h1 := (thin_sublist ((sort (rs.map Raw.num)).dropLast)).length_le
    rw [List.length_dropLast, sort, List.length_mergeSort, List.length_map] at h1
    unfold sort; omega

/-- For conforming arrays it is what it should be. -/
theorem assigned_normalize (rs : List Raw) (hc : analyze rs = .conforming) : assigned rs = normalize (rs.map Raw.num) := by
  obtain ⟨h1, h2⟩ := analyze_conf rs hc
  rw [assigned, if_pos hc, normalize, sort_id _ h1, thin_id _ h2]

end Blend2D.Gradient
