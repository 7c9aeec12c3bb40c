import Verif.NameTable.Lemmas
/-! C60: the names of a font. -/
namespace Blend2D.NameTable
open Blend2D.FaceMetrics.Spec (word)
open Blend2D.FontData (u16_word)

/-- A string is converted inside of its buffer, whatever was in it, and the result is its text if there is one, an
error otherwise. -/
theorem C60_text (buf : List UInt8) (platform : Nat) (src : List UInt8) (hb : buf.length = src.length * 2)
    (hl : src.length < 65536) :
    ∃ r, convertInto buf (isUtf16 platform) src = some r ∧ ∀ t, r = some t ↔ Spec.IsText platform src t :=
  convertInto_spec buf platform src hb hl

/-- The specification describes at most one text for each name. -/
theorem C60_unique {d : List UInt8} (ha : Spec.Accepted d) {id : Nat} {t u : List UInt8} (h1 : Spec.IsName d id t)
    (h2 : Spec.IsName d id u) : t = u := by
  obtain ⟨i, hi, hi'⟩ := h1
  obtain ⟨j, hj, hj'⟩ := h2
  have a := hi' j u hj
  have b := hj' i t hi
  have hij : i = j := by
    rcases Nat.lt_trichotomy i j with h | h | h
    · have := b.2 h; omega
    · exact h
    · have := a.2 h; omega
  subst hij
  obtain ⟨h1, _, _, s, h4, h5⟩ := hi
  obtain ⟨_, _, _, s', h4', h5'⟩ := hj
  rw [h4] at h4'
  simp only [Option.some.injEq] at h4'
  subst h4'
  obtain ⟨_, _, _, ha1, ha2⟩ := ha
  have hfit : 6 + 12 * (i + 1) ≤ d.length := by omega
  refine IsText_unique ?_ h5 h5'
  have hr := record_length hfit
  rcases region_spec (Spec.record d i) ha2 with ⟨_, g⟩ | ⟨_, x, _, g, _, g'⟩
  · rw [h4] at g; cases g
  · rw [h4] at g
    simp only [Option.some.injEq] at g
    subst g; omega

/-- Storing a text if there is one. -/
def put (n : Names) (id : Nat) : Option (List UInt8) → Names
  | none => n
  | some t => n.set id t

theorem put_full (n : Names) (o : Option (List UInt8)) : put n 4 o = { n with full := o.getD n.full } := by
  cases o <;> simp [put, Names.set]

theorem put_postScript (n : Names) (o : Option (List UInt8)) : put n 6 o = { n with postScript := o.getD n.postScript } := by
  cases o <;> simp [put, Names.set]

theorem put_family (n : Names) (o : Option (List UInt8)) {id : Nat} (h : id = 1 ∨ id = 21 ∨ id = 16) :
    put n id o = { n with family := o.getD n.family } := by
  cases o
  · rfl
  · rcases h with rfl | rfl | rfl <;> simp [put, Names.set]

theorem put_subfamily (n : Names) (o : Option (List UInt8)) {id : Nat} (h : id = 2 ∨ id = 22 ∨ id = 17) :
    put n id o = { n with subfamily := o.getD n.subfamily } := by
  cases o
  · rfl
  · rcases h with rfl | rfl | rfl <;> simp [put, Names.set]

/-- `assign` when the texts are known. -/
theorem assign_eq {d : List UInt8} {base size : Nat} {best : Nat → Option (Nat × Nat)} {val : Nat → Option (List UInt8)}
    (h0 : ∀ id, best id = none → val id = none)
    (h1 : ∀ id sc i, best id = some (sc, i) → ∃ t, textOf d base size i = some (some t) ∧ val id = some t) :
    ∀ (ids : List Nat) (n : Names), assign d base size best ids n =
      some (.ok (ids.foldl (fun n id => put n id (val id)) n)) := by
  intro ids
  induction ids with
  | nil => intro n; rfl
  | cons id rest ih =>
    intro n
    unfold assign
    cases hb : best id with
    | none => simp only [List.foldl_cons, h0 id hb, put]; exact ih n
    | some q =>
      obtain ⟨sc, i⟩ := q
      obtain ⟨t, ht, hv⟩ := h1 id sc i hb
      simp only [ht, List.foldl_cons, hv, Option.bind_some, put]
      exact ih _

/-- The string a list of ids gives: the first that has a value. -/
def firstOf (val : Nat → Option (List UInt8)) : List Nat → List UInt8
  | [] => []
  | id :: rest => match val id with | some t => t | none => firstOf val rest

theorem isFirst {d : List UInt8} {val : Nat → Option (List UInt8)}
    (h : ∀ id ∈ important, (∀ t, val id = some t → Spec.IsName d id t) ∧ (val id = none → ∀ i u, ¬ Spec.Gives d id i u)) :
    ∀ ids, (∀ id ∈ ids, id ∈ important) → Spec.IsFirst d ids (firstOf val ids) := by
  intro ids
  induction ids with
  | nil => intro _; rfl
  | cons id rest ih =>
    intro hm
    have hh := h id (hm id (by simp))
    unfold Spec.IsFirst firstOf
    cases hv : val id with
    | none => exact Or.inr ⟨hh.2 hv, ih (fun x hx => hm x (by simp [hx]))⟩
    | some t => exact Or.inl (hh.1 t hv)

theorem foldl_names (val : Nat → Option (List UInt8)) (n : Names) (hn : n.full = [] ∧ n.family = [] ∧ n.subfamily = [] ∧ n.postScript = []) :
    let v := fun id => if (id = 1 ∨ id = 21) ∧ (val 16).isSome then none
      else if (id = 2 ∨ id = 22) ∧ (val 17).isSome then none else val id
    important.foldl (fun n id => put n id (v id)) n =
      { n with full := firstOf val [4], postScript := firstOf val [6], family := firstOf val [16, 21, 1],
               subfamily := firstOf val [17, 22, 2] } := by
  obtain ⟨a, b, c, e, f, g, k⟩ := n
  obtain ⟨rfl, rfl, rfl, rfl⟩ := hn
  intro v
  have v1 : v 1 = if (val 16).isSome then none else val 1 := by simp [v]
  have v2 : v 2 = if (val 17).isSome then none else val 2 := by simp [v]
  have v4 : v 4 = val 4 := by simp [v]
  have v6 : v 6 = val 6 := by simp [v]
  have v16 : v 16 = val 16 := by simp [v]
  have v17 : v 17 = val 17 := by simp [v]
  have v21 : v 21 = if (val 16).isSome then none else val 21 := by simp [v]
  have v22 : v 22 = if (val 17).isSome then none else val 22 := by simp [v]
  clear_value v
  simp only [important, List.foldl_cons, List.foldl_nil, v1, v2, v4, v6, v16, v17, v21, v22, firstOf]
  generalize val 1 = w1; generalize val 2 = w2; generalize val 4 = w4; generalize val 6 = w6
  generalize val 16 = w16; generalize val 17 = w17; generalize val 21 = w21; generalize val 22 = w22
  simp only [put_full, put_postScript, put_family _ _ (show 1 = 1 ∨ 1 = 21 ∨ 1 = 16 by decide),
    put_family _ _ (show 21 = 1 ∨ 21 = 21 ∨ 21 = 16 by decide), put_family _ _ (show 16 = 1 ∨ 16 = 21 ∨ 16 = 16 by decide),
    put_subfamily _ _ (show 2 = 2 ∨ 2 = 22 ∨ 2 = 17 by decide), put_subfamily _ _ (show 22 = 2 ∨ 22 = 22 ∨ 22 = 17 by decide),
    put_subfamily _ _ (show 17 = 2 ∨ 17 = 22 ∨ 17 = 17 by decide)]
  clear v1 v2 v4 v6 v16 v17 v21 v22
  simp only [Names.mk.injEq, true_and, and_true]
  refine ⟨?_, ?_, ?_, ?_⟩
  · cases w4 <;> rfl
  · cases w16 <;> cases w21 <;> cases w1 <;> rfl
  · cases w17 <;> cases w22 <;> cases w2 <;> rfl
  · cases w6 <;> rfl

theorem normalize_spec (n : Names) : normalize n =
    if n.subfamily ≠ [] ∧ n.subfamily <:+ n.family then { n with subfamily := [], fixed := true } else n := by
  unfold normalize
  by_cases h0 : n.subfamily = []
  · simp [h0]
  · by_cases hs : n.subfamily <:+ n.family
    · rw [if_pos ⟨hs.length_le, h0⟩, if_pos (List.suffix_iff_eq_drop.1 hs).symm, if_pos ⟨h0, hs⟩]
    · rw [if_neg (show ¬ (n.subfamily ≠ [] ∧ n.subfamily <:+ n.family) from fun h => hs h.2)]
      have : ¬ n.family.drop (n.family.length - n.subfamily.length) = n.subfamily :=
        fun h => hs (List.suffix_iff_eq_drop.2 h.symm)
      rw [if_neg this]
      split <;> rfl

/-- For every table with a correct header the names of the face are those the records give.  As family and subfamily
the typographic names are used, then those of the model of weight, width and slope, then the names 1 and 2; a
subfamily at the end of the family is removed. -/
theorem C60_names {d : List UInt8} (ha : Spec.Accepted d) :
    ∃ n sub, init d = some (.ok n) ∧ Spec.IsFirst d [4] n.full ∧ Spec.IsFirst d [6] n.postScript ∧
      Spec.IsFirst d [16, 21, 1] n.family ∧ Spec.IsFirst d [17, 22, 2] sub ∧
      (n.subfamily = if sub ≠ [] ∧ sub <:+ n.family then [] else sub) ∧
      (n.fixed = true ↔ sub ≠ [] ∧ sub <:+ n.family) ∧
      (n.typographic = true ↔ (∃ i t, Spec.Gives d 16 i t) ∧ ∃ i t, Spec.Gives d 17 i t) ∧
      (n.wrong = true ↔ ∃ i, Spec.Broken d i) := by
  have ha' := ha
  obtain ⟨a1, a2, a3, a4, a5⟩ := ha'
  obtain ⟨s, hs, hinv, hw⟩ := loop_spec ha (word d 2) le_rfl
  let val : Nat → Option (List UInt8) := fun id =>
    (s.best id).bind fun q => (textOf d (word d 4) (d.length - word d 4) q.2).getD none
  have hval : ∀ id sc i, s.best id = some (sc, i) →
      ∃ t, textOf d (word d 4) (d.length - word d 4) i = some (some t) ∧ val id = some t ∧ Spec.IsName d id t := by
    intro id sc i hb
    have := hinv id
    rw [hb] at this
    obtain ⟨h1, h2, t, h3, h4, h5⟩ := this
    have ht := textOf_spec ha h3
    refine ⟨t, ht, by simp [val, hb, ht], i, h3, ?_⟩
    intro j u hg
    rw [← h4]
    exact h5 j u hg.1 hg
  have hnone : ∀ id, s.best id = none → val id = none := by intro id hb; simp [val, hb]
  have hsome : ∀ id, (val id).isSome = (s.best id).isSome := by
    intro id
    cases hb : s.best id with
    | none => rw [hnone id hb]; rfl
    | some q => obtain ⟨t, _, h, _⟩ := hval id q.1 q.2 hb; rw [h]; rfl
  have hfirst : ∀ id ∈ important, (∀ t, val id = some t → Spec.IsName d id t) ∧
      (val id = none → ∀ i u, ¬ Spec.Gives d id i u) := by
    intro id hid
    cases hb : s.best id with
    | none =>
      refine ⟨fun t ht => (by rw [hnone id hb] at ht; cases ht), fun _ i u hg => ?_⟩
      have := hinv id
      rw [hb] at this
      exact this hid i u hg.1 hg
    | some q =>
      obtain ⟨t, _, h, hn⟩ := hval id q.1 q.2 hb
      refine ⟨fun u hu => ?_, fun hv => (by rw [h] at hv; cases hv)⟩
      rw [h] at hu
      simp only [Option.some.injEq] at hu
      subst hu; exact hn
  have hgives : ∀ id ∈ important, ((s.best id).isSome = true ↔ ∃ i t, Spec.Gives d id i t) := by
    intro id hid
    rw [← hsome]
    cases hv : val id with
    | none => simp only [Option.isSome_none]; exact ⟨fun h => (by cases h), fun ⟨i, t, h⟩ => absurd h ((hfirst id hid).2 hv i t)⟩
    | some t =>
      obtain ⟨i, h, _⟩ := (hfirst id hid).1 t hv
      exact ⟨fun _ => ⟨i, t, h⟩, fun _ => rfl⟩
  let v := fun id => if (id = 1 ∨ id = 21) ∧ (val 16).isSome then none
      else if (id = 2 ∨ id = 22) ∧ (val 17).isSome then none else val id
  have hassign := assign_eq (d := d) (base := word d 4) (size := d.length - word d 4) (best := prefer s.best) (val := v)
    (by
      intro id hb
      simp only [v]
      unfold prefer at hb
      rw [hsome, hsome]
      split
      · rfl
      · split
        · rfl
        · rename_i h1 h2
          rw [if_neg h1, if_neg h2] at hb
          exact hnone id hb)
    (by
      intro id sc i hb
      unfold prefer at hb
      simp only [v]
      rw [hsome, hsome]
      by_cases h1 : (id = 1 ∨ id = 21) ∧ (s.best 16).isSome = true
      · rw [if_pos h1] at hb; cases hb
      · rw [if_neg h1] at hb ⊢
        by_cases h2 : (id = 2 ∨ id = 22) ∧ (s.best 17).isSome = true
        · rw [if_pos h2] at hb; cases hb
        · rw [if_neg h2] at hb ⊢
          obtain ⟨t, e1, e2, _⟩ := hval id sc i hb
          exact ⟨t, e1, e2⟩)
    important
    { typographic := (prefer s.best 16).isSome && (prefer s.best 17).isSome, wrong := s.wrong }
  have hfold := foldl_names val
    { typographic := (prefer s.best 16).isSome && (prefer s.best 17).isSome, wrong := s.wrong } ⟨rfl, rfl, rfl, rfl⟩
  simp only at hfold
  rw [hfold] at hassign
  clear hfold
  have p16 : prefer s.best 16 = s.best 16 := by simp [prefer]
  have p17 : prefer s.best 17 = s.best 17 := by simp [prefer]
  have hne : d ≠ [] := by intro h; rw [h] at a1; simp at a1
  have hinit : init d = read d (word d 2) (word d 4) := by
    unfold init
    rw [if_neg hne, if_neg (by omega), u16_word (by omega), u16_word (by omega), u16_word (by omega)]
    simp only [Option.bind_some]
    rw [if_neg (by omega), if_neg (by omega), if_neg (by omega)]
  have hread := hinit
  unfold read at hread
  rw [hs] at hread
  simp only [Option.bind_some] at hread
  rw [hassign] at hread
  simp only [Option.bind_some, normalize_spec] at hread
  refine ⟨_, firstOf val [17, 22, 2], hread, ?_⟩
  have f4 := isFirst hfirst [4] (by decide)
  have f6 := isFirst hfirst [6] (by decide)
  have ff := isFirst hfirst [16, 21, 1] (by decide)
  have fs := isFirst hfirst [17, 22, 2] (by decide)
  have ht : ((prefer s.best 16).isSome && (prefer s.best 17).isSome) = true ↔
      (∃ i t, Spec.Gives d 16 i t) ∧ ∃ i t, Spec.Gives d 17 i t := by
    rw [p16, p17, Bool.and_eq_true, hgives 16 (by decide), hgives 17 (by decide)]
  have hw' : s.wrong = true ↔ ∃ i, Spec.Broken d i := by
    rw [hw]
    exact ⟨fun ⟨j, _, h⟩ => ⟨j, h⟩, fun ⟨j, h⟩ => ⟨j, h.1, h⟩⟩
  by_cases hc : firstOf val [17, 22, 2] ≠ [] ∧ firstOf val [17, 22, 2] <:+ firstOf val [16, 21, 1]
  · simp only [if_pos hc]
    exact ⟨f4, f6, ff, fs, trivial, ⟨fun _ => hc, fun _ => trivial⟩, ht, hw'⟩
  · simp only [if_neg hc]
    exact ⟨f4, f6, ff, fs, trivial, ⟨fun h => (by cases h), fun h => absurd h hc⟩, ht, hw'⟩

/-- The names of the model of weight, width and slope are used only if there is no other choice (`otname.cpp:151-152`).
Proved for fonts that don't have such a name together with the names 1 or 2 and without the typographic name: see
`C60_wws_counterexample`. -/
theorem C60_names_partial {d : List UInt8} (ha : Spec.Accepted d)
    (h1 : (∃ i t, Spec.Gives d 16 i t) ∨ (∀ i t, ¬ Spec.Gives d 21 i t) ∨ ∀ i t, ¬ Spec.Gives d 1 i t)
    (h2 : (∃ i t, Spec.Gives d 17 i t) ∨ (∀ i t, ¬ Spec.Gives d 22 i t) ∨ ∀ i t, ¬ Spec.Gives d 2 i t) :
    ∃ n sub, init d = some (.ok n) ∧ Spec.IsFirst d [4] n.full ∧ Spec.IsFirst d [6] n.postScript ∧
      Spec.IsFirst d [16, 1, 21] n.family ∧ Spec.IsFirst d [17, 2, 22] sub ∧
      (n.subfamily = if sub ≠ [] ∧ sub <:+ n.family then [] else sub) := by
  obtain ⟨n, sub, e, f4, f6, ff, fs, g, _⟩ := C60_names ha
  have key : ∀ a b c t, ((∃ i t, Spec.Gives d a i t) ∨ (∀ i t, ¬ Spec.Gives d b i t) ∨ ∀ i t, ¬ Spec.Gives d c i t) →
      Spec.IsFirst d [a, b, c] t → Spec.IsFirst d [a, c, b] t := by
    intro a b c t h hf
    simp only [Spec.IsFirst] at hf ⊢
    rcases hf with hf | ⟨na, hf⟩
    · exact Or.inl hf
    · refine Or.inr ⟨na, ?_⟩
      rcases h with ⟨i, t, h⟩ | h | h
      · exact absurd h (na i t)
      · rcases hf with ⟨i, hi, _⟩ | ⟨_, hf⟩
        · exact absurd hi (h i t)
        · rcases hf with hf | ⟨nc, rfl⟩
          · exact Or.inl hf
          · exact Or.inr ⟨nc, Or.inr ⟨h, rfl⟩⟩
      · rcases hf with hf | ⟨nb, hf⟩
        · exact Or.inr ⟨h, Or.inl hf⟩
        · rcases hf with ⟨i, hi, _⟩ | ⟨nc, rfl⟩
          · exact absurd hi (h i t)
          · exact Or.inr ⟨nc, Or.inr ⟨nb, rfl⟩⟩
  exact ⟨n, sub, e, f4, f6, key _ _ _ _ h1 ff, key _ _ _ _ h2 fs, g⟩

/-- Other tables are rejected. -/
theorem C60_rejected {d : List UInt8} (ha : ¬ Spec.Accepted d) :
    init d = some (.error (if d = [] then .missing else .invalidData)) := by
  unfold init
  by_cases h0 : d = []
  · rw [if_pos h0, if_pos h0]
  · rw [if_neg h0, if_neg h0]
    by_cases h6 : d.length < 6
    · rw [if_pos h6]
    · rw [if_neg h6, u16_word (by omega), u16_word (by omega), u16_word (by omega)]
      simp only [Option.bind_some]
      unfold Spec.Accepted at ha
      split
      · rfl
      · split
        · rfl
        · split
          · rfl
          · exfalso; apply ha; refine ⟨?_, ?_, ?_, ?_, ?_⟩ <;> omega

/-- No table makes it read or write outside of its memory. -/
theorem C60_safe (d : List UInt8) : init d ≠ none := by
  by_cases ha : Spec.Accepted d
  · obtain ⟨n, _, h, _⟩ := C60_names ha
    rw [h]; simp
  · rw [C60_rejected ha]; simp

end Blend2D.NameTable
