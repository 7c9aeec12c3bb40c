import Verif.Variation.Law
/-! # The packing of variation settings obeys the laws, continued -/
namespace Blend2D.Variation
open Blend2D.FontTag (isValidTag variationTags variationToId kInvalidId variation_id)
open Blend2D.Settings
open Blend2D.Settings.Spec (Map Lists nothing put)

attribute [local irreducible] infoOf

theorem ids_insert : ∀ ids ∈ allIds, ∀ id ∈ fiveIds, ids.length < 3 → (findTag (infoOf ids) id).2 = false →
    ids.take (findTag (infoOf ids) id).1 ++ id :: ids.drop (findTag (infoOf ids) id).1 ∈ allIds := by
  unfold infoOf; decide +kernel

theorem ids_erase : ∀ ids ∈ allIds, ∀ k < 3, ids.eraseIdx k ∈ allIds := by decide

theorem toItems_insert (l : List (UInt32 × F32)) (k : Nat) (id : UInt32) (v : F32) :
    toItems (l.take k ++ (id, v) :: l.drop k) = (toItems l).take k ++ (tagAt id, v) :: (toItems l).drop k := by
  simp [toItems, List.map_take, List.map_drop]

theorem map_eraseIdx' {α β : Type} (f : α → β) (l : List α) (k : Nat) : (l.eraseIdx k).map f = (l.map f).eraseIdx k := by
  rw [List.eraseIdx_eq_take_drop_succ, List.eraseIdx_eq_take_drop_succ, List.map_append, List.map_take, List.map_drop]

theorem okV_vals {l : List (UInt32 × F32)} {m : Map F32} (hm : Lists (toItems l) m) (hv : ∀ p ∈ l, okV p.2) : AllV okV m := by
  intro t v h
  obtain ⟨q, hq, e⟩ := List.mem_map.1 ((hm.2 t v).1 h)
  rw [← (Prod.mk.inj e).2]
  exact hv q hq

theorem set_law (d : Words) (m : Map F32) (t : UInt32) (v : F32) (h : okS d m) (hv : okV v) :
    (∃ d', setSso d t v = some (.done d') ∧ okS d' (put m t (some v)) ∧ isValidTag t = true) ∨
    (setSso d t v = some .refuse ∧ isValidTag t = false) ∨ setSso d t v = some .dynamic := by
  obtain ⟨l, rfl, hl, hm, hvs⟩ := h
  have hlen := len_encode hl
  obtain ⟨i1, i2, i3⟩ := encode_nth l hlen
  rw [setSso]
  split
  · rcases toId_cases t with ⟨id, hid, e, rfl, hne⟩ | ⟨e, hno⟩
    · simp only [e, Option.bind_eq_bind, Option.bind_some, i1, ssoSize_encode hl]
      rw [if_pos hne]
      obtain ⟨k, f1, f2, f3, f4, f5⟩ := find_encode hl hm hid
      rw [f1]
      simp only
      cases hx : m (tagAt id) with
      | some x =>
        simp only [Option.isSome_some, if_true]
        have hk := f3 x hx
        rw [write_encode hlen hk v, Option.bind_some]
        have e2 : toItems (l.set k (id, v)) = (toItems l).set k (tagAt id, v) := by simp [toItems, List.map_set]
        have e3 : (toItems l)[k]? = some (tagAt id, x) := by rw [toItems, List.getElem?_map, hk]; rfl
        have e4 : (l.set k (id, v)).map (·.1) = l.map (·.1) := by
          rw [List.map_set]
          apply List.ext_getElem?
          intro n
          rw [List.getElem?_set]
          split
          · rename_i hn
            subst hn
            rw [List.getElem?_map, hk, List.length_map, if_pos (List.getElem?_eq_some_iff.1 hk).1]
            rfl
          · rfl
        refine .inl ⟨_, rfl, ⟨_, rfl, by rw [e4]; exact hl, by rw [e2]; exact lists_set hm e3 v, fun p hp => ?_⟩, (tag_valid id hid).1⟩
        rcases List.mem_or_eq_of_mem_set hp with h | h
        · exact hvs p h
        · rw [h]; exact hv
      | none =>
        simp only [Option.isSome_none, Bool.false_eq_true, if_false]
        split
        · rename_i hlt
          have hf2 : (findTag (infoOf (l.map (·.1))) id).2 = false := by rw [f1, hx]; rfl
          have hf1 : (findTag (infoOf (l.map (·.1))) id).1 = k := by rw [f1]
          have hb := bits_insert _ hl id hid (by rw [List.length_map]; exact hlt) hf2
          have hi := ids_insert _ hl id hid (by rw [List.length_map]; exact hlt) hf2
          rw [hf1, List.length_map] at hb
          rw [hf1] at hi
          obtain ⟨d', q1, d'', q2, q3⟩ := insert_encode hlt f2 id v
          rw [q1, Option.bind_some, q2, Option.bind_some, hb, q3]
          refine .inl ⟨_, rfl, ⟨_, rfl, ?_, ?_, fun p hp => ?_⟩, (tag_valid id hid).1⟩
          · rw [List.map_append, List.map_cons, List.map_take, List.map_drop]
            exact hi
          · rw [toItems_insert]
            exact lists_insert hm f4 (f5 hx) v
          · rw [List.mem_append, List.mem_cons] at hp
            rcases hp with hp | hp | hp
            · exact hvs p (List.mem_of_mem_take hp)
            · rw [hp]; exact hv
            · exact hvs p (List.mem_of_mem_drop hp)
        · exact .inr (.inr rfl)
    · simp only [e, Option.bind_eq_bind, Option.bind_some]
      rw [if_neg (by simp)]
      split
      · rename_i hval
        exact .inr (.inl ⟨rfl, hval⟩)
      · exact .inr (.inr rfl)
  · exact .inr (.inr rfl)

theorem remove_law (d : Words) (m : Map F32) (t : UInt32) (h : okS d m) : ∃ d', removeSso d t = some d' ∧ okS d' (put m t none) := by
  obtain ⟨l, rfl, hl, hm, hvs⟩ := h
  have hlen := len_encode hl
  obtain ⟨i1, i2, i3⟩ := encode_nth l hlen
  rw [removeSso]
  rcases toId_cases t with ⟨id, hid, e, rfl, hne⟩ | ⟨e, hno⟩
  · simp only [e, Option.bind_eq_bind, Option.bind_some, i1, ssoSize_encode hl]
    rw [if_neg hne]
    obtain ⟨k, f1, f2, f3, f4, f5⟩ := find_encode hl hm hid
    rw [f1]
    simp only
    cases hx : m (tagAt id) with
    | some x =>
      simp only [Option.isSome_some, if_true]
      have hk := f3 x hx
      have hlt := (List.getElem?_eq_some_iff.1 hk).1
      have hf2 : (findTag (infoOf (l.map (·.1))) id).2 = true := by rw [f1, hx]; rfl
      have hf1 : (findTag (infoOf (l.map (·.1))) id).1 = k := by rw [f1]
      have hb := bits_remove _ hl id hid hf2
      rw [hf1, List.length_map] at hb
      obtain ⟨d', q1, d'', q2, q3⟩ := remove_encode hlen hlt
      rw [q1, Option.bind_some, q2, Option.bind_some, hb, q3]
      have e3 : (toItems l)[k]? = some (tagAt id, x) := by rw [toItems, List.getElem?_map, hk]; rfl
      refine ⟨_, rfl, _, rfl, ?_, ?_, fun p hp => hvs p (List.mem_of_mem_eraseIdx hp)⟩
      · rw [map_eraseIdx']
        exact ids_erase _ hl k (by omega)
      · rw [toItems, map_eraseIdx']
        exact lists_erase hm e3
    | none =>
      simp only [Option.isSome_none, Bool.false_eq_true, if_false]
      exact ⟨_, rfl, l, rfl, hl, by rw [put_none hx]; exact hm, hvs⟩
  · simp only [e, Option.bind_eq_bind, Option.bind_some, if_true]
    exact ⟨_, rfl, l, rfl, hl, by rw [put_none (not_known hl hm hno)]; exact hm, hvs⟩

/-! ### Packing items -/

theorem packLoop_ok (l : List (Item F32)) : ∀ (i : Nat) (bits : UInt32) (pre : List F32) (tl : List UInt32) (info : UInt32),
    pre.length = i → i + l.length = 3 - tl.length → tl.length ≤ 3 →
    (∃ ids : List (UInt32 × F32), toItems ids = l ∧ (∀ p ∈ ids, p.1 ∈ fiveIds) ∧
      packLoop l i bits (pre ++ List.replicate (l.length) 0 ++ tl ++ [info]) =
        some (some (pre ++ ids.map (fun p => p.2) ++ tl ++ [info ||| idBits (ids.map (fun p => p.1)) i bits]))) ∨
    packLoop l i bits (pre ++ List.replicate (l.length) 0 ++ tl ++ [info]) = some none := by
  induction l with
  | nil =>
    intro i bits pre tl info h1 h2 h3
    refine .inl ⟨[], rfl, by simp, ?_⟩
    have hlen : (pre ++ tl).length = 3 := by simp at h2 ⊢; omega
    simp only [packLoop, List.length_nil, List.replicate_zero, List.append_nil, List.map_nil, idBits]
    have e1 : (pre ++ tl ++ [info]).getD 3 0 = info := by
      rw [List.getD_eq_getElem?_getD, List.getElem?_append_right (by omega), hlen]; rfl
    rw [e1, List.set_append_right _ _ (by omega), hlen]
    rfl
  | cons x l ih =>
    obtain ⟨tag, v⟩ := x
    intro i bits pre tl info h1 h2 h3
    rw [packLoop]
    rcases toId_cases tag with ⟨id, hid, e, rfl, hne⟩ | ⟨e, hno⟩
    · simp only [e, Option.bind_eq_bind, Option.bind_some]
      rw [if_neg hne]
      have e1 : write (pre ++ List.replicate ((tagAt id, v) :: l).length 0 ++ tl ++ [info]) i v =
          some ((pre ++ [v]) ++ List.replicate l.length 0 ++ tl ++ [info]) := by
        rw [write, if_pos (by simp at h2 ⊢; omega)]
        congr 1
        rw [List.length_cons, List.replicate_succ]
        simp only [List.append_assoc, List.cons_append]
        rw [List.set_append_right _ _ (by omega), h1, Nat.sub_self]
        rfl
      rw [e1, Option.bind_some]
      rcases ih (i + 1) (bits ||| (id <<< UInt32.ofNat (5 * i))) (pre ++ [v]) tl info (by simp [h1]) (by simp at h2 ⊢; omega) h3 with
        ⟨ids, q1, q2, q3⟩ | q
      · refine .inl ⟨(id, v) :: ids, by rw [← q1]; rfl, ?_, ?_⟩
        · intro p hp
          rcases List.mem_cons.1 hp with rfl | hp
          · exact hid
          · exact q2 p hp
        · rw [q3]
          simp [idBits]
      · exact .inr q
    · refine .inr ?_
      simp only [e, Option.bind_eq_bind, Option.bind_some, if_true]

theorem pack_ok (l : List (Item F32)) (m : Map F32) (hm : Lists l m) (hv : AllV okV m) (hl : l.length ≤ 3) :
    ∃ o, pack l = some o ∧ ∀ d, o = some d → okS d m := by
  have e0 : initSso l.length = ([] : List UInt32) ++ List.replicate l.length (0 : UInt32) ++ List.replicate (3 - l.length) (0 : UInt32) ++
      [marker ||| (UInt32.ofNat l.length <<< 16)] := by
    rw [List.nil_append, List.replicate_append_replicate, Nat.add_sub_cancel' hl]
    rfl
  rw [pack, e0]
  rcases packLoop_ok l 0 0 [] (List.replicate (3 - l.length) 0) (marker ||| (UInt32.ofNat l.length <<< 16)) rfl (by simp; omega) (by simp) with
    ⟨ids, q1, q2, q3⟩ | q
  · refine ⟨_, q3, fun d hd => ?_⟩
    have hlen : ids.length = l.length := by rw [← q1, toItems, List.length_map]
    have hsort : (ids.map (·.1)).Pairwise (· < ·) := by
      rw [List.pairwise_map]
      have h1 := hm.1
      rw [← q1, toItems, List.pairwise_map] at h1
      refine List.Pairwise.imp_of_mem (fun {a b} ha hb hab => ?_) h1
      exact (tag_mono _ (q2 a ha) _ (q2 b hb)).1 hab
    have hlt5 : ∀ x ∈ fiveIds, x < 5 := by decide
    have hids : ids.map (·.1) ∈ allIds := ids_cases hsort (by rw [List.length_map]; omega) (fun x hx => by
      obtain ⟨p, hp, e⟩ := List.mem_map.1 hx
      rw [← e]
      exact hlt5 _ (q2 p hp))
    refine ⟨ids, ?_, hids, by rw [q1]; exact hm, fun p hp => ?_⟩
    · rw [← Option.some.inj hd]
      have e1 : (marker ||| (UInt32.ofNat l.length <<< 16)) ||| idBits (ids.map (fun p => p.1)) 0 0 = infoOf (ids.map (fun p => p.1)) := by
        unfold infoOf
        rw [List.length_map, hlen]
      rw [e1, encode, List.nil_append]
      congr 1
      rw [List.take_append, List.length_map, List.take_of_length_le (by rw [List.length_map]; omega), hlen]
      congr 1
      have : ∀ n ≤ 3, List.replicate (3 - n) (0 : UInt32) = List.take (3 - n) [0, 0, 0] := by decide
      exact this _ hl
    · exact hv (tagAt p.1) p.2 ((hm.2 _ _).2 (by rw [← q1]; exact List.mem_map.2 ⟨p, hp, rfl⟩))
  · exact ⟨none, q, fun d hd => by simp at hd⟩

/-! ### Floats -/

theorem key_inj {a b : F32} (ha : okV a) (hb : okV b) (h : key a = key b) : a = b := by
  apply UInt32.toNat_inj.1
  have h1 : a.toNat ≠ 2 ^ 31 := fun hc => ha (UInt32.toNat_inj.1 (by rw [hc]; rfl))
  have h2 : b.toNat ≠ 2 ^ 31 := fun hc => hb (UInt32.toNat_inj.1 (by rw [hc]; rfl))
  unfold key at h
  split at h <;> split at h <;> omega

theorem feq_eq {a b : F32} (ha : okV a) (hb : okV b) (h : feq a b = true) : a = b := by
  simp only [feq, Bool.and_eq_true, decide_eq_true_eq] at h
  exact key_inj ha hb h.2

theorem feq_self {a : F32} (ha : okE a) : feq a a = true := by
  simp only [okE] at ha
  simp [feq, ha]

/-- Shifting by five bits, `k` times. -/
def shr : Nat → UInt32 → UInt32
  | 0, b => b
  | k + 1, b => shr k (b >>> 5)

theorem eqLoop_ok (l : List (Item F32)) (tags : List UInt32) (d : Words) (vals : List F32) : ∀ (n i : Nat) (bits : UInt32),
    (∀ k < n, ∃ t v v' , tags[i + k]? = some t ∧ d[i + k]? = some v ∧ variationTags[(shr k bits &&& 31).toNat]? = some t ∧
      vals[i + k]? = some v ∧ l[i + k]? = some v') →
    ∃ b, eqLoop d n i bits l = some b ∧
      (b = true ↔ ∀ k < n, ∃ t v x, tags[i + k]? = some t ∧ vals[i + k]? = some v ∧ l[i + k]? = some (t, x) ∧ feq x v = true) := by
  intro n
  induction n with
  | zero =>
    intro i bits _
    exact ⟨true, rfl, by simp⟩
  | succ n ih =>
    intro i bits h
    obtain ⟨t, v, it, h1, h2, h3, h4, h5⟩ := h 0 (by omega)
    simp only [Nat.add_zero, shr] at h1 h2 h3 h4 h5
    simp only [eqLoop, h2, h3, h5, Option.bind_eq_bind, Option.bind_some]
    split
    · rename_i hc
      refine ⟨false, rfl, by simp, fun hall => ?_⟩
      exfalso
      obtain ⟨t', v', x, a1, a2, a3, a4⟩ := hall 0 (by omega)
      simp only [Nat.add_zero] at a1 a2 a3
      rw [h1] at a1
      rw [h4] at a2
      rw [h5] at a3
      rw [Option.some.inj a3] at hc
      rw [← Option.some.inj a2] at a4
      rcases hc with hc | hc
      · exact hc (Option.some.inj a1).symm
      · simp only at hc
        rw [a4] at hc
        simp at hc
    · rename_i hc
      have hc1 : it.1 = t := by
        by_cases hh : it.1 = t
        · exact hh
        · exact absurd (.inl hh) hc
      have hc2 : feq it.2 v = true := by
        cases hh : feq it.2 v with
        | true => rfl
        | false => exact absurd (.inr hh) hc
      obtain ⟨b, e, hb⟩ := ih (i + 1) (bits >>> 5) (fun k hk => by
        obtain ⟨t', v', it', h1', h2', h3', h4', h5'⟩ := h (k + 1) (by omega)
        have : i + (k + 1) = i + 1 + k := by omega
        rw [this] at h1' h2' h4' h5'
        exact ⟨t', v', it', h1', h2', h3', h4', h5'⟩)
      refine ⟨b, e, ?_⟩
      rw [hb]
      constructor
      · intro hall k hk
        cases k with
        | zero => exact ⟨t, v, it.2, h1, h4, by rw [← hc1]; exact h5, hc2⟩
        | succ k =>
          have := hall k (by omega)
          have e2 : i + (k + 1) = i + 1 + k := by omega
          rw [e2]
          exact this
      · intro hall k hk
        have := hall (k + 1) (by omega)
        have e2 : i + (k + 1) = i + 1 + k := by omega
        rw [e2] at this
        exact this

theorem bits_tags' {l : List (UInt32 × F32)} (h : l.map (·.1) ∈ allIds) (k : Nat) (hk : k < l.length) :
    variationTags[(shr k (infoOf (l.map (·.1))) &&& 31).toNat]? = some (tagAt (l[k]).1) := by
  have hl := len_encode h
  obtain ⟨t0, t1, t2⟩ := bits_tags _ h
  have hg : ∀ j (hj : j < l.length), (l.map (·.1))[j]? = some (l[j]).1 := fun j hj => by
    rw [List.getElem?_map, List.getElem?_eq_getElem hj]; rfl
  match k with
  | 0 =>
    rw [hg 0 hk, Option.all_some, decide_eq_true_eq] at t0
    exact t0
  | 1 =>
    rw [hg 1 hk, Option.all_some, decide_eq_true_eq] at t1
    exact t1
  | 2 =>
    rw [hg 2 hk, Option.all_some, decide_eq_true_eq] at t2
    exact t2
  | k + 3 => omega

theorem eq_law (d : Words) (m : Map F32) (l : List (Item F32)) (m' : Map F32) (h : okS d m) (hl : Lists l m') (hv : AllV okV m')
    (hsz : l.length = ssoSize d) : ∃ b, kind.eqItems d l = some b ∧ (b = true → m = m') ∧ (AllV okE m → m = m' → b = true) := by
  obtain ⟨x, rfl, hx, hm, hvs⟩ := h
  have hlen := len_encode hx
  obtain ⟨i1, i2, i3⟩ := encode_nth x hlen
  rw [ssoSize_encode hx] at hsz
  have hti : (toItems x).length = x.length := by rw [toItems, List.length_map]
  obtain ⟨b, e, hb⟩ := eqLoop_ok l ((toItems x).map (·.1)) (encode x) (x.map (·.2)) x.length 0 (infoOf (x.map (·.1))) (fun k hk => by
    refine ⟨tagAt (x[k]).1, (x[k]).2, l[k]'(by omega), ?_, ?_, bits_tags' hx k hk, ?_, ?_⟩
    · rw [Nat.zero_add, List.getElem?_map, toItems, List.getElem?_map, List.getElem?_eq_getElem hk]; rfl
    · rw [Nat.zero_add, i3 k hk, List.getElem?_eq_getElem hk]; rfl
    · rw [Nat.zero_add, List.getElem?_map, List.getElem?_eq_getElem hk]; rfl
    · rw [Nat.zero_add, List.getElem?_eq_getElem])
  refine ⟨b, ?_, ?_, ?_⟩
  · simp only [kind, ssoSize_encode hx, i1]
    exact e
  · intro hbt
    have hall := hb.1 hbt
    have : toItems x = l := by
      apply List.ext_getElem (by omega)
      intro k h1 h2
      obtain ⟨t, v, y, a1, a2, a3, a4⟩ := hall k (by omega)
      rw [Nat.zero_add] at a1 a2 a3
      have hk : k < x.length := by omega
      rw [List.getElem?_map, toItems, List.getElem?_map, List.getElem?_eq_getElem hk] at a1
      rw [List.getElem?_map, List.getElem?_eq_getElem hk] at a2
      rw [List.getElem?_eq_getElem h2] at a3
      have e1 : t = tagAt (x[k]).1 := (Option.some.inj a1).symm
      have e2 : v = (x[k]).2 := (Option.some.inj a2).symm
      have e3 := Option.some.inj a3
      have hy : okV y := hv t y ((hl.2 t y).2 (by rw [← e3]; exact List.getElem_mem h2))
      have hvv : okV v := by rw [e2]; exact hvs _ (List.getElem_mem hk)
      rw [e3, ← feq_eq hvv hy (by
        have := a4
        simp only [feq, Bool.and_eq_true, decide_eq_true_eq] at this ⊢
        exact ⟨⟨this.1.2, this.1.1⟩, this.2.symm⟩), e1, e2]
      simp [toItems]
    rw [← this] at hl
    exact lists_map hm hl
  · intro hE hmm
    subst hmm
    have hu := lists_unique hm hl
    refine hb.2 (fun k hk => ?_)
    refine ⟨tagAt (x[k]).1, (x[k]).2, (x[k]).2, ?_, ?_, ?_, ?_⟩
    · rw [Nat.zero_add, List.getElem?_map, toItems, List.getElem?_map, List.getElem?_eq_getElem hk]; rfl
    · rw [Nat.zero_add, List.getElem?_map, List.getElem?_eq_getElem hk]; rfl
    · rw [Nat.zero_add, ← hu, toItems, List.getElem?_map, List.getElem?_eq_getElem hk]; rfl
    · exact feq_self (hE (tagAt (x[k]).1) (x[k]).2 ((hm.2 _ _).2 (List.mem_map.2 ⟨x[k], List.getElem_mem hk, rfl⟩)))

theorem toItems_inj {l l' : List (UInt32 × F32)} (h : l.map (·.1) ∈ allIds) (h' : l'.map (·.1) ∈ allIds) (e : toItems l = toItems l') : l = l' := by
  have h5 : ∀ ids ∈ allIds, ∀ x ∈ ids, x ∈ fiveIds := by decide
  have inj : ∀ a ∈ fiveIds, ∀ b ∈ fiveIds, tagAt a = tagAt b → a = b := by decide +kernel
  have hlen : l.length = l'.length := by
    have := congrArg List.length e
    simpa [toItems] using this
  apply List.ext_getElem hlen
  intro k h1 h2
  have e1 : (toItems l)[k]'(by rw [toItems, List.length_map]; exact h1) = (toItems l')[k]'(by rw [toItems, List.length_map]; exact h2) := by
    simp only [e]
  simp only [toItems, List.getElem_map, Prod.mk.injEq] at e1
  apply Prod.ext
  · exact inj _ (h5 _ h _ (List.mem_map_of_mem (List.getElem_mem h1))) _ (h5 _ h' _ (List.mem_map_of_mem (List.getElem_mem h2))) e1.1
  · exact e1.2

/-- The packing obeys the laws, without conditions. -/
theorem law : Law kind okV okE okS (fun _ _ => True) (fun _ _ _ => True) (fun _ _ => True) where
  empty := ⟨[], by unfold encode infoOf; rfl, by decide, lists_nil, by simp⟩
  vals := fun d m ⟨l, _, _, hm, hv⟩ => okV_vals hm hv
  items := fun d m ⟨l, hd, hl, hm, hv⟩ => by
    subst hd
    exact ⟨toItems l, items_encode hl, by rw [toItems, List.length_map]; exact (ssoSize_encode hl).symm, hm⟩
  size := fun d m ⟨l, hd, hl, hm, hv⟩ => by
    subst hd
    show ssoSize (encode l) ≤ 3
    rw [ssoSize_encode hl]
    exact len_encode hl
  has := fun d m t ⟨l, hd, hl, hm, hv⟩ _ => by
    subst hd
    show hasSso (encode l) t = _
    rw [hasSso, (encode_nth l (len_encode hl)).1]
    rcases toId_cases t with ⟨id, hid, e, rfl, hne⟩ | ⟨e, hno⟩
    · obtain ⟨k, f1, _⟩ := find_encode hl hm hid
      simp only [e, Option.bind_eq_bind, Option.bind_some, f1]
      rw [if_neg hne]
    · simp only [e, Option.bind_eq_bind, Option.bind_some, if_true, not_known hl hm hno]
      rfl
  get := fun d m t ⟨l, hd, hl, hm, hv⟩ => by
    subst hd
    show getSso (encode l) t = _
    obtain ⟨i1, _, i3⟩ := encode_nth l (len_encode hl)
    rw [getSso, i1]
    rcases toId_cases t with ⟨id, hid, e, rfl, hne⟩ | ⟨e, hno⟩
    · obtain ⟨k, f1, _, f3, _⟩ := find_encode hl hm hid
      simp only [e, Option.bind_eq_bind, Option.bind_some, f1]
      rw [if_neg hne]
      cases hx : m (tagAt id) with
      | none => rfl
      | some x =>
        have hk := f3 x hx
        simp only [Option.isSome_some, if_true]
        rw [i3 k (List.getElem?_eq_some_iff.1 hk).1, hk]
        rfl
    · simp only [e, Option.bind_eq_bind, Option.bind_some, if_true, not_known hl hm hno]
      rfl
  set := fun d m t v h hv _ _ => set_law d m t v h hv
  remove := fun d m t h _ => remove_law d m t h
  pack := fun l m hm hv hl => pack_ok l m hm hv hl
  eqS := fun d d' m ⟨l, hd, hl, hm, _⟩ ⟨l', hd', hl', hm', _⟩ => by
    rw [hd, hd', toItems_inj hl hl' (lists_unique hm hm')]
  eqItems := fun d m l m' h hl hv hsz => eq_law d m l m' h hl hv hsz
  same := fun a b ha hb h => feq_eq ha hb h
  valid := fun d m t ⟨l, _, hl, hm, _⟩ hne => by
    rcases toId_cases t with ⟨id, hid, e, rfl, _⟩ | ⟨e, hno⟩
    · exact (tag_valid id hid).1
    · exact absurd (not_known hl hm hno) hne

end Blend2D.Variation
