import Verif.Feature.Items
import Mathlib.Data.List.Perm.Subperm
/-! # Putting items into an instance -/
namespace Blend2D.Feature
open Blend2D.FontTag (isValidTag featureTags featureToId kInvalidId)
open Blend2D.Settings
open Blend2D.Settings.Spec (Map Lists nothing put)

theorem orBit_encode (A : Abs) (n b : Nat) (v : UInt32) :
    ({ encode A n with d0 := (encode A n).d0 ||| ((1 : UInt32) <<< UInt32.ofNat b), d1 := (encode A n).d1 ||| (v <<< UInt32.ofNat b) } : Words) =
      encode ⟨A.b0 ||| ((1 : UInt32) <<< UInt32.ofNat b), A.b1 ||| (v <<< UInt32.ofNat b), A.fat⟩ n := rfl

attribute [local irreducible] encode featureToId

theorem bits_or {A : Abs} (hA : Good A) {b : Nat} (hb : b < 32) (hn : bitAt A.b0 b = false) (c : Bool) :
    Good ⟨A.b0 ||| ((1 : UInt32) <<< UInt32.ofNat b), A.b1 ||| (bit c <<< UInt32.ofNat b), A.fat⟩ ∧
    Abs.size ⟨A.b0 ||| ((1 : UInt32) <<< UInt32.ofNat b), A.b1 ||| (bit c <<< UInt32.ofNat b), A.fat⟩ = A.size + 1 ∧
    mapOf ⟨A.b0 ||| ((1 : UInt32) <<< UInt32.ofNat b), A.b1 ||| (bit c <<< UInt32.ofNat b), A.fat⟩ =
      put (mapOf A) (tagAt (bitFeat b)) (some (bit c)) := by
  have e0 : ∀ k, bitAt (A.b0 ||| ((1 : UInt32) <<< UInt32.ofNat b)) k = (bitAt A.b0 k || decide (k = b)) := fun k => by
    rw [bitAt_or, bitAt_oneShl hb]
  have e1 : ∀ k, bitAt (A.b1 ||| (bit c <<< UInt32.ofNat b)) k = (bitAt A.b1 k || (c && decide (k = b))) := fun k => by
    rw [bitAt_or, bitAt_bitShl _ hb]
  have hn1 : bitAt A.b1 b = false := by
    cases h1 : bitAt A.b1 b with
    | false => rfl
    | true => have := hA.sub b h1; rw [hn] at this; simp at this
  have hc : count (A.b0 ||| ((1 : UInt32) <<< UInt32.ofNat b)) = count A.b0 + 1 :=
    count_add hb hn (by rw [e0]; simp) (fun k hk => by rw [e0]; simp [hk])
  refine ⟨⟨fun j hj => ?_, hA.fat, hA.len⟩, ?_, ?_⟩
  · dsimp only at hj ⊢
    rw [e1] at hj
    rw [e0]
    by_cases hjb : j = b
    · simp [hjb]
    · simp [hjb] at hj ⊢
      exact hA.sub j hj
  · simp only [Abs.size, hc]; omega
  · refine mapOf_put (bitFeat_facts b hb).2.1 fun x _ => look_bit hb (fun k hk => ?_) (fun k hk => ?_) ?_ x
    · rw [e0]; simp [hk]
    · rw [e1]; simp [hk]
    · rw [e0, e1, hn1]; simp

/-- The result of packing `l` on top of `A`. -/
structure Packed (A : Abs) (l : List (Item UInt32)) (A' : Abs) : Prop where
  good : Good A'
  size : A'.size = A.size + l.length
  map : ∀ t v, mapOf A' t = some v ↔ mapOf A t = some v ∨ (t, v) ∈ l

theorem put_cons {A A1 : Abs} {t v : UInt32} {l : List (Item UInt32)} {A' : Abs} (hnew : mapOf A t = none)
    (hm : mapOf A1 = put (mapOf A) t (some v)) (hs : A1.size = A.size + 1) (h : Packed A1 l A') : Packed A ((t, v) :: l) A' := by
  refine ⟨h.good, by rw [h.size, hs, List.length_cons]; omega, fun u w => ?_⟩
  rw [h.map, hm, put, List.mem_cons]
  by_cases hu : u = t
  · subst hu
    rw [if_pos rfl, hnew]
    constructor
    · rintro (hw | hw)
      · exact .inr (.inl (by rw [Option.some.inj hw]))
      · exact .inr (.inr hw)
    · rintro (hw | hw | hw)
      · simp at hw
      · rw [Prod.mk.injEq] at hw
        exact .inl (by rw [hw.2])
      · exact .inr hw
  · rw [if_neg hu]
    constructor
    · rintro (hw | hw)
      · exact .inl hw
      · exact .inr (.inr hw)
    · rintro (hw | hw | hw)
      · exact .inl hw
      · rw [Prod.mk.injEq] at hw
        exact absurd hw.1 hu
      · exact .inr hw

theorem packLoop_ok (n : Nat) (hn : n ≤ 63) : ∀ (l : List (Item UInt32)) (A : Abs), Good A → l.Pairwise (fun a b => a.1 < b.1) →
    (∀ t v, mapOf A t = some v → ∀ p ∈ l, t < p.1) →
    ∃ o, packLoop l A.fat.length (encode A n) = some o ∧
      (∀ s, o = some s → ∃ A', Packed A l A' ∧ s = encode A' n) ∧
      (∀ B, Good B → (∀ t v, (mapOf A t = some v ∨ (t, v) ∈ l) → mapOf B t = some v) → o ≠ none) := by
  intro l
  induction l with
  | nil =>
    intro A hA _ _
    refine ⟨some (encode A n), rfl, fun s hs => ⟨A, ⟨hA, rfl, by simp⟩, (Option.some.inj hs).symm⟩, by simp⟩
  | cons p l ih =>
    obtain ⟨t, v⟩ := p
    intro A hA hsort hbelow
    rw [List.pairwise_cons] at hsort
    have hnew : mapOf A t = none := by
      cases h : mapOf A t with
      | none => rfl
      | some w =>
        have := hbelow t w h (t, v) List.mem_cons_self
        rw [UInt32.lt_iff_toNat_lt] at this
        dsimp only at this
        omega
    rcases toId_cases t with ⟨x, hx, hid, e, hne⟩ | ⟨h1, h2⟩
    · have below1 : ∀ A1 : Abs, mapOf A1 = put (mapOf A) t (some v) → ∀ u w, mapOf A1 u = some w → ∀ q ∈ l, u < q.1 := by
        intro A1 hm u w hu q hq
        rw [hm, put] at hu
        by_cases hut : u = t
        · rw [hut]; exact hsort.1 q hq
        · rw [if_neg hut] at hu
          exact hbelow u w hu q (List.mem_cons_of_mem _ hq)
      have ext1 : ∀ A1 : Abs, mapOf A1 = put (mapOf A) t (some v) → ∀ B : Abs,
          (∀ u w, (mapOf A u = some w ∨ (u, w) ∈ (t, v) :: l) → mapOf B u = some w) →
          ∀ u w, (mapOf A1 u = some w ∨ (u, w) ∈ l) → mapOf B u = some w := by
        intro A1 hm B hB u w hu
        rcases hu with hu | hu
        · rw [hm, put] at hu
          by_cases hut : u = t
          · rw [if_pos hut] at hu
            refine hB u w (.inr ?_)
            rw [hut, ← Option.some.inj hu]
            exact List.mem_cons_self
          · rw [if_neg hut] at hu
            exact hB u w (.inl hu)
        · exact hB u w (.inr (List.mem_cons_of_mem _ hu))
      have htx : mapOf A t = look A x := by rw [e, mapOf_tagAt _ hx]
      by_cases h63 : bitId x = 63
      · rw [htx, look, if_pos h63] at hnew
        by_cases hbig : v > 15 ∨ A.fat.length ≥ 4
        · refine ⟨none, ?_, by simp, ?_⟩
          · simp only [packLoop, hid, Option.bind_eq_bind, Option.bind_some, hne, if_false, h63, ne_eq, not_true_eq_false, if_pos hbig]
          · intro B hB hext _
            have hBx : lookFat B.fat x = some v := by
              have := hext t v (.inr List.mem_cons_self)
              rwa [e, mapOf_tagAt _ hx, look, if_pos h63] at this
            have hmem := (lookFat_iff hB.fat.sorted x v).1 hBx
            rcases hbig with hbig | hbig
            · have := (hB.fat.range _ hmem).2.2
              rw [gt_iff_lt, UInt32.lt_iff_toNat_lt] at hbig
              have e15 : (15 : UInt32).toNat = 15 := rfl
              dsimp only at this
              omega
            · have hsub : (x, v) :: A.fat ⊆ B.fat := by
                intro q hq
                rcases List.mem_cons.1 hq with rfl | hq
                · exact hmem
                · obtain ⟨y, w⟩ := q
                  have hr := hA.fat.range _ hq
                  have := hext (tagAt y) w (.inl (by
                    rw [mapOf_tagAt _ hr.1, look, if_pos hr.2.1]; exact (lookFat_iff hA.fat.sorted y w).2 hq))
                  rw [mapOf_tagAt _ hr.1, look, if_pos hr.2.1] at this
                  exact (lookFat_iff hB.fat.sorted y w).1 this
              have hnd : ((x, v) :: A.fat).Nodup := by
                rw [List.nodup_cons]
                refine ⟨fun hc => ?_, hA.fat.sorted.imp fun {a b} hab hc => ?_⟩
                · rw [(lookFat_iff hA.fat.sorted x v).2 hc] at hnew
                  simp at hnew
                · rw [hc, UInt32.lt_iff_toNat_lt] at hab
                  omega
              have := (List.Nodup.subperm hnd hsub).length_le
              have hl := hB.len
              simp at this
              omega
        · have hv16 : v.toNat < 16 := by
            have : ¬ v > 15 := fun hc => hbig (.inl hc)
            rw [gt_iff_lt, UInt32.lt_iff_toNat_lt] at this
            have e15 : (15 : UInt32).toNat = 15 := rfl
            omega
          have hl4 : A.fat.length < 4 := by omega
          have hmax : ∀ q ∈ A.fat, q.1 < x := by
            rintro ⟨y, w⟩ hq
            have hr := hA.fat.range _ hq
            have h1 : mapOf A (tagAt y) = some w := by
              rw [mapOf_tagAt _ hr.1, look, if_pos hr.2.1]; exact (lookFat_iff hA.fat.sorted y w).2 hq
            have h2 := hbelow _ _ h1 (t, v) List.mem_cons_self
            dsimp only at h2 hr ⊢
            rw [e] at h2
            rw [UInt32.lt_iff_toNat_lt] at *
            rcases Nat.lt_or_ge y.toNat x.toNat with h3 | h3
            · exact h3
            · rcases Nat.eq_or_lt_of_le h3 with h4 | h4
              · rw [UInt32.toNat_inj.1 h4] at h2
                omega
              · have := tagAt_lt hr.1 (a := x) (UInt32.lt_iff_toNat_lt.2 h4)
                rw [UInt32.lt_iff_toNat_lt] at this
                omega
          have hL := lists_insert (lists_fat hA.fat) (k := A.fat.length) (tag := x)
            (fun p hp _ => hmax _ (List.getElem_mem hp)) (fun p hp hpk => by omega) v
          rw [List.take_length, List.drop_length] at hL
          have hg : Good ⟨A.b0, A.b1, A.fat ++ [(x, v)]⟩ := by
            refine ⟨hA.sub, fatOk_put hA.fat h63 hx (fun w hw => Option.some.inj hw ▸ hv16) hL, ?_⟩
            simp; omega
          have hm : mapOf ⟨A.b0, A.b1, A.fat ++ [(x, v)]⟩ = put (mapOf A) t (some v) := by
            rw [e]
            exact mapOf_put hx fun y _ => look_fat h63 (lookFat_of hL) y
          have he := append_encode hA hn hl4 hx hv16 hg
          obtain ⟨o, eo, ho1, ho2⟩ := ih _ hg hsort.2 (below1 _ hm)
          refine ⟨o, ?_, fun s hs => ?_, fun B hB hext => ho2 B hB (ext1 _ hm B hext)⟩
          · simp only [packLoop, hid, Option.bind_eq_bind, Option.bind_some, hne, if_false, h63, ne_eq, not_true_eq_false, if_neg hbig]
            rw [he, ← eo]
            simp
          · obtain ⟨A', hp, hs'⟩ := ho1 s hs
            refine ⟨A', put_cons (by rw [htx, look, if_pos h63]; exact hnew) hm ?_ hp, hs'⟩
            simp [Abs.size]; omega
      · obtain ⟨hb, hbf⟩ := bitFeat_bitId h63
        rw [htx, look, if_neg h63] at hnew
        have hbit : bitAt A.b0 (bitId x) = false := by
          cases hh : bitAt A.b0 (bitId x) with
          | false => rfl
          | true => rw [hh] at hnew; simp at hnew
        by_cases hbig : v > 1
        · refine ⟨none, ?_, by simp, ?_⟩
          · simp only [packLoop, hid, Option.bind_eq_bind, Option.bind_some, hne, if_false, h63, ne_eq, not_false_eq_true, if_true, if_pos hbig]
          · intro B hB hext _
            have := hext t v (.inr List.mem_cons_self)
            rw [e, mapOf_tagAt _ hx, look, if_neg h63] at this
            by_cases hh : bitAt B.b0 (bitId x) = true
            · rw [if_pos hh] at this
              rw [← Option.some.inj this] at hbig
              revert hbig
              cases bitAt B.b1 (bitId x) <;> decide
            · rw [if_neg hh] at this
              simp at this
        · obtain ⟨c, rfl⟩ := bit_of_le hbig
          obtain ⟨hg, hsz, hm⟩ := bits_or hA hb hbit c
          rw [hbf, ← e] at hm
          obtain ⟨o, eo, ho1, ho2⟩ := ih _ hg hsort.2 (below1 _ hm)
          refine ⟨o, ?_, fun s hs => ?_, fun B hB hext => ho2 B hB (ext1 _ hm B hext)⟩
          · simp only [packLoop, hid, Option.bind_eq_bind, Option.bind_some, hne, if_false, h63, ne_eq, not_false_eq_true, if_true, if_neg hbig]
            rw [orBit_encode, ← eo]
          · obtain ⟨A', hp, hs'⟩ := ho1 s hs
            exact ⟨A', put_cons (by rw [htx, look, if_neg h63, hbit]; simp) hm hsz hp, hs'⟩
    · refine ⟨none, ?_, by simp, ?_⟩
      · simp only [packLoop, h1, Option.bind_eq_bind, Option.bind_some, if_true]
      · intro B hB hext _
        have := hext t v (.inr List.mem_cons_self)
        rw [mapOf_unknown _ h1] at this
        simp at this

theorem good_empty : Good ⟨0, 0, []⟩ :=
  ⟨fun j hj => by dsimp only at hj; rw [bitAt_zero] at hj; simp at hj, ⟨List.Pairwise.nil, by simp⟩, by simp⟩

theorem map_empty : mapOf ⟨0, 0, []⟩ = nothing := by
  funext t
  rcases toId_cases t with ⟨x, hx, _, e, _⟩ | ⟨h1, h2⟩
  · rw [e, mapOf_tagAt _ hx, look]
    simp [lookFat, nothing, bitAt_zero]
  · rw [mapOf_unknown _ h1, nothing]

theorem size_empty : Abs.size ⟨0, 0, []⟩ = 0 := by decide +kernel

theorem pack_full {l : List (Item UInt32)} {m : Map UInt32} (hl : Lists l m) (h36 : l.length ≤ 36) :
    ∃ o, pack l = some o ∧ (∀ s, o = some s → okS s m) ∧ (∀ B, Good B → m = mapOf B → o ≠ none) := by
  obtain ⟨o, eo, h1, h2⟩ := packLoop_ok l.length (by omega) l ⟨0, 0, []⟩ good_empty hl.1 (fun t v h => by rw [map_empty] at h; simp [nothing] at h)
  refine ⟨o, ?_, fun s hs => ?_, fun B hB hm => h2 B hB fun t v h => ?_⟩
  · rw [pack, init_encode _ (by omega)]
    exact eo
  · obtain ⟨A', hp, rfl⟩ := h1 s hs
    have hsz := hp.size
    rw [size_empty, Nat.zero_add] at hsz
    refine ⟨A', hp.good, by rw [hsz], ?_⟩
    have hmap : Lists l (mapOf A') := ⟨hl.1, fun t v => by rw [hp.map, map_empty]; simp [nothing]⟩
    exact lists_map hl hmap
  · rcases h with h | h
    · rw [map_empty] at h; simp [nothing] at h
    · rw [← hm]; exact (hl.2 t v).2 h

theorem eq_ok {s s' : Words} {m : Map UInt32} (h : okS s m) (h' : okS s' m) : s = s' := by
  obtain ⟨A, hA, rfl, rfl⟩ := h
  obtain ⟨B, hB, rfl, hm⟩ := h'
  have hlook : ∀ x : UInt32, x.toNat < 241 → look A x = look B x := fun x hx => by
    rw [← mapOf_tagAt A hx, ← mapOf_tagAt B hx, hm]
  have hbits : ∀ b < 32, (if bitAt A.b0 b = true then some (bit (bitAt A.b1 b)) else none) =
      if bitAt B.b0 b = true then some (bit (bitAt B.b1 b)) else none := by
    intro b hb
    obtain ⟨_, f2, f3⟩ := bitFeat_facts b hb
    have := hlook _ f2
    have h63 : b ≠ 63 := by omega
    rwa [look, look, f3, if_neg h63, if_neg h63] at this
  have e0 : A.b0 = B.b0 := bitAt_ext fun b hb => by
    have := hbits b hb
    cases h1 : bitAt A.b0 b <;> cases h2 : bitAt B.b0 b <;> simp [h1, h2] at this ⊢
  have e1 : A.b1 = B.b1 := bitAt_ext fun b hb => by
    have := hbits b hb
    have sA := hA.sub b
    have sB := hB.sub b
    rw [← e0] at this sB
    cases h0 : bitAt A.b0 b with
    | false =>
      rw [h0] at sA sB
      cases h1 : bitAt A.b1 b <;> cases h2 : bitAt B.b1 b <;> simp [h1, h2] at sA sB ⊢
    | true =>
      rw [h0, if_pos rfl, if_pos rfl] at this
      have := Option.some.inj this
      cases h1 : bitAt A.b1 b <;> cases h2 : bitAt B.b1 b <;> simp [h1, h2, bit] at this ⊢
  have e2 : A.fat = B.fat := by
    refine lists_unique (m := lookFat A.fat) (lists_fat hA.fat) ?_
    have : lookFat A.fat = lookFat B.fat := by
      funext x
      have key : ∀ {C D : Abs}, Good C → Good D → (∀ x : UInt32, x.toNat < 241 → look C x = look D x) → ∀ v, lookFat C.fat x = some v → lookFat D.fat x = some v := by
        intro C D hC hD hl v hv
        have hr := hC.fat.range _ ((lookFat_iff hC.fat.sorted x v).1 hv)
        have := hl x hr.1
        rw [look, look, if_pos hr.2.1, if_pos hr.2.1] at this
        rw [← this]; exact hv
      cases h1 : lookFat A.fat x with
      | some v => exact (key hA hB hlook v h1).symm
      | none =>
        cases h2 : lookFat B.fat x with
        | none => rfl
        | some v => rw [key hB hA (fun x hx => (hlook x hx).symm) v h2] at h1; simp at h1
    rw [this]
    exact lists_fat hB.fat
  cases A
  cases B
  simp only at e0 e1 e2
  subst e0 e1 e2
  rfl

theorem eqItems_ok {s : Words} {m m' : Map UInt32} {l : List (Item UInt32)} (h : okS s m) (hl : Lists l m') (hlen : l.length = ssoSize s) :
    ∃ b, eqItems s l = some b ∧ (b = true → m = m') ∧ (m = m' → b = true) := by
  have h36 := size_ok h
  obtain ⟨o, eo, h1, h2⟩ := pack_full hl (by omega)
  rw [eqItems, eo]
  cases o with
  | none =>
    refine ⟨false, rfl, by simp, fun hm => ?_⟩
    obtain ⟨A, hA, rfl, rfl⟩ := h
    exact absurd rfl (h2 A hA hm.symm)
  | some s' =>
    have hs' := h1 s' rfl
    refine ⟨decide (s = s'), rfl, fun hb => ?_, fun hm => ?_⟩
    · have : s = s' := by simpa using hb
      subst this
      obtain ⟨l1, i1, _, i2⟩ := items_ok h
      obtain ⟨l2, j1, _, j2⟩ := items_ok hs'
      rw [i1] at j1
      cases j1
      exact lists_map i2 j2
    · rw [← hm] at hs'
      simpa using eq_ok h hs'

/-- `BLFontFeatureSettings` behaves as a map where `okHas`, `okSet` and `okRemove` hold. -/
theorem law : Law kind (fun _ => True) (fun _ => True) okS okHas okSet okRemove where
  empty := empty_ok
  vals := fun _ _ _ _ _ _ => trivial
  items := fun _ _ h => items_ok h
  size := fun _ _ h => size_ok h
  has := fun _ _ _ h hh => has_ok h hh
  get := fun _ _ t h => get_ok h t
  set := fun _ _ _ _ h _ hs _ => set_ok h hs
  remove := fun _ _ _ h hr => remove_ok h hr
  pack := fun l m hl _ hc => by
    obtain ⟨o, e, h, _⟩ := pack_full hl hc
    exact ⟨o, e, h⟩
  eqS := fun _ _ _ h h' => eq_ok h h'
  eqItems := fun _ _ _ _ h hl _ hlen => by
    obtain ⟨b, e, h1, h2⟩ := eqItems_ok h hl hlen
    exact ⟨b, e, h1, fun _ => h2⟩
  same := fun a b _ _ h => eq_of_beq h
  valid := fun _ _ _ h ht => valid_ok h ht

end Blend2D.Feature
