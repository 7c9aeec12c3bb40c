import Verif.Kern.Apply
import Verif.Kern.Spec
import Mathlib.Data.List.Nodup
/-! # Loading of well-formed tables -/

namespace Blend2D.Kern
open Algo Algo.Spec Spec

/-! ## Numbers -/

theorem u8_append (p x : Data) (i : Nat) : u8 (p ++ x) (p.length + i) = u8 x i := by
  unfold u8
  rw [List.getElem?_append_right (by omega)]
  congr 2
  omega

theorem u16_append (p x : Data) (i : Nat) : u16 (p ++ x) (p.length + i) = u16 x i := by
  unfold u16
  rw [u8_append, Nat.add_assoc, u8_append]

theorem u32_append (p x : Data) (i : Nat) : u32 (p ++ x) (p.length + i) = u32 x i := by
  unfold u32
  rw [u16_append, Nat.add_assoc, u16_append]

theorem pairAt_append (p x : Data) (i : Nat) : pairAt (p ++ x) (p.length + i) = pairAt x i := by
  unfold pairAt i16
  rw [u32_append, Nat.add_assoc, u16_append]

theorem u8_be8 (n : Nat) (r : Data) : u8 (be8 n ++ r) 0 = some (n % 256) := by
  simp [u8, be8]

theorem u16_be16 (n : Nat) (r : Data) : u16 (be16 n ++ r) 0 = some (n % 65536) := by
  simp [u16, u8, be16]
  omega

theorem u32_be32 (n : Nat) (r : Data) : u32 (be32 n ++ r) 0 = some (n % 2 ^ 32) := by
  unfold u32 be32
  have h := u16_append (be16 (n / 65536)) (be16 n ++ r) 0
  rw [show (be16 (n / 65536)).length + 0 = 0 + 2 from rfl, u16_be16] at h
  rw [List.append_assoc, u16_be16, h]
  simp only [Option.bind_eq_bind, Option.bind_some, Option.some.injEq]
  omega

/-- A pair of the model. -/
def toPair (p : Nat × Nat × Int) : Pair := ⟨p.1 * 65536 + p.2.1, p.2.2⟩

def PairFits (p : Nat × Nat × Int) : Prop := p.1 < 65536 ∧ p.2.1 < 65536 ∧ -32768 ≤ p.2.2 ∧ p.2.2 ≤ 32767

theorem pairAt_bytes (p : Nat × Nat × Int) (h : PairFits p) (r : Data) : pairAt (pairBytes p ++ r) 0 = some (toPair p) := by
  obtain ⟨h1, h2, h3, h4⟩ := h
  unfold pairAt i16 u32 pairBytes
  rw [List.append_assoc, List.append_assoc, u16_be16]
  have e1 := u16_append (be16 p.1) (be16 p.2.1 ++ (be16 (p.2.2 % 65536).toNat ++ r)) 0
  rw [show (be16 p.1).length + 0 = 0 + 2 from rfl, u16_be16] at e1
  have e2 := u16_append (be16 p.1 ++ be16 p.2.1) (be16 (p.2.2 % 65536).toNat ++ r) 0
  rw [show (be16 p.1 ++ be16 p.2.1).length + 0 = 0 + 4 from rfl, u16_be16, List.append_assoc] at e2
  rw [e1, e2]
  simp only [Option.bind_eq_bind, Option.bind_some, Option.some.injEq, toPair]
  rw [Nat.mod_eq_of_lt h1, Nat.mod_eq_of_lt h2]
  congr 1
  split <;> omega

theorem pairsAt_bytes (ps : List (Nat × Nat × Int)) (h : ∀ p ∈ ps, PairFits p) : ∀ (pre r : Data),
    (pairsAt (pre ++ (ps.flatMap pairBytes ++ r)) pre.length ps.length).toList = ps.map toPair := by
  induction ps with
  | nil => intro pre r; simp [pairsAt]
  | cons p ps ih =>
    intro pre r
    have ih' := ih (fun q hq => h q (List.mem_cons_of_mem _ hq)) (pre ++ pairBytes p) r
    unfold pairsAt at ih' ⊢
    rw [List.toList_toArray] at ih' ⊢
    rw [List.length_cons, List.range_succ_eq_map, List.filterMap_cons, List.flatMap_cons, List.append_assoc]
    have e0 := pairAt_append pre (pairBytes p ++ (ps.flatMap pairBytes ++ r)) 0
    rw [pairAt_bytes p (h p List.mem_cons_self)] at e0
    rw [show pre.length + 6 * 0 = pre.length + 0 from rfl, e0]
    simp only [List.map_cons]
    congr 1
    rw [← ih', List.filterMap_map]
    apply List.filterMap_congr
    intro i _
    simp only [Function.comp_apply]
    rw [List.append_assoc, List.length_append]
    congr 1
    have : (pairBytes p).length = 6 := rfl
    omega

/-! ## One sub-table -/

/-- The coverage of a sub-table. -/
def cov (s : Sub) : Nat := bit s.horizontal 1 + bit s.minimum 2 + bit s.cross 4 + bit s.replaces 8

/-- A sub-table as it is stored. -/
def enc (mac : Bool) (s : Sub) : List UInt8 := if mac then s.mac else s.win

theorem body_length {s : Sub} (V : s.Valid) : s.body.length = 8 + 6 * s.pairs.length := by
  unfold Sub.body
  have : ∀ ps : List (Nat × Nat × Int), (ps.flatMap pairBytes).length = 6 * ps.length := by
    intro ps
    induction ps with
    | nil => rfl
    | cons p ps ih =>
      rw [List.flatMap_cons, List.length_append, ih]
      simp only [pairBytes, be16, List.length_append, List.length_cons, List.length_nil]
      omega
  simp only [List.length_append, be16, List.length_cons, List.length_nil, V.hints, this]

theorem enc_length (mac : Bool) (s : Sub) : (enc mac s).length = headSize mac + s.body.length := by
  unfold enc headSize Sub.mac Sub.win be32 be16 be8
  cases mac <;> simp <;> omega

/-- The header and the body. -/
theorem enc_split (mac : Bool) (s : Sub) : ∃ hd, hd.length = headSize mac ∧ enc mac s = hd ++ s.body := by
  unfold enc headSize
  cases mac
  · refine ⟨be16 0 ++ be16 ((6 + s.body.length) % 65536) ++ be8 0 ++
      be8 (bit s.horizontal 1 + bit s.minimum 2 + bit s.cross 4 + bit s.replaces 8), rfl, ?_⟩
    unfold Sub.win; simp
  · refine ⟨be32 (8 + s.body.length) ++ be8 (bit (!s.horizontal) 0x80 + bit s.cross 0x40) ++ be8 0 ++ be16 0, rfl, ?_⟩
    unfold Sub.mac; simp

theorem flags_and14 (c : Nat) : Flags (c &&& 14) := by
  have h1 : c &&& 14 = (c % 16) &&& 14 := by
    rw [← and15, Nat.and_assoc]
    rfl
  have h2 : ∀ f : Fin 16, (f.val &&& 14) < 16 ∧ (f.val &&& 14) % 2 = 0 := by decide
  rw [h1]
  exact h2 ⟨c % 16, by omega⟩

theorem once_pairs {s : Sub} (V : s.Valid) : Once (s.pairs.map toPair) := by
  unfold Once
  rw [List.map_map]
  have h := V.once
  have e : s.pairs.map (Pair.key ∘ toPair) = (s.pairs.map (fun p => (p.1, p.2.1))).map (fun q => q.1 * 65536 + q.2) := by
    rw [List.map_map]; rfl
  rw [e]
  refine List.Nodup.map_on ?_ h
  intro a ha b hb hab
  obtain ⟨p, hp, rfl⟩ := List.mem_map.1 ha
  obtain ⟨q, hq, rfl⟩ := List.mem_map.1 hb
  have h1 := V.fits p hp
  have h2 := V.fits q hq
  simp only at hab ⊢
  rw [Prod.mk.injEq]
  omega

theorem look_value {s : Sub} (V : s.Valid) {l r : Nat} (hl : l < 65536) (hr : r < 65536) :
    look (s.pairs.map toPair) (l * 65536 + r) = s.value l r := by
  unfold look Sub.value
  rw [List.find?_map, Option.map_map]
  have : s.pairs.find? ((fun p : Pair => decide (p.key = l * 65536 + r)) ∘ toPair) = s.pairs.find? (fun p => decide (p.1 = l ∧ p.2.1 = r)) := by
    have h := V.fits
    clear V
    generalize s.pairs = ps at h
    induction ps with
    | nil => rfl
    | cons p ps ih =>
      have h1 := h p List.mem_cons_self
      rw [List.find?_cons, List.find?_cons, ih (fun q hq => h q (List.mem_cons_of_mem _ hq))]
      have : decide ((toPair p).key = l * 65536 + r) = decide (p.1 = l ∧ p.2.1 = r) := by
        apply decide_eq_decide.2
        show p.1 * 65536 + p.2.1 = l * 65536 + r ↔ _
        omega
      simp only [Function.comp_apply, this]
  rw [this]
  rfl

theorem effect_adjust {s : Sub} (V : s.Valid) {l r : Nat} (hl : l < 65536) (hr : r < 65536) (x : Int) :
    effect (cov s &&& 14) (look (s.pairs.map toPair) (l * 65536 + r)) x = s.adjust l r x := by
  rw [look_value V hl hr]
  unfold effect Sub.adjust
  cases s.value l r with
  | none => rfl
  | some v =>
    simp only
    unfold combine cov bit
    rcases s with ⟨a, b, c, e, -, -⟩
    cases a <;> cases b <;> cases c <;> cases e <;> simp

/-- A sub-table in its place. -/
theorem loadSub_spec {mac : Bool} {s : Sub} (V : s.Valid) (pre post : Data) (flags : Nat) (hf : Flags flags) :
    ∃ gs, loadSub (pre ++ (enc mac s ++ post)) pre.length (headSize mac) (headSize mac + s.body.length) 0 flags = some gs ∧
      Good (pre ++ (enc mac s ++ post)) flags gs (s.pairs.map toPair) := by
  obtain ⟨hd, h1, h2⟩ := enc_split mac s
  have hb := body_length V
  rw [h2]
  have e0 : pre ++ (hd ++ s.body ++ post) = (pre ++ hd) ++ (s.body ++ post) := by simp
  rw [e0]
  generalize hd2 : (pre ++ hd) ++ (s.body ++ post) = d
  have hlen : (pre ++ hd).length = pre.length + headSize mac := by rw [List.length_append, h1]
  have hu : u16 d (pre.length + headSize mac) = some s.pairs.length := by
    rw [← hlen, ← hd2]
    have := u16_append (pre ++ hd) (s.body ++ post) 0
    rw [Nat.add_zero] at this
    rw [this]
    unfold Sub.body
    rw [List.append_assoc, List.append_assoc, u16_be16, Nat.mod_eq_of_lt V.count]
  have hle : pre.length + headSize mac + s.body.length ≤ d.length := by
    rw [← hd2, List.length_append, hlen, List.length_append]; omega
  obtain ⟨gs, g1, g2⟩ := load0_spec (d := d) (o := pre.length + headSize mac) (length := s.body.length) (flags := flags) hle (by omega) hf hu V.count
  refine ⟨gs, ?_, ?_⟩
  · unfold loadSub
    rw [if_pos (by constructor; omega; simp [minSize]; omega), if_pos rfl]
    rw [show headSize mac + s.body.length - headSize mac = s.body.length from by omega]
    exact g1
  · have hus : used s.pairs.length s.body.length = s.pairs.length := by unfold used; rw [if_neg (by omega)]
    rw [hus] at g2
    have hp : (pairsAt d (pre.length + headSize mac + 8) s.pairs.length).toList = s.pairs.map toPair := by
      have := pairsAt_bytes s.pairs V.fits (pre ++ hd ++ be16 s.pairs.length ++ s.hints) post
      have e1 : (pre ++ hd ++ be16 s.pairs.length ++ s.hints).length = pre.length + headSize mac + 8 := by
        simp only [List.length_append, h1, V.hints, be16, List.length_cons, List.length_nil]
      rw [e1] at this
      rw [← this, ← hd2]
      unfold Sub.body
      simp only [List.append_assoc]
    rw [hp] at g2
    exact g2

/-! ## All sub-tables -/

/-- Groups that can be applied to any glyphs. -/
def Usable (d : Data) (k : Group) : Prop :=
  k.format = 0 ∧ k.size = (k.pairs d).size ∧ SortedBy Pair.key (k.pairs d) ∧ Once (k.pairs d).toList

theorem good_usable {d : Data} {flags : Nat} {gs : List Group} {P : List Pair} (G : Good d flags gs P) (h : Once P) : ∀ k ∈ gs, Usable d k := by
  intro k hk
  have F := G.fine k hk
  refine ⟨F.format, F.size, F.sorted, ?_⟩
  have ho : Once (gs.flatMap (fun g => (g.pairs d).toList)) := ((G.perm.map Pair.key).nodup_iff).2 h
  obtain ⟨a, b, rfl⟩ := List.append_of_mem hk
  unfold Once at *
  rw [List.flatMap_append, List.flatMap_cons, List.map_append, List.map_append, List.nodup_append, List.nodup_append] at ho
  exact ho.2.1.1

theorem cov_horizontal (s : Sub) : (cov s &&& 1 ≠ 0) ↔ s.horizontal = true := by
  unfold cov bit
  rcases s with ⟨a, b, c, e, -, -⟩
  cases a <;> cases b <;> cases c <;> cases e <;> simp

/-- The loop, given what the headers say. -/
theorem loadLoop_spec (mac : Bool) (d : Data) (count : Nat) : ∀ (subs : List Sub) (fuel index : Nat) (pre : Data) (gs : List Group),
    d = pre ++ subs.flatMap (enc mac) → subs ≠ [] → subs.length ≤ fuel → index + subs.length = count →
    (∀ s ∈ subs, s.Valid) →
    (∀ a s b, subs = a ++ s :: b → head mac d count (index + a.length) (pre ++ a.flatMap (enc mac)).length =
      some ⟨headSize mac + s.body.length, 0, cov s⟩) →
    ∃ gs', loadLoop mac d count fuel index pre.length gs = some (.groups gs') ∧
      (∀ k ∈ gs', k ∈ gs ∨ Usable d k) ∧
      ∀ l r x, l < 65536 → r < 65536 → gs'.foldl (fun x g => g.step d (l * 65536 + r) x) x =
        (subs.filter (·.horizontal)).foldl (fun k s => s.adjust l r k) (gs.foldl (fun x g => g.step d (l * 65536 + r) x) x) := by
  intro subs
  induction subs with
  | nil => intro _ _ _ _ _ h; exact (h rfl).elim
  | cons s rest ih =>
    intro fuel index pre gs hd _ hfuel hi V H
    cases fuel with
    | zero => simp at hfuel
    | succ fuel =>
      have Vs := V s List.mem_cons_self
      have hh := H [] s rest rfl
      simp only [List.flatMap_nil, List.append_nil, List.length_nil, Nat.add_zero] at hh
      rw [List.flatMap_cons] at hd
      obtain ⟨new, n1, n2⟩ := loadSub_spec (mac := mac) Vs pre (rest.flatMap (enc mac)) (cov s &&& 14) (flags_and14 _)
      rw [← hd] at n1 n2
      have hlen : d.length = pre.length + (headSize mac + s.body.length) + (rest.flatMap (enc mac)).length := by
        rw [hd, List.length_append, List.length_append, enc_length]; omega
      unfold loadLoop
      rw [if_neg (by omega), hh]
      simp only
      rw [if_neg (by omega), n1]
      simp only
      have hz : (Head.horizontal ⟨headSize mac + s.body.length, 0, cov s⟩) = s.horizontal := by
        unfold Head.horizontal
        simp only
        rw [Bool.eq_iff_iff, decide_eq_true_iff]
        exact cov_horizontal s
      rw [hz]
      have hu := good_usable n2 (once_pairs Vs)
      -- what the new groups do
      have key : ∀ l r x, l < 65536 → r < 65536 →
          (if s.horizontal = true then gs ++ new else gs).foldl (fun x g => g.step d (l * 65536 + r) x) x =
          if s.horizontal = true then s.adjust l r (gs.foldl (fun x g => g.step d (l * 65536 + r) x) x)
          else gs.foldl (fun x g => g.step d (l * 65536 + r) x) x := by
        intro l r x hl hr
        split
        · rw [List.foldl_append, good_steps n2 (once_pairs Vs), effect_adjust Vs hl hr]
        · rfl
      have mem : ∀ k ∈ (if s.horizontal = true then gs ++ new else gs), k ∈ gs ∨ Usable d k := by
        intro k hk
        split at hk
        · rcases List.mem_append.1 hk with m | m
          · exact .inl m
          · exact .inr (hu k m)
        · exact .inl hk
      simp only [List.length_cons] at hi hfuel
      cases rest with
      | nil =>
        rw [if_neg (by simp at hi; omega)]
        refine ⟨_, rfl, mem, fun l r x hl hr => ?_⟩
        rw [key l r x hl hr, List.filter_cons]
        split <;> simp
      | cons s2 rest =>
        rw [if_pos (by simp at hi; omega)]
        have e1 : pre.length + (headSize mac + s.body.length) = (pre ++ enc mac s).length := by
          rw [List.length_append, enc_length]
        rw [e1]
        obtain ⟨gs', g1, g2, g3⟩ := ih fuel (index + 1) (pre ++ enc mac s) (if s.horizontal = true then gs ++ new else gs)
          (by rw [hd, List.append_assoc]) (by simp) (by omega) (by omega) (fun q hq => V q (List.mem_cons_of_mem _ hq)) (by
            intro a q b e
            have := H (s :: a) q b (by rw [e]; rfl)
            rw [List.flatMap_cons, List.length_cons] at this
            rw [List.append_assoc, Nat.add_assoc, Nat.add_comm 1]
            exact this)
        refine ⟨gs', g1, fun k hk => ?_, fun l r x hl hr => ?_⟩
        · rcases g2 k hk with m | m
          · exact mem k m
          · exact .inr m
        · rw [g3 l r x hl hr, key l r x hl hr, List.filter_cons (x := s)]
          split <;> simp

end Blend2D.Kern
