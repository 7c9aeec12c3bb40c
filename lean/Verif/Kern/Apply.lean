import Verif.Kern.Order
/-! # Kerning of a run of glyphs -/

namespace Blend2D.Kern
open Algo Algo.Spec

/-- The value of a key. -/
def look (P : List Pair) (k : Nat) : Option Int := (P.find? (fun p => p.key = k)).map Pair.value

/-- Every key once. -/
def Once (P : List Pair) : Prop := (P.map Pair.key).Nodup

theorem look_none {P : List Pair} {k : Nat} : look P k = none ↔ ∀ p ∈ P, p.key ≠ k := by
  unfold look
  rw [Option.map_eq_none_iff, List.find?_eq_none]
  simp

theorem look_some {P : List Pair} (h : Once P) {p : Pair} (hp : p ∈ P) : look P p.key = some p.value := by
  unfold look Once at *
  induction P with
  | nil => simp at hp
  | cons q qs ih =>
    rw [List.map_cons, List.nodup_cons] at h
    rw [List.find?_cons]
    by_cases e : q.key = p.key
    · rcases List.mem_cons.1 hp with r | r
      · subst r; simp
      · exact (h.1 (List.mem_map.2 ⟨p, r, e.symm⟩)).elim
    · rcases List.mem_cons.1 hp with r | r
      · exact (e (by rw [r])).elim
      · simp only [e, decide_false]
        exact ih h.2 r

theorem look_perm {P Q : List Pair} (h : Once P) (e : P.Perm Q) (k : Nat) : look P k = look Q k := by
  have hQ : Once Q := ((e.map Pair.key).nodup_iff).1 h
  cases hl : look Q k with
  | none =>
    rw [look_none] at hl ⊢
    exact fun p hp => hl p (e.mem_iff.1 hp)
  | some v =>
    have : ∃ p ∈ Q, p.key = k := by
      by_contra hc
      have : look Q k = none := look_none.2 (fun p hp hk => hc ⟨p, hp, hk⟩)
      rw [this] at hl; cases hl
    obtain ⟨p, hp, rfl⟩ := this
    rw [look_some hQ hp] at hl
    rw [look_some h (e.mem_iff.2 hp), hl]

theorem look_append (P Q : List Pair) (k : Nat) : look (P ++ Q) k = (look P k).or (look Q k) := by
  unfold look
  rw [List.find?_append]
  cases P.find? (fun p => decide (p.key = k)) <;> simp

/-- What a value does. -/
def effect (flags : Nat) (v : Option Int) (x : Int) : Int :=
  match v with
  | none => x
  | some v => combine flags x v

/-- What a group does. -/
def Group.step (d : Data) (g : Group) (k : Nat) (x : Int) : Int := effect g.flags (look (g.pairs d).toList k) x

/-- Groups with different keys act as one. -/
theorem steps_eq {d : Data} {flags : Nat} : ∀ (gs : List Group), (∀ g ∈ gs, combine g.flags = combine flags) →
    Once (gs.flatMap (fun g => (g.pairs d).toList)) → ∀ k x,
    gs.foldl (fun x g => g.step d k x) x = effect flags (look (gs.flatMap (fun g => (g.pairs d).toList)) k) x := by
  intro gs
  induction gs with
  | nil => intro _ _ k x; rfl
  | cons g gs ih =>
    intro hc ho k x
    rw [List.flatMap_cons] at ho ⊢
    have ho' := ho
    unfold Once at ho'
    rw [List.map_append, List.nodup_append] at ho'
    rw [List.foldl_cons, ih (fun q hq => hc q (List.mem_cons_of_mem _ hq)) ho'.2.1, look_append]
    unfold Group.step
    cases hl : look (g.pairs d).toList k with
    | none => simp [effect]
    | some v =>
      have : look (gs.flatMap (fun g => (g.pairs d).toList)) k = none := by
        rw [look_none]
        intro p hp e
        have hk : ∃ q ∈ (g.pairs d).toList, q.key = k := by
          by_contra hn
          have : look (g.pairs d).toList k = none := look_none.2 (fun p hp hk => hn ⟨p, hp, hk⟩)
          rw [this] at hl; cases hl
        obtain ⟨q, hq, e2⟩ := hk
        exact ho'.2.2 q.key (List.mem_map.2 ⟨q, hq, rfl⟩) p.key (List.mem_map.2 ⟨p, hp, rfl⟩) (by rw [e2, e])
      rw [this]
      simp only [effect, Option.or_none]
      rw [hc g List.mem_cons_self]

theorem good_steps {d : Data} {flags : Nat} {gs : List Group} {P : List Pair} (G : Good d flags gs P) (h : Once P) (k : Nat) (x : Int) :
    gs.foldl (fun x g => g.step d k x) x = effect flags (look P k) x := by
  have ho : Once (gs.flatMap (fun g => (g.pairs d).toList)) := ((G.perm.map Pair.key).nodup_iff).2 h
  rw [steps_eq gs (fun g hg => (G.fine g hg).combine) ho, look_perm ho G.perm]

/-! ## One group -/

theorem find_spec {a : Array Pair} (h : SortedBy Pair.key a) (k : Nat) :
    ∃ r, find a a.size k = some r ∧ (∀ i, r = some i → ∃ h : i < a.size, a[i].key = k) ∧ (r = none → look a.toList k = none) := by
  obtain ⟨r, h1, h2, h3⟩ := C14_binary_search Pair.key a k h
  refine ⟨r, h1, h2, fun e => look_none.2 (fun p hp => ?_)⟩
  obtain ⟨i, hi, rfl⟩ := List.mem_iff_getElem.1 hp
  rw [Array.getElem_toList]
  exact h3 e i (by rw [← Array.length_toList]; exact hi)

/-- Safety of one group, whatever the glyphs are. -/
theorem apply0_safe {a : Array Pair} (h : SortedBy Pair.key a) (flags : Nat) : ∀ (gs : List Nat) (pair : Nat) (ps : List Place),
    gs.length ≤ ps.length → ∃ qs c, apply0 a a.size flags pair gs ps = some (qs, c) ∧ qs.length = ps.length := by
  intro gs
  induction gs with
  | nil => intro pair ps _; exact ⟨ps, false, by unfold apply0; rfl, rfl⟩
  | cons g gs ih =>
    intro pair ps hl
    cases ps with
    | nil => simp at hl
    | cons p ps =>
      simp only [List.length_cons] at hl
      obtain ⟨r, r1, r2, -⟩ := find_spec h (pair ||| g)
      obtain ⟨qs, c, q1, q2⟩ := ih (((pair ||| g) <<< 16) % 2 ^ 32) ps (by omega)
      unfold apply0
      simp only
      rw [r1, q1]
      cases r with
      | none => exact ⟨p :: qs, c, rfl, by simp [q2]⟩
      | some i =>
        obtain ⟨hi, -⟩ := r2 i rfl
        simp only
        rw [Array.getElem?_eq_getElem hi]
        exact ⟨_, _, rfl, by simp [q2]⟩

/-- All placements of a run, changed by the kerning with the glyph before. -/
def pass (f : Nat → Int → Int) : Nat → List Nat → List Place → List Place
  | l, g :: gs, p :: ps => { p with ox := f (l * 65536 + g) p.ox } :: pass f g gs ps
  | _, _, ps => ps

def Zero (ps : List Place) : Prop := ∀ p ∈ ps, p.ox = 0

theorem pair_eq {l g : Nat} (hl : l < 65536) (hg : g < 65536) : (l <<< 16) % 2 ^ 32 ||| g = l * 65536 + g := by
  have h1 : (l <<< 16) % 2 ^ 32 = 2 ^ 16 * l := by rw [Nat.shiftLeft_eq]; omega
  rw [h1, ← Nat.two_pow_add_eq_or_of_lt (by omega)]
  omega

theorem apply0_spec {a : Array Pair} (h : SortedBy Pair.key a) (ho : Once a.toList) (flags : Nat) : ∀ (gs : List Nat) (l : Nat) (ps : List Place),
    gs.length ≤ ps.length → l < 65536 → (∀ g ∈ gs, g < 65536) →
    ∃ c, apply0 a a.size flags ((l <<< 16) % 2 ^ 32) gs ps = some (pass (fun k x => effect flags (look a.toList k) x) l gs ps, c) ∧
      (c = false → Zero ps → Zero (pass (fun k x => effect flags (look a.toList k) x) l gs ps)) := by
  intro gs
  induction gs with
  | nil => intro l ps _ _ _; exact ⟨false, by unfold apply0 pass; rfl, fun _ z => by unfold pass; exact z⟩
  | cons g gs ih =>
    intro l ps hl h1 h2
    cases ps with
    | nil => simp at hl
    | cons p ps =>
      simp only [List.length_cons] at hl
      have hg := h2 g List.mem_cons_self
      obtain ⟨c, c1, c2⟩ := ih g ps (by omega) hg (fun q hq => h2 q (List.mem_cons_of_mem _ hq))
      obtain ⟨r, r1, r2, r3⟩ := find_spec h (l * 65536 + g)
      have es : ((l * 65536 + g) <<< 16) % 2 ^ 32 = (g <<< 16) % 2 ^ 32 := by
        rw [Nat.shiftLeft_eq, Nat.shiftLeft_eq]; omega
      unfold apply0 pass
      simp only
      rw [pair_eq h1 hg, r1, es, c1]
      cases r with
      | none =>
        simp only
        rw [r3 rfl]
        refine ⟨c, rfl, fun hc z q hq => ?_⟩
        rcases List.mem_cons.1 hq with rfl | hq
        · exact z p List.mem_cons_self
        · exact c2 hc (fun x hx => z x (List.mem_cons_of_mem _ hx)) q hq
      | some i =>
        obtain ⟨hi, hk⟩ := r2 i rfl
        have hlook : look a.toList (l * 65536 + g) = some a[i].value := by
          rw [← hk]
          exact look_some ho (by simp)
        simp only
        rw [Array.getElem?_eq_getElem hi, hlook]
        simp only [effect]
        refine ⟨_, rfl, fun hc z q hq => ?_⟩
        rw [Bool.or_eq_false_iff] at hc
        rcases List.mem_cons.1 hq with rfl | hq
        · simpa using hc.2
        · exact c2 hc.1 (fun x hx => z x (List.mem_cons_of_mem _ hx)) q hq

theorem pass_length (f : Nat → Int → Int) : ∀ (gs : List Nat) (l : Nat) (ps : List Place), (pass f l gs ps).length = ps.length := by
  intro gs
  induction gs with
  | nil => intro l ps; unfold pass; rfl
  | cons g gs ih =>
    intro l ps
    cases ps with
    | nil => unfold pass; rfl
    | cons p ps => unfold pass; simp [ih]

theorem pass_pass (f g : Nat → Int → Int) : ∀ (gs : List Nat) (l : Nat) (ps : List Place),
    pass f l gs (pass g l gs ps) = pass (fun k x => f k (g k x)) l gs ps := by
  intro gs
  induction gs with
  | nil => intro l ps; simp [pass]
  | cons h gs ih =>
    intro l ps
    cases ps with
    | nil => simp [pass]
    | cons p ps => simp [pass, ih]

theorem pass_id : ∀ (gs : List Nat) (l : Nat) (ps : List Place), pass (fun _ x => x) l gs ps = ps := by
  intro gs
  induction gs with
  | nil => intro l ps; simp [pass]
  | cons h gs ih =>
    intro l ps
    cases ps with
    | nil => simp [pass]
    | cons p ps => simp [pass, ih]

/-! ## All groups -/

theorem applyGroups_safe {d : Data} (g : Nat) (gs : List Nat) : ∀ (ks : List Group) (ps : List Place),
    (∀ k ∈ ks, k.format = 0 ∧ k.size = (k.pairs d).size ∧ SortedBy Pair.key (k.pairs d)) → gs.length ≤ ps.length →
    ∃ qs c, applyGroups d g gs ks ps = some (qs, c) ∧ qs.length = ps.length := by
  intro ks
  induction ks with
  | nil => intro ps _ _; exact ⟨ps, false, rfl, rfl⟩
  | cons k ks ih =>
    intro ps h hl
    obtain ⟨h1, h2, h3⟩ := h k List.mem_cons_self
    obtain ⟨qs, c, q1, q2⟩ := apply0_safe h3 k.flags gs ((g <<< 16) % 2 ^ 32) ps hl
    obtain ⟨rs, e, r1, r2⟩ := ih qs (fun x hx => h x (List.mem_cons_of_mem _ hx)) (by omega)
    unfold applyGroups
    rw [if_neg (by omega), h2, q1]
    simp only
    rw [r1]
    exact ⟨_, _, rfl, by omega⟩

theorem applyGroups_spec {d : Data} (g : Nat) (gs : List Nat) (hg : g < 65536) (hgs : ∀ x ∈ gs, x < 65536) : ∀ (ks : List Group) (ps : List Place),
    (∀ k ∈ ks, k.format = 0 ∧ k.size = (k.pairs d).size ∧ SortedBy Pair.key (k.pairs d) ∧ Once (k.pairs d).toList) → gs.length ≤ ps.length →
    ∃ c, applyGroups d g gs ks ps = some (pass (fun k x => ks.foldl (fun x g => g.step d k x) x) g gs ps, c) ∧
      (c = false → Zero ps → Zero (pass (fun k x => ks.foldl (fun x g => g.step d k x) x) g gs ps)) := by
  intro ks
  induction ks with
  | nil =>
    intro ps _ _
    simp only [List.foldl_nil]
    rw [pass_id]
    exact ⟨false, rfl, fun _ z => z⟩
  | cons k ks ih =>
    intro ps h hl
    obtain ⟨h1, h2, h3, h4⟩ := h k List.mem_cons_self
    obtain ⟨c, q1, q2⟩ := apply0_spec h3 h4 k.flags gs g ps hl hg hgs
    obtain ⟨e, r1, r2⟩ := ih (pass (fun n x => effect k.flags (look (k.pairs d).toList n) x) g gs ps)
      (fun x hx => h x (List.mem_cons_of_mem _ hx)) (by rw [pass_length]; omega)
    rw [pass_pass] at r1 r2
    unfold applyGroups
    rw [if_neg (by omega), h2, q1]
    simp only
    rw [r1]
    refine ⟨c || e, rfl, fun hc z => ?_⟩
    rw [Bool.or_eq_false_iff] at hc
    exact r2 hc.2 (q2 hc.1 z)

/-! ## Advances -/

theorem finish_length : ∀ (qs : List Place) (p : Place), (finish p qs).length = qs.length + 1 := by
  intro qs
  induction qs with
  | nil => intro p; rfl
  | cons q qs ih => intro p; unfold finish; simp [ih]

theorem finish_getD (z : Place) : ∀ (qs : List Place) (p : Place) (i : Nat), i ≤ qs.length →
    (finish p qs).getD i z = { ((p :: qs).getD i z) with
      ox := if i = 0 then p.ox else 0
      oy := if i = 0 then p.oy else 0
      ax := ((p :: qs).getD i z).ax + (if i < qs.length then (qs.getD i z).ox else 0)
      ay := ((p :: qs).getD i z).ay + (if i < qs.length then (qs.getD i z).oy else 0) } := by
  intro qs
  induction qs with
  | nil =>
    intro p i hi
    simp only [List.length_nil] at hi
    have : i = 0 := by omega
    subst this
    simp [finish]
  | cons q qs ih =>
    intro p i hi
    unfold finish
    cases i with
    | zero => simp
    | succ i =>
      simp only [List.length_cons] at hi
      rw [List.getD_cons_succ, ih _ i (by omega), List.getD_cons_succ]
      cases i with
      | zero => simp
      | succ i => simp

theorem pass_getD (f : Nat → Int → Int) (z : Place) : ∀ (gs : List Nat) (l : Nat) (ps : List Place) (i : Nat), i < gs.length → i < ps.length →
    (pass f l gs ps).getD i z = { (ps.getD i z) with ox := f ((l :: gs).getD i 0 * 65536 + gs.getD i 0) (ps.getD i z).ox } := by
  intro gs
  induction gs with
  | nil => intro l ps i h; simp at h
  | cons g gs ih =>
    intro l ps i h1 h2
    cases ps with
    | nil => simp at h2
    | cons p ps =>
      unfold pass
      cases i with
      | zero => simp
      | succ i =>
        simp only [List.length_cons] at h1 h2
        rw [List.getD_cons_succ, ih g ps i (by omega) (by omega)]
        simp

end Blend2D.Kern
