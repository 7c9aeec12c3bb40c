import Verif.BitSet.Query

/-!
# Queries for a range: `has_bits_in_range`
-/

namespace Blend2D.BitSet

open Blend2D.BitOps

theorem and_mask_iff (x m : Word) {p : Nat → Prop} [DecidablePred p] (hm : ∀ j, j < 32 → BitOps.hasBit .msb m j = decide (p j)) :
    x &&& m ≠ 0 ↔ ∃ j, j < 32 ∧ p j ∧ BitOps.hasBit .msb x j = true := by
  constructor
  · intro h
    by_contra hc
    apply h
    apply zero_of_no_bit .msb
    intro j hj
    rw [hasBit_and, hm j hj]
    cases hx : BitOps.hasBit .msb x j with
    | false => rfl
    | true => rw [Bool.true_and, decide_eq_false_iff_not]; exact fun hp => hc ⟨j, hj, hp, hx⟩
  · intro ⟨j, hj, hp, hx⟩ h
    have := hasBit_and .msb x m j
    rw [h, hasBit_zero, hm j hj, hx, decide_eq_true hp] at this
    simp at this

/-- Bits of a dense segment by words. -/
theorem bit_word {s : Nat} {d : List Word} {k j : Nat} (hk : s ≤ k) (hj : j < 32) {x : Word} (hx : d[k - s]? = some x) :
    (Seg.dense s d).bit (k * 32 + j) = BitOps.hasBit .msb x j := by
  have e : k * 32 + j - s * 32 = (k - s) * 32 + j := by omega
  simp only [Seg.bit, e]
  rw [decide_eq_true (by omega), Bool.true_and, bitAt_word .msb d hj, hx]

theorem hitWords_spec {s : Nat} {d : List Word} (hd : d.length = 4) {ew eb : Nat} (heb : 0 < eb) (hb : eb < 4294967296) (hew : ew = (eb - 1) / 32 + 1) :
    ∀ (n cur : Nat) (_ : s ≤ cur) (_ : cur + n ≤ s + 4) (_ : cur + n ≤ ew),
    ∃ r, hitWords s d ew eb n cur = some r ∧
      (r = none → ∀ i, cur * 32 ≤ i → i < (cur + n) * 32 → (Seg.dense s d).bit i = false) ∧
      (r = some true → ∃ i, cur * 32 ≤ i ∧ i < eb ∧ (Seg.dense s d).bit i = true) ∧
      (r = some false → ∀ i, cur * 32 ≤ i → i < eb → i < (cur + n) * 32 ∧ (Seg.dense s d).bit i = false) := by
  intro n
  induction n with
  | zero => exact fun cur _ _ _ => ⟨none, rfl, fun _ i h1 h2 => absurd h2 (by omega), by simp, by simp⟩
  | succ n ih =>
    intro cur h1 h2 h3
    have hx : d[cur - s]? = some d[cur - s] := List.getElem?_eq_getElem (by omega)
    generalize d[cur - s] = x at hx
    rw [hitWords, hx]
    by_cases h0 : x = 0
    · obtain ⟨r, e, p1, p2, p3⟩ := ih (cur + 1) (by omega) (by omega) (by omega)
      have hz : ∀ i, cur * 32 ≤ i → i < (cur + 1) * 32 → (Seg.dense s d).bit i = false := by
        intro i hi1 hi2
        have := bit_word h1 (show i - cur * 32 < 32 by omega) hx
        rw [show cur * 32 + (i - cur * 32) = i by omega, h0, hasBit_zero] at this
        exact this
      refine ⟨r, ?_, ?_, ?_, ?_⟩
      · simp only [h0, ne_eq, not_true_eq_false, if_false]
        exact e
      · intro hr i hi1 hi2
        by_cases hi : i < (cur + 1) * 32
        · exact hz i hi1 hi
        · exact p1 hr i (by omega) (by omega)
      · intro hr
        obtain ⟨i, hi1, hi2, hi3⟩ := p2 hr
        exact ⟨i, by omega, hi2, hi3⟩
      · intro hr i hi1 hi2
        by_cases hi : i < (cur + 1) * 32
        · exact ⟨by omega, hz i hi1 hi⟩
        · obtain ⟨q1, q2⟩ := p3 hr i (by omega) hi2
          exact ⟨by omega, q2⟩
    · have hs : sub32 eb 1 = eb - 1 := by unfold sub32; omega
      simp only [ne_eq, h0, not_false_eq_true, if_true]
      obtain ⟨m, e, hm⟩ := hasBit_startMask .msb (N := 32) (c := if cur + 1 ≠ ew then 32 else sub32 eb 1 % 32 + 1)
        (by split <;> omega) (by split <;> omega)
      simp only [ne_eq] at e hm
      rw [e]
      have hiff := and_mask_iff x m hm
      refine ⟨some (x &&& m != 0), rfl, by simp, ?_, ?_⟩
      · intro hr
        have hr : x &&& m ≠ 0 := by simpa using hr
        obtain ⟨j, hj, hp, hb⟩ := hiff.1 hr
        refine ⟨cur * 32 + j, by omega, ?_, ?_⟩
        · split at hp <;> omega
        · rw [bit_word h1 hj hx]; exact hb
      · intro hr i hi1 hi2
        have hr : x &&& m = 0 := by simpa using hr
        have hno := fun j hj hp hb => (hiff.2 ⟨j, hj, hp, hb⟩) hr
        have hne : cur + 1 = ew := by
          by_contra hc
          apply h0
          apply zero_of_no_bit .msb
          intro j hj
          rw [Bool.eq_false_iff]
          exact hno j hj (by rw [if_pos hc]; exact hj)
        have hi3 : i < (cur + 1) * 32 := by omega
        refine ⟨by omega, ?_⟩
        rw [Bool.eq_false_iff]
        intro hbit
        have hw := bit_word h1 (show i - cur * 32 < 32 by omega) hx
        rw [show cur * 32 + (i - cur * 32) = i by omega, hbit] at hw
        refine hno (i - cur * 32) (by omega) ?_ hw.symm
        rw [if_neg (by omega)]
        omega

/-- What the loops need of a segment. -/
def Wide (g : Seg) : Prop := (match g with | .dense _ d => d.length = 4 | .range s e => s < e) ∧ g.endWord ≤ 268435456

theorem SegOK.wide {g : Seg} (h : SegOK g) : Wide g := by
  have := h.start_lt
  refine ⟨?_, by omega⟩
  cases g with
  | dense s d => exact h.2.2
  | range s e => have := h.2.2.1; omega

theorem Wide.lt {g : Seg} (h : Wide g) : g.startWord < g.endWord := by
  cases g with
  | dense s d => simp [Seg.startWord, Seg.endWord]
  | range s e => exact h.1

theorem Wide.bit {g : Seg} (hg : Wide g) {i : Nat} (h : g.bit i = true) : g.startWord ≤ i / 32 ∧ i / 32 < g.endWord := by
  cases g with
  | dense s d =>
    have hl := hg.1
    simp only [Seg.bit, Bool.and_eq_true, decide_eq_true_eq] at h
    have : ¬ 128 ≤ i - s * 32 := fun hc => by rw [bitAt_len4 hl hc] at h; simp at h
    simp only [Seg.startWord, Seg.endWord]
    omega
  | range s e =>
    simp only [Seg.bit, Bool.and_eq_true, decide_eq_true_eq] at h
    simp only [Seg.startWord, Seg.endWord]
    omega

theorem anyBit_word {gs : List Seg} (hw : ∀ g ∈ gs, Wide g) {i : Nat} (h : anyBit gs i = true) : ∃ g ∈ gs, g.startWord ≤ i / 32 ∧ i / 32 < g.endWord := by
  obtain ⟨g, hg, hb⟩ := List.any_eq_true.1 h
  exact ⟨g, hg, (hw g hg).bit hb⟩

theorem max_cases' (a b : Nat) : a ≤ max a b ∧ b ≤ max a b ∧ (max a b = a ∨ max a b = b) := by omega

theorem min_cases' (a b : Nat) : min a b ≤ a ∧ min a b ≤ b ∧ (min a b = a ∨ min a b = b) := by omega

theorem sub32_le {a b : Nat} (h : b ≤ a) (ha : a < 4294967296) : sub32 a b = a - b := by unfold sub32; omega

theorem hitSegs_spec {ew eb : Nat} (heb : 0 < eb) (hb : eb < 4294967296) (hew : ew = (eb - 1) / 32 + 1) :
    ∀ (gs : List Seg) (cur : Nat), (∀ g ∈ gs, Wide g) → gs.Pairwise (fun a b => a.endWord ≤ b.startWord) → (∀ g ∈ gs, cur ≤ g.endWord) →
    ∃ r, hitSegs ew eb gs cur = some r ∧ (r = true ↔ ∃ i, cur * 32 ≤ i ∧ i < eb ∧ anyBit gs i = true) := by
  intro gs
  induction gs with
  | nil => exact fun cur _ _ _ => ⟨false, rfl, by simp [anyBit]⟩
  | cons g gs ih =>
    intro cur hw hp hc
    have hg := hw g (by simp)
    have hlt := hg.lt
    have hend := hg.2
    have hcg := hc g (by simp)
    obtain ⟨hp1, hp2⟩ := List.pairwise_cons.1 hp
    have hw' : ∀ b ∈ gs, Wide b := fun b hb => hw b (by simp [hb])
    have hlater : ∀ i, anyBit gs i = true → g.endWord ≤ i / 32 := by
      intro i hi
      obtain ⟨b, hb, h1, _⟩ := anyBit_word hw' hi
      exact Nat.le_trans (hp1 b hb) h1
    have hlast : ∀ i, i < eb → i / 32 < ew := fun i hi => by omega
    have hfirst : ∀ k, k < ew → k * 32 < eb := fun k hk => by omega
    have hge : ∀ i k, k * 32 ≤ i → k ≤ i / 32 := fun i k hk => by omega
    have hge' : ∀ i k, k ≤ i / 32 → k * 32 ≤ i := fun i k hk => by omega
    have hend' : ∀ b ∈ gs, g.endWord ≤ b.endWord := fun b hb => Nat.le_trans (hp1 b hb) (Nat.le_of_lt (hw' b hb).lt)
    have hew' := hew
    clear hp hc hw hew
    rw [hitSegs, hitStep]
    obtain ⟨m1, m2, m3⟩ := max_cases' g.startWord cur
    obtain ⟨n1, n2, n3⟩ := min_cases' g.endWord ew
    by_cases h1 : max g.startWord cur ≥ ew
    · rw [if_pos h1]
      refine ⟨false, rfl, by simp, ?_⟩
      intro ⟨i, hi1, hi2, hi3⟩
      exfalso
      have q1 := hlast i hi2
      have q2 := hge i cur hi1
      rw [anyBit_cons, Bool.or_eq_true] at hi3
      rcases hi3 with hi3 | hi3
      · have := (hg.bit hi3).1; omega
      · have := hlater i hi3; omega
    · rw [if_neg h1]
      have hsub : sub32 (min g.endWord ew) (max g.startWord cur) = min g.endWord ew - max g.startWord cur := sub32_le (by omega) (by omega)
      have hrest : (∀ i, max g.startWord cur ≤ i / 32 → i / 32 < min g.endWord ew → g.bit i = false) → ∀ c, c = max (max g.startWord cur) (min g.endWord ew) →
          ((∃ i, c * 32 ≤ i ∧ i < eb ∧ anyBit gs i = true) ↔ ∃ i, cur * 32 ≤ i ∧ i < eb ∧ anyBit (g :: gs) i = true) := by
        intro hz c hcd
        constructor
        · intro ⟨i, hi1, hi2, hi3⟩
          exact ⟨i, hge' _ _ (by have := hge _ _ hi1; omega), hi2, by rw [anyBit_cons, hi3, Bool.or_true]⟩
        · intro ⟨i, hi1, hi2, hi3⟩
          have q1 := hlast i hi2
          have q2 := hge i cur hi1
          rw [anyBit_cons, Bool.or_eq_true] at hi3
          rcases hi3 with hi3 | hi3
          · have hwd := hg.bit hi3
            rw [hz i (by omega) (by omega)] at hi3
            simp at hi3
          · have := hlater i hi3
            exact ⟨i, hge' _ _ (by omega), hi2, hi3⟩
      rw [hsub]
      by_cases h2 : min g.endWord ew - max g.startWord cur ≠ 0
      · rw [if_pos h2]
        cases g with
        | range s e =>
          refine ⟨true, rfl, fun _ => ⟨max s cur * 32, ?_, hfirst _ ?_, ?_⟩, fun _ => rfl⟩
          · simp only [Seg.startWord] at m2; omega
          · simp only [Seg.startWord] at h1; omega
          · rw [anyBit_cons, Bool.or_eq_true]
            left
            simp only [Seg.bit, Bool.and_eq_true, decide_eq_true_eq]
            simp only [Seg.startWord, Seg.endWord] at *
            omega
        | dense s d =>
          simp only [Seg.startWord, Seg.endWord] at m1 m2 m3 n1 n2 n3 h1 hsub h2 hrest
          rw [hitInside]
          simp only [Seg.startWord, Seg.endWord]
          obtain ⟨r, e, p1, p2, p3⟩ := hitWords_spec hg.1 heb hb (show ew = (eb - 1) / 32 + 1 from hew') (min (s + 4) ew - max s cur) (max s cur) m1 (by omega) (by omega)
          rw [e]
          match r with
          | some true =>
            obtain ⟨i, hi1, hi2, hi3⟩ := p2 rfl
            refine ⟨true, rfl, fun _ => ⟨i, by omega, hi2, ?_⟩, fun _ => rfl⟩
            rw [anyBit_cons, hi3, Bool.true_or]
          | some false =>
            refine ⟨false, rfl, by simp, ?_⟩
            intro ⟨i, hi1, hi2, hi3⟩
            have q2 := hge i cur hi1
            rw [anyBit_cons, Bool.or_eq_true] at hi3
            rcases hi3 with hi3 | hi3
            · have hwd := hg.bit hi3
              simp only [Seg.startWord, Seg.endWord] at hwd
              rw [(p3 rfl i (hge' _ _ (by omega)) hi2).2] at hi3
              simp at hi3
            · have q3 := hlater i hi3
              simp only [Seg.endWord] at q3
              have := (p3 rfl i (hge' _ _ (by omega)) hi2).1
              omega
          | none =>
            obtain ⟨r, e', hr⟩ := ih (max s cur + (min (s + 4) ew - max s cur)) hw' hp2
              (fun b hb' => by have : s + 4 ≤ b.endWord := hend' b hb'; omega)
            have hcc : max s cur + (min (s + 4) ew - max s cur) = max (max s cur) (min (s + 4) ew) := by
              have hle : max s cur ≤ min (s + 4) ew := by omega
              rw [Nat.max_eq_right hle, Nat.add_sub_cancel' hle]
            refine ⟨r, e', hr.trans (hrest ?_ _ hcc)⟩
            intro i hi1 hi2
            exact p1 rfl i (hge' _ _ hi1) (by omega)
      · rw [if_neg h2]
        obtain ⟨r, e', hr⟩ := ih (max g.startWord cur) hw' hp2 (fun b hb' => by have := hend' b hb'; omega)
        exact ⟨r, e', hr.trans (hrest (fun i _ _ => by omega) _ (by omega))⟩

theorem hasBitsFrom_spec {segs : List Seg} (hne : segs ≠ []) {a b : Nat} (hab : a < b) (hb : b < 4294967296) (hw : ∀ g ∈ segs, Wide g)
    (hp : segs.Pairwise fun a b => a.endWord ≤ b.startWord) (hc : ∀ g ∈ segs, a / 32 < g.endWord) :
    ∃ r, hasBitsFrom segs a b (a / 32) ((b - 1) / 32 + 1) = some r ∧ (r = true ↔ ∃ i, a ≤ i ∧ i < b ∧ anyBit segs i = true) := by
  cases segs with
  | nil => exact absurd rfl hne
  | cons g gs =>
    have hg := hw g (by simp)
    have hlt := hg.lt
    have hend := hg.2
    have hcg := hc g (by simp)
    have hlater : ∀ i, anyBit gs i = true → g.endWord ≤ i / 32 := by
      intro i hi
      obtain ⟨b, hb, h1, _⟩ := anyBit_word (fun b hb => hw b (by simp [hb])) hi
      have := (List.pairwise_cons.1 hp).1 b hb
      omega
    have hhas : segHasWord g (a / 32) = true ↔ g.startWord ≤ a / 32 := by
      unfold segHasWord rangeHas
      rw [decide_eq_true_iff]
      unfold sub32
      omega
    have hmiss : ¬ g.startWord ≤ a / 32 → ∃ r, hitSegs ((b - 1) / 32 + 1) b (g :: gs) (a / 32) = some r ∧
        (r = true ↔ ∃ i, a ≤ i ∧ i < b ∧ anyBit (g :: gs) i = true) := by
      intro h1
      obtain ⟨r, e, hr⟩ := hitSegs_spec (eb := b) (by omega) hb rfl (g :: gs) (a / 32) hw hp (fun g hg => by have := hc g hg; omega)
      refine ⟨r, e, hr.trans ?_⟩
      constructor
      · intro ⟨i, hi1, hi2, hi3⟩
        refine ⟨i, ?_, hi2, hi3⟩
        obtain ⟨c, hcm, q1, q2⟩ := anyBit_word hw hi3
        rcases List.mem_cons.1 hcm with rfl | hcm
        · omega
        · have := (List.pairwise_cons.1 hp).1 c hcm
          omega
      · intro ⟨i, hi1, hi2, hi3⟩
        exact ⟨i, by omega, hi2, hi3⟩
    cases g with
    | range s e =>
      rw [hasBitsFrom]
      by_cases h1 : s ≤ a / 32
      · rw [if_pos (hhas.2 h1)]
        refine ⟨true, rfl, fun _ => ⟨a, Nat.le_refl _, hab, ?_⟩, fun _ => rfl⟩
        rw [anyBit_cons, Bool.or_eq_true]
        left
        have : a / 32 < e := hcg
        simp only [Seg.bit, Bool.and_eq_true, decide_eq_true_eq]
        omega
      · rw [if_neg (fun h => h1 (hhas.1 h))]
        exact hmiss h1
    | dense s d =>
      rw [hasBitsFrom]
      by_cases h1 : s ≤ a / 32
      · rw [if_pos (hhas.2 h1)]
        have hd : d.length = 4 := hg.1
        have hcg' : a / 32 < s + 4 := hcg
        have hx : d[a / 32 - s]? = some d[a / 32 - s] := List.getElem?_eq_getElem (by omega)
        generalize d[a / 32 - s] = x at hx
        have hs : sub32 b a = b - a := by unfold sub32; omega
        obtain ⟨m, e1, hm1⟩ := hasBit_startMask .msb (N := 32) (c := min (32 - a % 32) (b - a)) (by omega) (by omega)
        obtain ⟨m', e2, hm2⟩ := hasBit_shiftToEnd .msb (N := 32) m (k := a % 32) (by omega)
        have ehit : hitFirst s d a (sub32 b a) (a / 32) = some (x &&& m' != 0) := by
          rw [hs, hitFirst, hx]
          simp only [e1, e2, Option.bind_eq_bind, Option.bind_some]
        rw [ehit]
        simp only [Option.bind_eq_bind, Option.bind_some]
        have hiff := and_mask_iff x m' (p := fun j => a % 32 ≤ j ∧ j - a % 32 < min (32 - a % 32) (b - a)) (by
          intro j hj
          rw [hm2 j hj, hm1 _ (by omega), ← Bool.decide_and])
        have hwd : ∀ j, j < 32 → (Seg.dense s d).bit (a / 32 * 32 + j) = BitOps.hasBit .msb x j := fun j hj => bit_word h1 hj hx
        by_cases h2 : x &&& m' ≠ 0
        · rw [if_pos (by simpa using h2)]
          obtain ⟨j, hj, hp, hbit⟩ := hiff.1 h2
          have hp1 := hp.1
          have hp2 : j - a % 32 < b - a := Nat.lt_of_lt_of_le hp.2 (Nat.min_le_right _ _)
          clear hp hmiss hiff hhas
          refine ⟨true, rfl, fun _ => ⟨a / 32 * 32 + j, by omega, by omega, ?_⟩, fun _ => rfl⟩
          rw [anyBit_cons, hwd j hj, hbit, Bool.true_or]
        · rw [if_neg (by simpa using h2)]
          have hfirst : ∀ i, a ≤ i → i < b → i / 32 = a / 32 → (Seg.dense s d).bit i = false := by
            intro i hi1 hi2 hi3
            rw [Bool.eq_false_iff]
            intro hbit
            have e := hwd (i % 32) (by omega)
            rw [show a / 32 * 32 + i % 32 = i by omega, hbit] at e
            exact h2 (hiff.2 ⟨i % 32, by omega, by omega, e.symm⟩)
          by_cases h3 : a / 32 + 1 ≥ (b - 1) / 32 + 1
          · rw [if_pos h3]
            refine ⟨false, rfl, by simp, ?_⟩
            intro ⟨i, hi1, hi2, hi3⟩
            rw [anyBit_cons, Bool.or_eq_true] at hi3
            rcases hi3 with hi3 | hi3
            · rw [hfirst i hi1 hi2 (by omega)] at hi3; simp at hi3
            · have : s + 4 ≤ i / 32 := hlater i hi3
              omega
          · rw [if_neg h3]
            obtain ⟨r, e, hr⟩ := hitSegs_spec (eb := b) (by omega) hb rfl (.dense s d :: gs) (a / 32 + 1) hw hp
              (fun g hg => hc g hg)
            refine ⟨r, e, hr.trans ?_⟩
            constructor
            · intro ⟨i, hi1, hi2, hi3⟩
              exact ⟨i, by omega, hi2, hi3⟩
            · intro ⟨i, hi1, hi2, hi3⟩
              refine ⟨i, ?_, hi2, hi3⟩
              by_contra hcn
              rw [anyBit_cons, Bool.or_eq_true] at hi3
              rcases hi3 with hi3 | hi3
              · rw [hfirst i hi1 hi2 (by omega)] at hi3; simp at hi3
              · have : s + 4 ≤ i / 32 := hlater i hi3
                omega
      · rw [if_neg (fun h => h1 (hhas.1 h))]
        exact hmiss h1

/-- `has_bits_in_range` for sets whose in place words are not behind `kSSOLastWord`. -/
theorem hasBitsInRange_spec {s : BS} (h : OK s) (hs : ∀ w d, s = .dense w d → w ≤ ssoLastWord) {a b : Nat} (hb : b < 4294967296) :
    ∃ r, hasBitsInRange s a b = some r ∧ (r = true ↔ ∃ i, a ≤ i ∧ i < b ∧ member s i = true) := by
  have hempty : a ≥ b → ∃ r, some false = some r ∧ (r = true ↔ ∃ i, a ≤ i ∧ i < b ∧ member s i = true) := fun hab =>
    ⟨false, rfl, by simp, fun ⟨i, h1, h2, _⟩ => by omega⟩
  have hr := h.rep
  cases s with
  | range p q =>
    show ∃ r, (if a ≥ b then some false else some (decide (max p a < min q b))) = some r ∧ _
    by_cases hab : a ≥ b
    · rw [if_pos hab]; exact hempty hab
    rw [if_neg hab]
    clear hempty
    refine ⟨_, rfl, ?_⟩
    rw [decide_eq_true_iff]
    simp only [member, Bool.and_eq_true, decide_eq_true_eq]
    constructor
    · intro h; exact ⟨max p a, by omega, by omega, by omega, by omega⟩
    · intro ⟨i, h1, h2, h3, h4⟩; omega
  | dense w d =>
    show ∃ r, (if a ≥ b then some false else hasBitsDense w d (max a (wrap (w * 32))) (min (b - 1) (ssoLastBit w))) = some r ∧ _
    by_cases hab : a ≥ b
    · rw [if_pos hab]; exact hempty hab
    rw [if_neg hab]
    clear hempty
    obtain ⟨_, hd, _⟩ := hr
    have hw : w ≤ 134217726 := hs w d rfl
    have e1 : wrap (w * 32) = w * 32 := by unfold wrap; omega
    have e2 : ssoLastBit w = w * 32 + 63 := by unfold ssoLastBit sub32 wrap; omega
    simp only [e1, e2]
    rw [hasBitsDense]
    have hmem : ∀ i, member (.dense w d) i = true → w * 32 ≤ i ∧ i < w * 32 + 64 := by
      intro i hi
      simp only [member, Bool.and_eq_true, decide_eq_true_eq] at hi
      have : ¬ 64 ≤ i - w * 32 := fun hc => by rw [bitAt_len2 hd hc] at hi; simp at hi
      omega
    by_cases h1 : max a (w * 32) > min (b - 1) (w * 32 + 63)
    · rw [if_pos h1]
      exact ⟨false, rfl, by simp, fun ⟨i, h2, h3, h4⟩ => by have := hmem i h4; omega⟩
    · rw [if_neg h1]
      have e3 : wrap (min (b - 1) (w * 32 + 63) + 1) = min (b - 1) (w * 32 + 63) + 1 := by unfold wrap; omega
      rw [e3]
      generalize hst : max a (w * 32) = st
      generalize hen : min (b - 1) (w * 32 + 63) + 1 = en
      rw [show min (b - 1) (w * 32 + 63) = en - 1 by omega]
      generalize hD : (d.drop (st / 32 - w)).take (w + 2 - st / 32) ++ List.replicate (4 - (w + 2 - st / 32)) 0 = D
      have hDl : D.length = 4 := by
        rw [← hD, List.length_append, List.length_take, List.length_drop, List.length_replicate, hd]
        omega
      have hbits : ∀ i, st / 32 * 32 ≤ i → (Seg.dense (st / 32) D).bit i = member (.dense w d) i := by
        intro i hi
        simp only [Seg.bit, member]
        rw [decide_eq_true (by omega), decide_eq_true (by omega)]
        simp only [Bool.true_and]
        match d, hd with
        | [x, y], _ =>
          have hcase : st / 32 = w ∨ st / 32 = w + 1 := by omega
          rcases hcase with hc | hc
          · have e : D = [x, y, 0, 0] := by rw [← hD, hc]; simp [List.replicate]
            rw [e, hc]
            rw [bitAt_cons, bitAt_cons, bitAt_cons x [y], bitAt_cons y []]
            simp only [bitAt_zeros2, bitAt_nil]
          · have e : D = [y, 0, 0, 0] := by rw [← hD, hc, show w + 1 - w = 1 by omega, show w + 2 - (w + 1) = 1 by omega]; rfl
            rw [e, hc]
            rw [bitAt_cons y [0, 0, 0], bitAt_cons x [y], bitAt_cons y []]
            rw [if_neg (show ¬ i - w * 32 < 32 by omega)]
            rw [show i - (w + 1) * 32 = i - w * 32 - 32 by omega]
            by_cases h32 : i - w * 32 - 32 < 32
            · rw [if_pos h32, if_pos h32]
            · rw [if_neg h32, if_neg h32, bitAt_nil, bitAt_cons, bitAt_zeros2, hasBit_zero]; simp
      obtain ⟨r, e, hr⟩ := hasBitsFrom_spec (segs := [.dense (st / 32) D]) (by simp) (a := st) (b := en) (by omega) (by omega)
        (by intro g hg; rw [List.mem_singleton.1 hg]; exact ⟨hDl, by simp only [Seg.endWord]; omega⟩) (by simp)
        (by intro g hg; rw [List.mem_singleton.1 hg]; simp only [Seg.endWord]; omega)
      refine ⟨r, by subst hD; exact e, hr.trans ?_⟩
      constructor
      · intro ⟨i, hi1, hi2, hi3⟩
        rw [anyBit_cons, anyBit_nil, Bool.or_false, hbits i (by omega)] at hi3
        exact ⟨i, by omega, by omega, hi3⟩
      · intro ⟨i, hi1, hi2, hi3⟩
        have := hmem i hi3
        refine ⟨i, by omega, by omega, ?_⟩
        rw [anyBit_cons, anyBit_nil, Bool.or_false, hbits i (by omega)]
        exact hi3
  | dyn segs cap card =>
    show ∃ r, (if a ≥ b then some false else hasBitsDyn segs a b) = some r ∧ _
    by_cases hab : a ≥ b
    · rw [if_pos hab]; exact hempty hab
    rw [if_neg hab]
    clear hempty
    obtain ⟨hok, _, _⟩ := hr
    obtain ⟨k, ek, hf⟩ := lowerBound_spec hok (a / 32)
    rw [hasBitsDyn, ek]
    simp only [Option.bind_eq_bind, Option.bind_some]
    have hbefore : ∀ i, a ≤ i → anyBit segs i = anyBit (segs.drop k) i := by
      intro i hi
      have : anyBit segs i = (anyBit (segs.take k) i || anyBit (segs.drop k) i) := by
        unfold anyBit; rw [← List.any_append, List.take_append_drop]
      rw [this]
      have : anyBit (segs.take k) i = false := by
        rw [Bool.eq_false_iff]
        intro hc
        obtain ⟨g, hg, hb⟩ := List.any_eq_true.1 hc
        have h1 := hf.before g hg
        have h2 := Seg.bit_iff (hok.each g (List.mem_of_mem_take hg)) hb
        omega
      rw [this, Bool.false_or]
    have hbefore' : ∀ i, a ≤ i → member (.dyn segs cap card) i = anyBit (segs.drop k) i := hbefore
    by_cases hk : k < segs.length
    · rw [List.getElem?_eq_getElem hk]
      have hd : segs.drop k = segs[k] :: segs.drop (k + 1) := List.drop_eq_getElem_cons hk
      have hwide : ∀ g ∈ segs.drop k, Wide g := fun g hg => (hok.each g (List.mem_of_mem_drop hg)).wide
      have hpw : (segs.drop k).Pairwise (fun a b => a.endWord ≤ b.startWord) := hok.sorted.sublist (List.drop_sublist k segs)
      by_cases h1 : (b - 1) / 32 + 1 ≤ segs[k].startWord
      · simp only [if_pos h1]
        refine ⟨false, rfl, by simp, ?_⟩
        intro ⟨i, hi1, hi2, hi3⟩
        rw [hbefore' i hi1] at hi3
        obtain ⟨g, hg, hb, _⟩ := anyBit_word hwide hi3
        rw [hd] at hg hpw
        rcases List.mem_cons.1 hg with rfl | hg
        · omega
        · have h2 := (List.pairwise_cons.1 hpw).1 g hg
          have h3 := (hwide segs[k] (hd ▸ List.mem_cons_self)).lt
          omega
      · simp only [if_neg h1]
        obtain ⟨r, e, hr⟩ := hasBitsFrom_spec (segs := segs.drop k) (fun hn => by rw [hn] at hd; simp at hd; omega) (a := a) (b := b) (by omega) hb hwide hpw hf.after
        refine ⟨r, e, hr.trans ?_⟩
        constructor
        · intro ⟨i, hi1, hi2, hi3⟩; exact ⟨i, hi1, hi2, by rw [hbefore' i hi1]; exact hi3⟩
        · intro ⟨i, hi1, hi2, hi3⟩; exact ⟨i, hi1, hi2, by rw [← hbefore' i hi1]; exact hi3⟩
    · rw [List.getElem?_eq_none (by omega)]
      refine ⟨false, rfl, by simp, ?_⟩
      intro ⟨i, hi1, hi2, hi3⟩
      rw [hbefore' i hi1, List.drop_eq_nil_of_le (by omega)] at hi3
      simp [anyBit] at hi3

end Blend2D.BitSet
