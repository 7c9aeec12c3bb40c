import Verif.BitSet.AddRangeSso
import Verif.BitSet.ClearRange
import Verif.BitSet.Query
import Verif.BitSet.HasBits
import Verif.BitSet.Iterate
import Mathlib.Tactic.FinCases

/-!
# C36: `BLBitSet` is a set of 32-bit numbers

A specification set is a predicate on numbers.  The operations below change it the way a mathematical set changes.  The theorems
say that every history of calls leaves the object with exactly the members of the specification set.

`add_range`, `clear_range` and `assign_range` are not correct for all calls: the theorems `C36_..._overflow`, `C36_add_range_loses_bits`
and `C36_clear_range_cardinality` show it, and the history theorem for them is therefore partial.
-/

namespace Blend2D.BitSet

open Blend2D.BitOps

/-- The calls. -/
inductive Op where
  | addBit (i : Nat)
  | clearBit (i : Nat)
  | addRange (a b : Nat)
  | clearRange (a b : Nat)
  | assignRange (a b : Nat)
  | clear
  | cardinality

/-- The arguments are 32-bit numbers. -/
def Op.Fits : Op → Prop
  | .addBit i => i < 4294967296
  | .clearBit i => i < 4294967296
  | .addRange a b => a < 4294967296 ∧ b < 4294967296
  | .clearRange a b => a < 4294967296 ∧ b < 4294967296
  | .assignRange a b => a < 4294967296 ∧ b < 4294967296
  | _ => True

/-- What a call does to a set of numbers; the flag says whether it succeeds.  2^32 - 1 cannot be in a set. -/
def Op.spec (f : Nat → Bool) : Op → Bool × (Nat → Bool)
  | .addBit i => if i = 4294967295 then (false, f) else (true, fun k => decide (k = i) || f k)
  | .clearBit i => if i = 4294967295 then (false, f) else (true, fun k => !decide (k = i) && f k)
  | .addRange a b => if b < a then (false, f) else (true, fun k => (decide (a ≤ k) && decide (k < b)) || f k)
  | .clearRange a b => if b < a then (false, f) else (true, fun k => !(decide (a ≤ k) && decide (k < b)) && f k)
  | .assignRange a b => if b < a then (false, f) else (true, fun k => decide (a ≤ k) && decide (k < b))
  | .clear => (true, fun _ => false)
  | .cardinality => (true, f)

/-- The call on the object; `mut'` says whether the implementation is not shared. -/
def Op.apply (newCap : Nat → Nat) (s : BS) (mut' : Bool) : Op → Option (Bool × BS)
  | .addBit i => BitSet.addBit newCap s mut' i
  | .clearBit i => BitSet.clearBit newCap s mut' i
  | .addRange a b => BitSet.addRange newCap s mut' a b
  | .clearRange a b => BitSet.clearRange newCap s mut' a b
  | .assignRange a b => BitSet.assignRange s mut' a b
  | .clear => some (true, BitSet.clear s mut')
  | .cardinality => some (true, (BitSet.cardinality s).2)

/-- A history of calls: the flags that were returned and the object. -/
def runOps (newCap : Nat → Nat) (s : BS) : List (Bool × Op) → Option (List Bool × BS)
  | [] => some ([], s)
  | (m, op) :: r => do
    let (ok, s) ← op.apply newCap s m
    let (oks, s) ← runOps newCap s r
    some (ok :: oks, s)

/-- The same history on a set of numbers. -/
def specOps (f : Nat → Bool) : List Op → List Bool × (Nat → Bool)
  | [] => ([], f)
  | op :: r => ((op.spec f).1 :: (specOps (op.spec f).2 r).1, (specOps (op.spec f).2 r).2)

/-- The calls that are excluded in the partial theorem; nothing is required of `add_bit`, `clear_bit` and `clear`. -/
def Op.Regular (s : BS) : Op → Prop
  | .addRange a b => Addable s a b
  | .clearRange a b => Clearable s a b
  | .assignRange _ _ => ∀ segs cap card, s = .dyn segs cap card → 2 ≤ cap
  | _ => True

/-- All calls of a history are regular in the state in which they are made. -/
def RegularRun (newCap : Nat → Nat) (s : BS) : List (Bool × Op) → Prop
  | [] => True
  | (m, op) :: r => op.Regular s ∧ ∀ p, op.apply newCap s m = some p → RegularRun newCap p.2 r

theorem op_spec {newCap : Nat → Nat} (hc : ∀ n, n ≤ newCap n) {s : BS} {f : Nat → Bool} (h : Holds s f) (m : Bool) {op : Op} (hf : op.Fits)
    (hr : op.Regular s) : ∃ s', op.apply newCap s m = some ((op.spec f).1, s') ∧ Holds s' (op.spec f).2 := by
  obtain ⟨ok, hm⟩ := h
  cases op with
  | addBit i =>
    by_cases hi : i = 4294967295
    · refine ⟨s, ?_, ?_⟩
      · simp only [Op.apply, Op.spec, if_pos hi]
        unfold addBit
        rw [if_pos (by simpa [invalidIndex] using hi)]
      · simp only [Op.spec, if_pos hi]
        exact ⟨ok, hm⟩
    · simp only [Op.apply, Op.spec, if_neg hi]
      have hf' : i < 4294967296 := hf
      obtain ⟨s', e, h'⟩ := addBit_spec hc ok m (bit := i) (by omega)
      exact ⟨s', e, h'.congr fun k => by rw [plus, hm]⟩
  | clearBit i =>
    by_cases hi : i = 4294967295
    · refine ⟨s, ?_, ?_⟩
      · simp only [Op.apply, Op.spec, if_pos hi]
        unfold clearBit
        rw [if_pos (by simpa [invalidIndex] using hi)]
      · simp only [Op.spec, if_pos hi]
        exact ⟨ok, hm⟩
    · simp only [Op.apply, Op.spec, if_neg hi]
      have hf' : i < 4294967296 := hf
      obtain ⟨s', e, h'⟩ := clearBit_spec hc ok m (bit := i) (by omega)
      exact ⟨s', e, h'.congr fun k => by rw [minus, hm]⟩
  | addRange a b =>
    by_cases h1 : b < a
    · refine ⟨s, ?_, ?_⟩
      · simp only [Op.apply, Op.spec, if_pos h1]
        unfold addRange
        rw [if_pos (by omega), if_pos (by omega)]
      · simp only [Op.spec, if_pos h1]
        exact ⟨ok, hm⟩
    · simp only [Op.apply, Op.spec, if_neg h1]
      by_cases h2 : a = b
      · refine ⟨s, ?_, ok, fun k => ?_⟩
        · unfold addRange
          rw [if_pos (by omega), if_neg (by omega)]
        · have : (decide (a ≤ k) && decide (k < b)) = false := by
            rw [Bool.eq_false_iff]; simp; omega
          show _ = _
          rw [hm]; simp only [this]; simp
      · obtain ⟨s', e, h'⟩ := addRange_spec hc ok m (by omega) hf.2 hr
        exact ⟨s', e, h'.congr fun k => by rw [plusR, hm]; rfl⟩
  | clearRange a b =>
    by_cases h1 : b < a
    · refine ⟨s, ?_, ?_⟩
      · simp only [Op.apply, Op.spec, if_pos h1]
        unfold clearRange
        rw [if_pos (by omega), if_pos (by omega)]
      · simp only [Op.spec, if_pos h1]
        exact ⟨ok, hm⟩
    · simp only [Op.apply, Op.spec, if_neg h1]
      by_cases h2 : a = b
      · refine ⟨s, ?_, ok, fun k => ?_⟩
        · unfold clearRange
          rw [if_pos (by omega), if_neg (by omega)]
        · have : (decide (a ≤ k) && decide (k < b)) = false := by
            rw [Bool.eq_false_iff]; simp; omega
          show _ = _
          rw [hm]; simp only [this]; simp
      · obtain ⟨s', e, h'⟩ := clearRange_spec hc ok m (by omega) hf.2 hr
        exact ⟨s', e, h'.congr fun k => by rw [minusR, hm]; rfl⟩
  | assignRange a b =>
    by_cases h1 : b < a
    · refine ⟨s, ?_, ?_⟩
      · simp only [Op.apply, Op.spec, if_pos h1]
        unfold assignRange
        rw [if_pos (by omega), if_pos (by omega)]
      · simp only [Op.spec, if_pos h1]
        exact ⟨ok, hm⟩
    · simp only [Op.apply, Op.spec, if_neg h1]
      obtain ⟨s', e, h'⟩ := assignRange_spec (s := s) m (show a ≤ b by omega) hf.2 hr
      exact ⟨s', e, h'.congr fun k => rfl⟩
  | clear => exact ⟨_, rfl, clear_spec m⟩
  | cardinality =>
    refine ⟨_, rfl, (cardinality_spec ok).2.congr fun k => hm k⟩

theorem run_spec {newCap : Nat → Nat} (hc : ∀ n, n ≤ newCap n) : ∀ (ops : List (Bool × Op)) {s : BS} {f : Nat → Bool}, Holds s f → (∀ p ∈ ops, p.2.Fits) →
    RegularRun newCap s ops → ∃ s', runOps newCap s ops = some ((specOps f (ops.map (·.2))).1, s') ∧ Holds s' (specOps f (ops.map (·.2))).2 := by
  intro ops
  induction ops with
  | nil => intro s f h _ _; exact ⟨s, rfl, h⟩
  | cons p r ih =>
    intro s f h hf hr
    obtain ⟨m, op⟩ := p
    obtain ⟨s1, e1, h1⟩ := op_spec hc h m (hf (m, op) (by simp)) hr.1
    obtain ⟨s2, e2, h2⟩ := ih h1 (fun q hq => hf q (by simp [hq])) (hr.2 _ e1)
    refine ⟨s2, ?_, h2⟩
    simp only [runOps, e1, Option.bind_eq_bind, Option.bind_some, e2]
    rfl

/-- What the queries say about the set `f`: `has_bit`, `get_cardinality`, `is_empty`, `get_range` of a set that is not empty, and the word
iterator. -/
structure Answers (s : BS) (f : Nat → Bool) : Prop where
  has : ∀ i, i < 4294967296 → hasBit s i = some (f i)
  cardinality : (BitSet.cardinality s).1 = count f 4294967296
  empty : isEmpty s = true ↔ ∀ i, f i = false
  range : (∃ i, f i = true) → ∃ a b, getRange s = some (true, a, b) ∧ a < b ∧ f a = true ∧ f (b - 1) = true ∧ ∀ i, f i = true → a ≤ i ∧ i < b
  words : ∃ it l, WordIter.init s = some it ∧ Yields it l ∧ l.Pairwise (fun a b => a.1 < b.1) ∧
    ∀ k x, (k, x) ∈ l ↔ x ≠ 0 ∧ ∀ j, j < 32 → x.getMsbD j = f (k * 32 + j)

theorem queries {s : BS} {f : Nat → Bool} (h : Holds s f) : Answers s f := by
  obtain ⟨ok, hm⟩ := h
  have hfm : member s = f := funext hm
  rw [← hfm]
  exact ⟨fun i hi => hasBit_spec ok hi, (cardinality_spec ok).1, isEmpty_spec ok, fun hne => getRange_spec ok hne, iterate_spec ok⟩

/-- **C36.**  Every history of `add_bit`, `clear_bit`, `clear` and `get_cardinality` on a new set, whatever the representations it goes through, whether the
implementation is shared or not at every call and whatever capacities are allocated: no call has undefined behaviour, every call returns what it should, and in the
end the members, the number of members, emptiness and first and last member are those of the mathematical set. -/
theorem C36_bit_histories {newCap : Nat → Nat} (hc : ∀ n, n ≤ newCap n) (ops : List (Bool × Op)) (hf : ∀ p ∈ ops, p.2.Fits)
    (hops : ∀ p ∈ ops, match p.2 with | .addBit _ => True | .clearBit _ => True | .clear => True | .cardinality => True | _ => False) :
    ∃ s, runOps newCap empty ops = some ((specOps (fun _ => false) (ops.map (·.2))).1, s) ∧ Answers s (specOps (fun _ => false) (ops.map (·.2))).2 := by
  have hreg : ∀ (ops : List (Bool × Op)) (s : BS),
      (∀ p ∈ ops, match p.2 with | .addBit _ => True | .clearBit _ => True | .clear => True | .cardinality => True | _ => False) → RegularRun newCap s ops := by
    intro ops
    induction ops with
    | nil => intro _ _; trivial
    | cons p r ih =>
      intro s h
      refine ⟨?_, fun p' _ => ih p'.2 fun q hq => h q (by simp [hq])⟩
      have := h p (by simp)
      revert this
      cases p.2 <;> simp [Op.Regular]
  obtain ⟨s, e, h⟩ := run_spec hc ops (holds_empty (fun _ => rfl)) hf (hreg ops empty hops)
  exact ⟨s, e, queries h⟩

/-- **C36, partial.**  The same with `add_range`, `clear_range` and `assign_range`, for the calls of these that are `Regular`: see `Addable`,
`Clearable` and `Op.Regular`.  For other calls the claim is false, see below. -/
theorem C36_histories_partial {newCap : Nat → Nat} (hc : ∀ n, n ≤ newCap n) (ops : List (Bool × Op)) (hf : ∀ p ∈ ops, p.2.Fits)
    (hr : RegularRun newCap empty ops) :
    ∃ s, runOps newCap empty ops = some ((specOps (fun _ => false) (ops.map (·.2))).1, s) ∧ Answers s (specOps (fun _ => false) (ops.map (·.2))).2 := by
  obtain ⟨s, e, h⟩ := run_spec hc ops (holds_empty (fun _ => rfl)) hf hr
  exact ⟨s, e, queries h⟩

/-- **C36, partial.**  `has_bits_in_range` after the same histories.  Missing: in place words behind `kSSOLastWord`, see `C36_clear_bit_last_word`. -/
theorem C36_has_bits_in_range_partial {newCap : Nat → Nat} (hc : ∀ n, n ≤ newCap n) (ops : List (Bool × Op)) (hf : ∀ p ∈ ops, p.2.Fits)
    (hr : RegularRun newCap empty ops) {oks : List Bool} {s : BS} (e : runOps newCap empty ops = some (oks, s))
    (hs : ∀ w d, s = .dense w d → w ≤ 134217726) {a b : Nat} (hb : b < 4294967296) :
    ∃ r, hasBitsInRange s a b = some r ∧ (r = true ↔ ∃ i, a ≤ i ∧ i < b ∧ (specOps (fun _ => false) (ops.map (·.2))).2 i = true) := by
  obtain ⟨s', e', ok, hm⟩ := run_spec hc ops (holds_empty (fun _ => rfl)) hf hr
  rw [e] at e'
  obtain rfl := (Prod.mk.inj (Option.some.inj e')).2
  have := hasBitsInRange_spec (a := a) ok hs hb
  simpa only [hm] using this

/-! ### A history that meets the hypotheses -/

theorem forallRun {P : Nat → Nat → Prop} (l : List Seg) : (∀ x y, Seg.range x y ∈ l → P x y) ↔ ∀ g ∈ l, match g with | .range x y => P x y | .dense _ _ => True := by
  constructor
  · intro h g hg
    cases g with
    | range x y => exact h x y hg
    | dense => trivial
  · intro h x y hg; exact h _ hg

instance (l : List Seg) (P : Nat → Nat → Prop) [∀ x y, Decidable (P x y)] : Decidable (∀ x y, Seg.range x y ∈ l → P x y) :=
  haveI : ∀ g : Seg, Decidable (match g with | .range x y => P x y | .dense _ _ => True) := fun g => by cases g <;> infer_instance
  decidable_of_iff _ (forallRun l).symm

instance (a b x y : Nat) : Decidable (RunOK a b x y) := by unfold RunOK; infer_instance

instance (s : BS) (a b : Nat) : Decidable (Addable s a b) := by unfold Addable; cases s <;> infer_instance

instance {α : Type} (o : Option α) (P : α → Prop) [∀ a, Decidable (P a)] : Decidable (∀ l, o = some l → P l) :=
  match o with
  | none => .isTrue (by simp)
  | some l => decidable_of_iff (P l) (by simp)

instance (s : BS) (a b : Nat) : Decidable (Clearable s a b) := by unfold Clearable; cases s <;> infer_instance

instance (s : BS) (op : Op) : Decidable (op.Regular s) := by
  cases op with
  | assignRange a b =>
    cases s with
    | dyn segs cap card => exact decidable_of_iff (2 ≤ cap) (by simp [Op.Regular])
    | _ => exact .isTrue (by simp [Op.Regular])
  | _ => unfold Op.Regular; infer_instance

instance decRegularRun (newCap : Nat → Nat) : (ops : List (Bool × Op)) → (s : BS) → Decidable (RegularRun newCap s ops)
  | [], _ => .isTrue trivial
  | (m, op) :: r, s =>
    haveI : ∀ p : Bool × BS, Decidable (RegularRun newCap p.2 r) := fun p => decRegularRun newCap r p.2
    show Decidable (op.Regular s ∧ ∀ p, op.apply newCap s m = some p → RegularRun newCap p.2 r) from inferInstance

/-- All three representations, runs that are extended and cut, rejected arguments. -/
def sample : List (Bool × Op) :=
  [(true, .addBit 70), (true, .addBit 40), (true, .clear), (true, .addRange 100 700), (true, .addBit 5000), (false, .addRange 640 1500), (true, .clearRange 256 400),
    (true, .cardinality), (true, .clearBit 1000), (true, .addBit 4294967295), (true, .addRange 9 3)]

example : (∀ p ∈ sample, p.2.Fits) ∧ RegularRun (fun n => n + 2) empty sample := by
  constructor
  · intro p hp
    fin_cases hp <;> simp [Op.Fits]
  · decide +kernel

/-- The members the sample has in the end and their number. -/
def sampleResult : Option (List Bool × (Option Bool × Option Bool) × (Option Bool × Option Bool) × Nat) :=
  (runOps (fun n => n + 2) empty sample).map fun p => (p.1, (hasBit p.2 255, hasBit p.2 256), (hasBit p.2 1499, hasBit p.2 1000), (cardinality p.2).1)

/-- The first words the iterator returns. -/
def sampleWords : Option (List (Nat × Word)) := do
  let p ← runOps (fun n => n + 2) empty [(true, .addBit 70), (true, .addBit 40), (true, .addRange 500 900)]
  let it ← WordIter.init p.2
  let (x, it) ← it.next
  let (y, it') ← it.next
  let (z, it'') ← it'.next
  some [(it.word, x), (it'.word, y), (it''.word, z)]

example : sampleWords = some [(1, 0x00800000#32), (2, 0x02000000#32), (15, 0x00000FFF#32)] := by decide +kernel

example : sampleResult = some ([true, true, true, true, true, true, true, true, true, false, false], (some true, some false), (some true, some false), 1256) := by
  decide +kernel

/-! ### Invalid arguments -/

/-- **C36.**  Numbers that cannot be members are rejected and ranges that are not ranges are too; the set stays as it was. -/
theorem C36_invalid (newCap : Nat → Nat) (s : BS) (m : Bool) {a b : Nat} (h : b < a) :
    addBit newCap s m 4294967295 = some (false, s) ∧ clearBit newCap s m 4294967295 = some (false, s) ∧ addRange newCap s m a b = some (false, s) ∧
    clearRange newCap s m a b = some (false, s) ∧ assignRange s m a b = some (false, s) := by
  refine ⟨rfl, rfl, ?_, ?_, ?_⟩
  · unfold addRange; rw [if_pos (by omega), if_pos (by omega)]
  · unfold clearRange; rw [if_pos (by omega), if_pos (by omega)]
  · unfold assignRange; rw [if_pos (by omega), if_pos (by omega)]

/-! ### Calls for which the claim is false -/

/-- `add_range` before the words that are stored in the object writes outside of it. -/
theorem C36_add_range_overflow : runOps (fun n => n) empty [(true, .addBit 32000), (true, .addBit 32002), (true, .addRange 320 330)] = none := by decide +kernel

/-- `add_range` that ends in the first block of a run removes the rest of the run. -/
theorem C36_add_range_loses_bits :
    (runOps (fun n => n) empty [(true, .addRange 256 512), (true, .addBit 5000), (true, .addRange 129 261)]).map (fun p => (p.1, hasBit p.2 300)) =
      some ([true, true, true], some false) ∧
    (specOps (fun _ => false) [.addRange 256 512, .addBit 5000, .addRange 129 261]).2 300 = true := by
  constructor
  · decide +kernel
  · simp [specOps, Op.spec]

/-- `clear_range` inside one block of a run stores the block twice. -/
theorem C36_clear_range_cardinality :
    (runOps (fun n => n) empty [(true, .addRange 0 512), (true, .clearRange 10 20)]).map (fun p => (p.1, (cardinality p.2).1)) = some ([true, true], 610) := by
  decide +kernel

/-- `clear_range` that ends in the last block of a run that another segment follows writes outside of a segment. -/
theorem C36_clear_range_overflow : runOps (fun n => n) empty [(true, .addRange 0 300), (true, .clearRange 10 200)] = none := by decide +kernel

/-- `assign_range` into a set with room for one segment writes two. -/
theorem C36_assign_range_overflow : assignRange (.dyn [] 1 0) true 0 200 = none ∧ OK (.dyn [] 1 0) := by
  refine ⟨by decide +kernel, ⟨⟨⟨by simp, by simp⟩, by simp, by simp⟩, fun i _ => rfl⟩⟩

/-- `get_range` reports that the new set is not empty. -/
theorem C36_get_range_empty : getRange empty = some (true, 0, 0) ∧ isEmpty empty = true := ⟨rfl, rfl⟩

/-- `clear_bit` in a range inside the last word stores words whose second one does not exist; `has_bits_in_range` then denies a number that
`has_bit` reports. -/
theorem C36_clear_bit_last_word :
    (runOps (fun n => n) empty [(true, .addRange 4294967265 4294967270), (true, .clearBit 4294967267)]).map
      (fun p => (p.1, hasBit p.2 4294967265, hasBitsInRange p.2 4294967265 4294967266)) = some ([true, true], some true, some false) := by
  decide +kernel

end Blend2D.BitSet
