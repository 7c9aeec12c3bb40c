import Verif.Feature.Pack
import Verif.Settings.Step
/-!
# Font feature settings are maps from tags to values (C21)

Programs make any sequence of calls on any number of objects, which share their content copy-on-write; each call may or may not get memory.
The calls left out are those whose effect on an object without heap storage is wrong (the counterexamples at the end).
-/
namespace Blend2D.Feature
open Cow
open Blend2D.Settings
open Blend2D.Settings.Spec
open Blend2D.Arr (Result)
open Blend2D.FontTag (isValidTag featureTags featureToId kInvalidId)

attribute [local irreducible] featureToId

/-- The tag made of four characters. -/
def tag (a b c d : Char) : UInt32 := (((a.val * 256 + b.val) * 256 + c.val) * 256) + d.val

/-- The features that are on or off. -/
def onOff : List UInt32 := [
  tag 'c' 'a' 's' 'e', tag 'c' 'l' 'i' 'g', tag 'c' 'p' 'c' 't', tag 'c' 'p' 's' 'p', tag 'd' 'l' 'i' 'g', tag 'd' 'n' 'o' 'm', tag 'e' 'x'
  'p' 't', tag 'f' 'a' 'l' 't', tag 'f' 'r' 'a' 'c', tag 'f' 'w' 'i' 'd', tag 'h' 'a' 'l' 't', tag 'h' 'i' 's' 't', tag 'h' 'w' 'i' 'd', tag
  'j' 'a' 'l' 't', tag 'k' 'e' 'r' 'n', tag 'l' 'i' 'g' 'a', tag 'l' 'n' 'u' 'm', tag 'o' 'n' 'u' 'm', tag 'o' 'r' 'd' 'n', tag 'p' 'a' 'l'
  't', tag 'p' 'c' 'a' 'p', tag 'r' 'u' 'b' 'y', tag 's' 'm' 'c' 'p', tag 's' 'u' 'b' 's', tag 's' 'u' 'p' 's', tag 't' 'i' 't' 'l', tag 't'
  'n' 'a' 'm', tag 't' 'n' 'u' 'm', tag 'u' 'n' 'i' 'c', tag 'v' 'a' 'l' 't', tag 'v' 'k' 'r' 'n', tag 'z' 'e' 'r' 'o']

/-- The other known features; an object without heap storage has room for four of them. -/
def Wide (t : UInt32) : Prop := t ∈ featureTags ∧ t ∉ onOff

/-- Object `i` has no heap storage. -/
def Inline (w : Wld Words UInt32) (i : Nat) : Prop := ∃ s, w.vars[i]? = some (.sso s)

/-- The calls the theorems are about.  On an object without heap storage, `set_value` is called with at most 1 for the features that are on or
off and not with 16 to 255 for the others, and `remove_value` not for a feature that is between two others of the same kind. -/
def Right (w : Wld Words UInt32) (L : List (Map UInt32)) : Op UInt32 → Prop
  | .set i t v => Inline w i → (t ∈ onOff → v ≤ 1) ∧ (Wide t → v ≤ 15 ∨ v > 255)
  | .remove i t => Inline w i → Wide t → get L i t ≠ none →
      (∀ u, Wide u → u < t → get L i u = none) ∨ (∀ u, Wide u → t < u → get L i u = none)
  | _ => True

/-- The states a program can reach, with the settings it should see. -/
abbrev Reachable (w : Wld Words UInt32) (L : List (Map UInt32)) : Prop := Settings.Reach kind Right w L

theorem onOff_eq : onOff = (List.range 32).map (fun b => tagAt (bitFeat b)) := by decide +kernel

theorem mem_features {id : UInt32} (h : id.toNat < 241) : tagAt id ∈ featureTags := Array.mem_of_getElem? (tagAt_get h)

theorem mem_onOff {id : UInt32} (h : id.toNat < 241) : tagAt id ∈ onOff ↔ bitId id ≠ 63 := by
  rw [onOff_eq, List.mem_map]
  constructor
  · rintro ⟨b, hb, e⟩
    rw [List.mem_range] at hb
    obtain ⟨_, f2, f3⟩ := bitFeat_facts b hb
    have := tagAt_inj f2 h e
    rw [this] at f3
    omega
  · intro h63
    obtain ⟨hb, e⟩ := bitFeat_bitId h63
    exact ⟨bitId id, List.mem_range.2 hb, by rw [e]⟩

theorem wide_iff {id : UInt32} (h : id.toNat < 241) : Wide (tagAt id) ↔ bitId id = 63 := by
  rw [Wide, mem_onOff h]
  constructor
  · rintro ⟨_, h2⟩
    exact Decidable.not_not.1 h2
  · intro h63
    exact ⟨mem_features h, fun hc => hc h63⟩

theorem wide_known {t : UInt32} (h : Wide t) : ∃ id : UInt32, id.toNat < 241 ∧ t = tagAt id ∧ bitId id = 63 := by
  obtain ⟨i, hi, e⟩ := Array.mem_iff_getElem.1 h.1
  have hsz : featureTags.size = 241 := size_features
  have hid : (UInt32.ofNat i).toNat = i := UInt32.toNat_ofNat_of_lt' (Nat.lt_trans (hsz ▸ hi) (by decide))
  have hx : (UInt32.ofNat i).toNat < 241 := by omega
  have he : t = tagAt (UInt32.ofNat i) := by
    have := tagAt_get hx
    rw [hid, Array.getElem?_eq_getElem hi, e] at this
    exact Option.some.inj this
  exact ⟨_, hx, he, (wide_iff hx).1 (he ▸ h)⟩

theorem okS_unique {s : Words} {m m' : Map UInt32} (h : okS s m) (h' : okS s m') : m = m' := by
  obtain ⟨l1, i1, _, i2⟩ := items_ok h
  obtain ⟨l2, j1, _, j2⟩ := items_ok h'
  rw [i1] at j1
  cases j1
  exact lists_map i2 j2

theorem right_law (w : Wld Words UInt32) (L : List (Map UInt32)) (op : Op UInt32) (R : R (fun _ => True) okS w L) (h : Right w L op) :
    LawRight (fun _ => True) okSet okRemove w op := by
  cases op with
  | set i t v =>
    refine ⟨trivial, fun s hs id hid e => ?_⟩
    obtain ⟨h1, h2⟩ := h ⟨s, hs⟩
    by_cases h63 : bitId id = 63
    · rw [if_pos h63]
      exact h2 (e ▸ (wide_iff hid).2 h63)
    · rw [if_neg h63]
      exact h1 (e ▸ (mem_onOff hid).2 h63)
  | remove i t =>
    intro s hs m hm id hid e h63 hne
    have hl : i < L.length := by rw [← R.len]; exact (List.getElem?_eq_some_iff.1 hs).1
    have hL : L[i]? = some (get L i) := by rw [Spec.get, List.getElem?_eq_getElem hl]; rfl
    have hh : okS s (get L i) := R.hold i _ _ hs hL
    have hmm := okS_unique hm hh
    rw [hmm] at hne ⊢
    rcases h ⟨s, hs⟩ (e ▸ (wide_iff hid).2 h63) hne with hb | ha
    · exact .inl fun x hx h63x hlt => hb _ ((wide_iff hx).2 h63x) hlt
    · exact .inr fun x hx h63x hlt => ha _ ((wide_iff hx).2 h63x) hlt
  | _ => exact trivial

theorem reach_R {w : Wld Words UInt32} {L : List (Map UInt32)} (h : Reachable w L) : R (fun _ => True) okS w L := (reach_rel law right_law h).1

/-- C21: every such call is memory safe in every reachable state; it reports an invalid value exactly when the value is above 65535 or the tag is
not made of printable characters (unless memory ran out before), runs out of memory only if the allocator fails and then changes nothing, and
leaves a state in which the objects hold what the map operation says: all of them unchanged when it failed. -/
theorem C21_calls_partial {w : Wld Words UInt32} {L : List (Map UInt32)} (h : Reachable w L) (ok : Bool) (op : Op UInt32) (hpre : Pre L op)
    (hr : Right w L op) :
    ∃ r w', step kind ok w op = some (r, w') ∧
      (r = .invalidValue ↔ Invalid (fun v => decide (v > 65535)) op ∧ r ≠ .outOfMemory) ∧ (r = .outOfMemory → ok = false ∧ w' = w) ∧
      Reachable w' (if r = .success then apply L op else L) :=
  call_ok law right_law h ok op hpre hr

/-- C21: the view lists the tags that have a value, with their values, by increasing tag, and `size()` is their number. -/
theorem C21_view {w : Wld Words UInt32} {L : List (Map UInt32)} (h : Reachable w L) (i : Nat) (hi : i < L.length) :
    ∃ l, getView kind w i = some l ∧ Lists l (get L i) ∧ getSize kind w i = some l.length :=
  getView_ok law (reach_R h) hi

/-- C21: `get_value` agrees with the map; the value of a tag that has none is `BL_FONT_FEATURE_INVALID_VALUE`. -/
theorem C21_get_value {w : Wld Words UInt32} {L : List (Map UInt32)} (h : Reachable w L) (i : Nat) (hi : i < L.length) (t : UInt32) :
    getValue kind w i t = some ((get L i t).getD 0xFFFFFFFF) :=
  getValue_ok law (reach_R h) hi t

/-- C21: `has_value` agrees with the map, unless the object has no heap storage and the tag is a known feature that is not on or off
(`C21_has_value_counterexample`). -/
theorem C21_has_value_partial {w : Wld Words UInt32} {L : List (Map UInt32)} (h : Reachable w L) (i : Nat) (hi : i < L.length) (t : UInt32)
    (ht : Inline w i → ¬ Wide t) : hasValue kind w i t = some (get L i t).isSome :=
  hasValue_ok law (reach_R h) hi t fun s hs _ hid e h63 => ht ⟨s, hs⟩ (e ▸ (wide_iff hid).2 h63)

/-- C21: `equals` is equality of the maps, however they are stored. -/
theorem C21_equals {w : Wld Words UInt32} {L : List (Map UInt32)} (h : Reachable w L) (i j : Nat) (hi : i < L.length) (hj : j < L.length) :
    ∃ b, equals kind w i j = some b ∧ (b = true ↔ get L i = get L j) := by
  obtain ⟨b, e, h1, h2⟩ := equals_ok law (reach_R h) hi hj
  exact ⟨b, e, h1, h2 (fun _ _ _ => trivial)⟩

/-- C21: when all objects are reset, no memory is held any more. -/
theorem C21_no_leak {w : Wld Words UInt32} {L : List (Map UInt32)} (h : Reachable w L) (hall : ∀ c ∈ w.vars, ∃ s, c = .sso s) :
    ∀ a, w.block? a = none := no_leak (reach_R h) hall

/-! ### Programs -/

def kern : UInt32 := tag 'k' 'e' 'r' 'n'
def liga : UInt32 := tag 'l' 'i' 'g' 'a'
def aalt : UInt32 := tag 'a' 'a' 'l' 't'
def salt : UInt32 := tag 's' 'a' 'l' 't'
def swsh : UInt32 := tag 's' 'w' 's' 'h'
def ss01 : UInt32 := tag 's' 's' '0' '1'
def cv42 : UInt32 := tag 'c' 'v' '4' '2'

example : kern ∈ onOff ∧ liga ∈ onOff := by decide +kernel
example : Wide aalt ∧ Wide salt ∧ Wide ss01 ∧ Wide swsh ∧ Wide cv42 := by unfold Wide; decide +kernel

/-- Runs calls that get memory. -/
def run (w : Wld Words UInt32) : List (Op UInt32) → Option (Wld Words UInt32)
  | [] => some w
  | op :: rest => do
    let (_, w) ← step kind true w op
    run w rest

/-- Four settings in place; sharing; a large value makes the copy dynamic, and the original keeps its own. -/
example : (run (initial kind 2) [.set 0 salt 3, .set 0 kern 0, .set 0 aalt 7, .set 0 liga 1, .assignWeak 1 0, .set 1 salt 300, .remove 0 aalt]).map
      (fun w => (getView kind w 0, getView kind w 1, equals kind w 0 1)) =
    some (some [(kern, 0), (liga, 1), (salt, 3)], some [(aalt, 7), (kern, 0), (liga, 1), (salt, 300)], some false) := by decide +kernel

theorem run_snoc {w w1 w2 : Wld Words UInt32} {ops : List (Op UInt32)} {op : Op UInt32} {r : Result} (h : run w ops = some w1)
    (e : step kind true w1 op = some (r, w2)) : run w (ops ++ [op]) = some w2 := by
  induction ops generalizing w with
  | nil =>
    cases h
    simp only [List.nil_append, run, e, Option.bind_eq_bind, Option.bind_some]
  | cons o rest ih =>
    simp only [run, Option.bind_eq_bind] at h
    cases hs : step kind true w o with
    | none => rw [hs] at h; simp at h
    | some p =>
      rw [hs] at h
      simp only [Option.bind_some] at h
      simp only [List.cons_append, run, hs, Option.bind_eq_bind, Option.bind_some]
      exact ih h

/-- A reachable state: two wide features and one that is off, and then the first wide one removed. -/
example : ∃ w L, run (initial kind 1) [.set 0 salt 3, .set 0 kern 0, .set 0 aalt 7, .remove 0 aalt] = some w ∧ Reachable w L ∧ L.length = 1 := by
  have wsalt : Wide salt := by unfold Wide; decide +kernel
  have waalt : Wide aalt := by unfold Wide; decide +kernel
  have h0 : Reachable (initial kind 1) (List.replicate 1 nothing) := .init 1
  have next : ∀ {w : Wld Words UInt32} {L : List (Map UInt32)} {ops : List (Op UInt32)}, run (initial kind 1) ops = some w → Reachable w L → L.length = 1 →
      ∀ op : Op UInt32, op.target = 0 → Pre L op → Right w L op →
      ∃ w' L', run (initial kind 1) (ops ++ [op]) = some w' ∧ Reachable w' L' ∧ L'.length = 1 ∧ (L' = apply L op ∨ L' = L) := by
    intro w L ops hrun hreach hlen op _ hpre hr
    obtain ⟨r, w1, e, _, _, h1⟩ := C21_calls_partial hreach true op hpre hr
    refine ⟨w1, _, run_snoc hrun e, h1, ?_, ?_⟩
    · split
      · cases op <;> simpa [apply] using hlen
      · exact hlen
    · split
      · exact .inl rfl
      · exact .inr rfl
  obtain ⟨w1, L1, r1, h1, l1, d1⟩ := next (ops := []) rfl h0 rfl (.set 0 salt 3) rfl (by simp [Pre, Op.target])
    (fun _ => ⟨fun hc => absurd hc wsalt.2, fun _ => .inl (by decide)⟩)
  obtain ⟨w2, L2, r2, h2, l2, d2⟩ := next r1 h1 l1 (.set 0 kern 0) rfl (by simp [Pre, Op.target, l1])
    (fun _ => ⟨fun _ => by decide, fun _ => .inl (by decide)⟩)
  obtain ⟨w3, L3, r3, h3, l3, d3⟩ := next r2 h2 l2 (.set 0 aalt 7) rfl (by simp [Pre, Op.target, l2])
    (fun _ => ⟨fun hc => absurd hc waalt.2, fun _ => .inl (by decide)⟩)
  have low : ∀ u, Wide u → ¬ u < aalt := by
    rintro u ⟨hu, _⟩
    have : ∀ u ∈ featureTags, ¬ u < aalt := by decide +kernel
    exact this u hu
  obtain ⟨w4, L4, r4, h4, l4, _⟩ := next r3 h3 l3 (.remove 0 aalt) rfl (by simp [Pre, Op.target, l3])
    (fun _ _ _ => .inl fun u hu hlt => absurd hlt (low u hu))
  exact ⟨w4, L4, r4, h4, l4⟩

/-! ### What is left out -/

/-- `has_value` says that a feature that has a value has none, and the other way around: it searches 'cv42' whatever the tag. -/
theorem C21_has_value_counterexample :
    (run (initial kind 1) [.set 0 salt 3]).map (fun w => (getValue kind w 0 salt, hasValue kind w 0 salt)) = some (some 3, some false) ∧
    (run (initial kind 1) [.set 0 cv42 1]).map (fun w => (getValue kind w 0 salt, hasValue kind w 0 salt)) = some (some 0xFFFFFFFF, some true) := by
  decide +kernel

/-- `set_value` with 16 to 255 on an object without heap storage: only four bits of the new value are kept and the next feature gets the others. -/
theorem C21_set_value_counterexample :
    (run (initial kind 1) [.set 0 aalt 1, .set 0 salt 1, .set 0 aalt 100]).map (fun w => getView kind w 0) =
      some (some [(aalt, 4), (salt, 7)]) := by decide +kernel

/-- 100 as a value of 'kern' is refused or accepted depending on where the settings are stored. -/
theorem C21_bit_value_counterexample :
    (step kind true (initial kind 1) (.set 0 kern 100)).map (fun p => p.1) = some .invalidValue ∧
    ((run (initial kind 1) [.set 0 salt 300]).bind (fun w => step kind true w (.set 0 kern 100))).map (fun p => p.1) = some .success := by
  decide +kernel

/-- `remove_value` of a feature between two others sets the value of the next one to zero. -/
theorem C21_remove_value_counterexample :
    (run (initial kind 1) [.set 0 aalt 1, .set 0 salt 2, .set 0 swsh 3, .remove 0 salt]).map (fun w => getView kind w 0) =
      some (some [(aalt, 1), (swsh, 0)]) := by decide +kernel

end Blend2D.Feature
