import Verif.Variation.Law2
import Verif.Settings.Step
/-!
# Font variation settings are maps from tags to values (C37)

Programs make any sequence of calls on any number of objects, which share their content copy-on-write; each call may or may not get memory.
The one input left out is the value negative zero (`C37_negative_zero_counterexample`).
-/
namespace Blend2D.Variation
open Cow
open Blend2D.Settings
open Blend2D.Settings.Spec
open Blend2D.Arr (Result)

/-- The calls the theorems are about: all, but `set_value` with negative zero. -/
def Right (_ : Wld Words F32) (_ : List (Map F32)) : Op F32 → Prop
  | .set _ _ v => v ≠ 0x80000000
  | _ => True

/-- The states a program can reach, with the settings it should see. -/
abbrev Reachable (w : Wld Words F32) (L : List (Map F32)) : Prop := Settings.Reach kind Right w L

theorem right_law (w : Wld Words F32) (L : List (Map F32)) (op : Op F32) (_ : R okV okS w L) (h : Right w L op) :
    LawRight okV (fun _ _ _ => True) (fun _ _ => True) w op := by
  cases op <;> first | exact trivial | exact ⟨h, fun _ _ => trivial⟩ | exact fun _ _ => trivial

theorem reach_R {w : Wld Words F32} {L : List (Map F32)} (h : Reachable w L) : R okV okS w L := (reach_rel law right_law h).1

/-- C37: every call is memory safe in every reachable state; it reports an invalid value exactly when the value is above 65535 or the tag is not
made of printable characters (unless memory ran out before), runs out of memory only if the allocator fails and then changes nothing, and
leaves a state in which the objects hold what the map operation says: all of them unchanged when it failed. -/
theorem C37_calls_partial {w : Wld Words F32} {L : List (Map F32)} (h : Reachable w L) (ok : Bool) (op : Op F32) (hpre : Pre L op)
    (hr : Right w L op) :
    ∃ r w', step kind ok w op = some (r, w') ∧
      (r = .invalidValue ↔ Invalid (fun v => fgt v fMax) op ∧ r ≠ .outOfMemory) ∧ (r = .outOfMemory → ok = false ∧ w' = w) ∧
      Reachable w' (if r = .success then apply L op else L) :=
  call_ok law right_law h ok op hpre hr

/-- C37: the view lists the tags that have a value, with their values, by increasing tag, and `size()` is their number. -/
theorem C37_view {w : Wld Words F32} {L : List (Map F32)} (h : Reachable w L) (i : Nat) (hi : i < L.length) :
    ∃ l, getView kind w i = some l ∧ Lists l (get L i) ∧ getSize kind w i = some l.length :=
  getView_ok law (reach_R h) hi

/-- C37: `has_value` and `get_value` agree with the map; the value of a tag that has none is NaN. -/
theorem C37_lookup {w : Wld Words F32} {L : List (Map F32)} (h : Reachable w L) (i : Nat) (hi : i < L.length) (tag : UInt32) :
    hasValue kind w i tag = some (get L i tag).isSome ∧ getValue kind w i tag = some ((get L i tag).getD 0x7FC00000) :=
  ⟨hasValue_ok law (reach_R h) hi tag (fun _ _ => trivial), getValue_ok law (reach_R h) hi tag⟩

/-- C37: `equals` is equality of the maps, however they are stored; settings with a NaN value may be unequal to equal ones
(`C37_nan_equality_counterexample`). -/
theorem C37_equals_partial {w : Wld Words F32} {L : List (Map F32)} (h : Reachable w L) (i j : Nat) (hi : i < L.length) (hj : j < L.length) :
    ∃ b, equals kind w i j = some b ∧ (b = true → get L i = get L j) ∧
      ((∀ t v, get L i t = some v → isNaN v = false) → get L i = get L j → b = true) :=
  equals_ok law (reach_R h) hi hj

/-- C37: when all objects are reset, no memory is held any more. -/
theorem C37_no_leak {w : Wld Words F32} {L : List (Map F32)} (h : Reachable w L) (hall : ∀ c ∈ w.vars, ∃ s, c = .sso s) :
    ∀ a, w.block? a = none := no_leak (reach_R h) hall

/-! ### A program -/

/-- 'wght' and 'wdth' are known variations, 'ABCD' is not. -/
def wght : UInt32 := 0x77676874
def wdth : UInt32 := 0x77647468
def ABCD : UInt32 := 0x41424344
def half : F32 := 0x3F000000
def hundred : F32 := 0x42C80000

/-- Runs calls that get memory. -/
def run (w : Wld Words F32) : List (Op F32) → Option (Wld Words F32)
  | [] => some w
  | op :: rest => do
    let (_, w) ← step kind true w op
    run w rest

theorem run_reach {w : Wld Words F32} {L : List (Map F32)} (h : Reachable w L) (ops : List (Op F32))
    (hpre : ∀ op ∈ ops, ∀ L' : List (Map F32), L'.length = L.length → Pre L' op)
    (hr : ∀ op ∈ ops, Right w L op) : ∃ w' L', run w ops = some w' ∧ Reachable w' L' ∧ L'.length = L.length := by
  induction ops generalizing w L with
  | nil => exact ⟨w, L, rfl, h, rfl⟩
  | cons op rest ih =>
    obtain ⟨r, w1, e, _, _, h1⟩ := C37_calls_partial h true op (hpre op List.mem_cons_self L rfl) (hr op List.mem_cons_self)
    have hl : (if r = .success then apply L op else L).length = L.length := by
      split
      · cases op <;> simp [apply]
      · rfl
    obtain ⟨w', L', e2, h2, h3⟩ := ih h1 (fun o ho L' hL' => hpre o (List.mem_cons_of_mem _ ho) L' (by rw [hL', hl]))
      (fun o ho => by have := hr o (List.mem_cons_of_mem _ ho); cases o <;> exact this)
    refine ⟨w', L', ?_, h2, by rw [h3, hl]⟩
    simp only [run, e, Option.bind_eq_bind, Option.bind_some]
    exact e2

/-- Setting 'wght', then 'wdth' in front of it, in place; sharing; then a value above one makes the copy dynamic, and the original keeps its own. -/
example : (run (initial kind 2) [.set 0 wght half, .set 0 wdth fOne, .assignWeak 1 0, .set 1 wght hundred, .remove 0 wdth]).map
      (fun w => (getView kind w 0, getView kind w 1, equals kind w 0 1)) =
    some (some [(wght, half)], some [(wdth, fOne), (wght, hundred)], some false) := by decide +kernel

/-- It is one of the reachable states. -/
example : ∃ w L, run (initial kind 2) [.set 0 wght half, .set 0 wdth fOne, .assignWeak 1 0, .set 1 wght hundred, .remove 0 wdth] = some w ∧
    Reachable w L ∧ L.length = 2 :=
  run_reach (.init 2) _ (by
    intro op hop L' hL'
    have h2 : L'.length = 2 := hL'
    simp only [List.mem_cons, List.not_mem_nil, or_false] at hop
    rcases hop with rfl | rfl | rfl | rfl | rfl <;> simp [Pre, Op.target, h2]) (by
    intro op hop
    simp only [List.mem_cons, List.not_mem_nil, or_false] at hop
    rcases hop with rfl | rfl | rfl | rfl | rfl <;> simp only [Right] <;> decide)

/-- What is left out: on an impl, setting zero and then negative zero keeps zero, because the two are equal as floats. -/
theorem C37_negative_zero_counterexample :
    (run (initial kind 1) [.set 0 ABCD half, .set 0 wght 0, .set 0 wght 0x80000000]).map (fun w => getValue kind w 0 wght) =
      some (some 0) := by decide +kernel

/-- `shrink` moves a NaN into the instance, and the comparison of an instance with an impl is by value: the settings of objects 0 and 1 are the
same (`wght` has the same NaN), but the two are not equal. -/
theorem C37_nan_equality_counterexample :
    (run (initial kind 2) [.set 0 wght fNaN, .assignWeak 1 0, .shrink 0]).map
      (fun w => (getView kind w 0, getView kind w 1, equals kind w 0 1)) =
    some (some [(wght, fNaN)], some [(wght, fNaN)], some false) := by decide +kernel

end Blend2D.Variation
