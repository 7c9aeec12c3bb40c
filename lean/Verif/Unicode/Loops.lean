import Verif.Unicode.LemmasW
/-! The validation and conversion loops. -/
namespace Blend2D.Unicode
open Bits

theorem text_nil (e : Enc) : Spec.text e [] = [] := rfl
theorem text_cons (e : Enc) (c : Nat) (cs : List Nat) : Spec.text e (c :: cs) = Spec.codePoint false e c ++ Spec.text e cs := rfl
theorem text_append (e : Enc) (a b : List Nat) : Spec.text e (a ++ b) = Spec.text e a ++ Spec.text e b := by
  simp [Spec.text]

theorem win_drop (src : List UInt8) (stop p n : Nat) : (win src stop p).drop n = win src stop (p + n) := by
  unfold win; rw [List.drop_drop]

theorem win_after {src : List UInt8} {stop p : Nat} {bs rest : List UInt8} (h : win src stop p = bs ++ rest) :
    win src stop (p + bs.length) = rest := by
  rw [← win_drop, h]; simp

theorem text_length8 (cs : List Nat) : (Spec.text .utf8 cs).length = (cs.map (fun c => (Spec.utf8 c).length)).sum := by
  induction cs with
  | nil => rfl
  | cons c t ih => rw [text_cons, List.length_append, ih, len_cp]; simp

theorem text_length16 (cs : List Nat) : (Spec.text .utf16 cs).length = 2 * (cs.map (fun c => (Spec.utf16 c).length)).sum := by
  induction cs with
  | nil => rfl
  | cons c t ih => rw [text_cons, List.length_append, ih, len_cp]; simp; omega

theorem text_length32 (cs : List Nat) : (Spec.text .utf32 cs).length = 4 * cs.length := by
  induction cs with
  | nil => rfl
  | cons c t ih => rw [text_cons, List.length_append, ih, len_cp]; simp; omega

theorem text_mod (e : Enc) (cs : List Nat) : (Spec.text e cs).length % charSize e = 0 := by
  induction cs with
  | nil => simp [Spec.text]
  | cons c t ih =>
    have := cp_mod false e c
    rw [text_cons, List.length_append, Nat.add_mod, this, ih]; simp

/-- Reader state after decoding `cs`. -/
def advance (f : Flags) (e : Enc) (r : Reader) : List Nat → Reader
  | [] => r
  | c :: cs => advance f e (okStep f e r c).2.2.2 cs

theorem bump_ptr (f : Flags) (r : Reader) (a b : Nat) : (r.bump f a b).ptr = r.ptr := by
  unfold Reader.bump; split <;> rfl

theorem okStep_ptr (f : Flags) (e : Enc) (r : Reader) (c : Nat) :
    (okStep f e r c).2.2.2.ptr = r.ptr + (Spec.codePoint f.swap e c).length := by
  unfold okStep; rw [bump_ptr]

theorem okStep_res (f : Flags) (e : Enc) (r : Reader) (c : Nat) : (okStep f e r c).1 = .success := by unfold okStep; rfl
theorem okStep_uc (f : Flags) (e : Enc) (r : Reader) (c : Nat) : (okStep f e r c).2.1 = UInt32.ofNat c := by unfold okStep; rfl
theorem okStep_len (f : Flags) (e : Enc) (r : Reader) (c : Nat) :
    (okStep f e r c).2.2.1 = (Spec.codePoint f.swap e c).length := by unfold okStep; rfl

theorem advance_ptr (f : Flags) (hf : f.swap = false) (e : Enc) (cs : List Nat) : ∀ r, (advance f e r cs).ptr = r.ptr + (Spec.text e cs).length := by
  induction cs with
  | nil => intro r; simp [advance, Spec.text]
  | cons c t ih => intro r; simp only [advance]; rw [ih, okStep_ptr, text_cons, List.length_append, hf]; omega

/-- The result of running a reader in strict mode to the end or to the first error. -/
theorem validateLoop_spec (e : Enc) (he : e ≠ .latin1) (f : Flags) (hst : f.strict = true) (hsw : f.swap = false)
    (src : List UInt8) (stop : Nat) (hstop : stop ≤ src.length) :
    ∀ (fuel : Nat) (r : Reader), r.ptr ≤ stop → stop - r.ptr < fuel → (stop - r.ptr) % charSize e = 0 →
    ∃ res cs rest, validateLoop e f src stop fuel r = some (res, advance f e r cs) ∧
      (∀ c ∈ cs, Accepts e c) ∧ win src stop r.ptr = Spec.text e cs ++ rest ∧
      ((res = .success ∧ rest = []) ∨
        ((res = .invalidString ∨ res = .dataTruncated) ∧ rest ≠ [] ∧
          (∀ c, Accepts e c → ¬ Spec.codePoint false e c <+: rest) ∧
          ∃ u n, next e f src stop (advance f e r cs) = some (res, u, n, advance f e r cs))) := by
  intro fuel
  induction fuel with
  | zero => intro r _ h _; omega
  | succ fuel ih =>
    intro r hle hfuel hal
    unfold validateLoop
    by_cases hend : r.ptr = stop
    · refine ⟨.success, [], [], ?_, by simp, ?_, Or.inl ⟨rfl, rfl⟩⟩
      · simp [hend, advance]
      · have : (win src stop r.ptr).length = 0 := by rw [win_length _ _ _ hstop]; omega
        rw [List.length_eq_zero_iff.1 this]; rfl
    · rw [if_pos hend]
      rcases next_spec e he f src stop r hstop (by omega) hal with ⟨c, hr, hp, hn⟩ | ⟨err, u, n, herr, hn, hno⟩
      · rw [hsw] at hp
        have hlen := prefix_le hstop hp (cp_pos _ _ _)
        obtain ⟨rest0, hw⟩ := hp
        have hpos := cp_pos false e c
        have hptr := okStep_ptr f e r c
        rw [hsw] at hptr
        have hmod := cp_mod false e c
        obtain ⟨res, cs, rest, h1, h2, h3, h4⟩ := ih (okStep f e r c).2.2.2 (by omega) (by omega) (by
          rw [hptr]
          have : stop - r.ptr = (stop - (r.ptr + (Spec.codePoint false e c).length)) + (Spec.codePoint false e c).length := by omega
          rw [this, Nat.add_mod, hmod] at hal
          simpa using hal)
        refine ⟨res, c :: cs, rest, ?_, ?_, ?_, h4⟩
        · simp only [hn, Option.bind_eq_bind, Option.bind_some]
          simp only [okStep_res, ne_eq, not_true_eq_false, if_false]
          exact h1
        · intro x hx
          rcases List.mem_cons.1 hx with rfl | hx
          · exact ⟨hr.1, fun h => hr.2 h hst⟩
          · exact h2 x hx
        · rw [text_cons, List.append_assoc, ← h3, hptr, win_after hw.symm, hw]
      · rw [hsw] at hno
        refine ⟨err, [], win src stop r.ptr, ?_, by simp, rfl, Or.inr ⟨herr, ?_, hno, u, n, hn⟩⟩
        · simp only [hn, Option.bind_eq_bind, Option.bind_some]
          rw [if_pos (by rcases herr with h | h <;> rw [h] <;> simp)]; rfl
        · intro h
          have := win_length src stop r.ptr hstop
          rw [h] at this; simp at this; omega

/-- The result of converting in strict mode. -/
theorem convertLoop_spec (de se : Enc) (hde : de ≠ .latin1) (hse : se ≠ .latin1) (f : Flags) (hst : f.strict = true)
    (hsw : f.swap = false) (src : List UInt8) (stop : Nat) (hstop : stop ≤ src.length) (mem0 : List UInt8) :
    ∀ (fuel : Nat) (w : Writer) (r : Reader) (cs0 : List Nat), r.ptr ≤ stop → stop - r.ptr < fuel →
    (stop - r.ptr) % charSize se = 0 →
    w.stop * charSize de ≤ mem0.length → w.ptr ≤ w.stop → w.ptr * charSize de = (Spec.text de cs0).length →
    w.mem = over mem0 0 (Spec.text de cs0) →
    ∃ res cs rest, convertLoop de se f src stop fuel w r =
        some ⟨res, over mem0 0 (Spec.text de (cs0 ++ cs)), (Spec.text de (cs0 ++ cs)).length, r.ptr + (Spec.text se cs).length⟩ ∧
      (∀ c ∈ cs, Accepts se c) ∧ win src stop r.ptr = Spec.text se cs ++ rest ∧
      (Spec.text de (cs0 ++ cs)).length ≤ w.stop * charSize de ∧
      ((res = .success ∧ rest = []) ∨
       ((res = .invalidString ∨ res = .dataTruncated) ∧ rest ≠ [] ∧
          ∀ c, Accepts se c → ¬ Spec.codePoint false se c <+: rest) ∨
       (res = .noSpaceLeft ∧ ∃ c, Accepts se c ∧ Spec.codePoint false se c <+: rest ∧
          w.stop * charSize de < (Spec.text de (cs0 ++ cs ++ [c])).length)) := by
  intro fuel
  induction fuel with
  | zero => intro w r cs0 _ h; omega
  | succ fuel ih =>
    intro w r cs0 hle hfuel hal hws hwp hwt hmem
    unfold convertLoop
    have hlen0 : (Spec.text de cs0).length ≤ w.stop * charSize de := by
      rw [← hwt]; exact Nat.mul_le_mul_right _ hwp
    have hml : w.mem.length = mem0.length := by rw [hmem, over_length _ _ _ (by omega)]
    by_cases hend : r.ptr = stop
    · refine ⟨.success, [], [], ?_, by simp, ?_, by simpa using hlen0, Or.inl ⟨rfl, rfl⟩⟩
      · simp [hend, hmem, hwt, text_nil]
      · have : (win src stop r.ptr).length = 0 := by rw [win_length _ _ _ hstop]; omega
        rw [List.length_eq_zero_iff.1 this]; rfl
    · rw [if_pos hend]
      rcases next_spec se hse f src stop r hstop (by omega) hal with ⟨c, hr, hp, hn⟩ | ⟨err, u, n, herr, hn, hno⟩
      · rw [hsw] at hp
        have hlen := prefix_le hstop hp (cp_pos _ _ _)
        have hpos := cp_pos false se c
        have hptr := okStep_ptr f se r c
        rw [hsw] at hptr
        have hmod := cp_mod false se c
        have hacc : Accepts se c := ⟨hr.1, fun h => hr.2 h hst⟩
        have huc : (UInt32.ofNat c).toNat = c := by simp; have := hr.1; omega
        have hW := write_spec de hde w (UInt32.ofNat c) c huc hr.1 (by omega) hwp
        rcases hW with ⟨hfit, p', hp', hp'', hw⟩ | ⟨hnofit, hw⟩
        · obtain ⟨rest0, hwin⟩ := hp
          obtain ⟨res, cs, rest, h1, h2, h3, h4, h5⟩ := ih
            { w with mem := over w.mem (w.ptr * charSize de) (Spec.codePoint false de c), ptr := p' }
            (okStep f se r c).2.2.2 (cs0 ++ [c]) (by omega) (by omega) (by
              rw [hptr]
              have : stop - r.ptr = (stop - (r.ptr + (Spec.codePoint false se c).length)) + (Spec.codePoint false se c).length := by omega
              rw [this, Nat.add_mod, hmod] at hal
              simpa using hal) hws hp''
            (by rw [hp', hwt, text_append, List.length_append]; simp [text_cons, text_nil])
            (by
              rw [hmem, hwt]
              have := over_over mem0 (Spec.text de cs0) (Spec.codePoint false de c) 0 (by omega)
              rw [Nat.zero_add] at this
              rw [this, text_append, text_cons, text_nil, List.append_nil])
          refine ⟨res, c :: cs, rest, ?_, ?_, ?_, ?_, ?_⟩
          · simp only [hn, Option.bind_eq_bind, Option.bind_some, okStep_res, okStep_uc, ne_eq, not_true_eq_false, if_false, hw]
            rw [h1, hptr]
            simp only [List.append_assoc, List.singleton_append, text_cons, List.length_append, Nat.add_assoc]
          · intro x hx
            rcases List.mem_cons.1 hx with rfl | hx
            · exact hacc
            · exact h2 x hx
          · rw [text_cons, List.append_assoc, ← h3, hptr, win_after hwin.symm, hwin]
          · simpa using h4
          · simpa using h5
        · refine ⟨.noSpaceLeft, [], win src stop r.ptr, ?_, by simp, rfl, by simpa using hlen0,
            Or.inr (Or.inr ⟨rfl, c, hacc, hp, ?_⟩)⟩
          · simp only [hn, Option.bind_eq_bind, Option.bind_some, okStep_res, okStep_uc, okStep_len, ne_eq, not_true_eq_false, if_false, hw]
            rw [hptr, hsw]
            simp [hmem, hwt, text_nil]
          · rw [text_append, List.length_append]; simp only [text_cons, text_nil, List.append_nil]; omega
      · rw [hsw] at hno
        refine ⟨err, [], win src stop r.ptr, ?_, by simp, rfl, by simpa using hlen0, Or.inr (Or.inl ⟨herr, ?_, hno⟩)⟩
        · simp only [hn, Option.bind_eq_bind, Option.bind_some]
          rw [if_pos (by rcases herr with h | h <;> rw [h] <;> simp)]
          simp [hmem, hwt, text_nil]
        · intro h
          have := win_length src stop r.ptr hstop
          rw [h] at this; simp at this; omega

end Blend2D.Unicode
